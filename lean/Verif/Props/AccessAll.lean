import Verif.Props.Access
/-!
# C41: nothing is hidden

The functions that read nodes tell all there is in a node.
-/
namespace Verif.Cypher
open Verif.Peg List

/-- A function that returns the field at a place. -/
def fieldFn (ty : AstType) (i : Nat) (f : Fn) : Bool :=
  isA ⟨0, ty⟩ f.ty &&
  match f.body with
  | .get x => ty.fields.1.findIdx? (· == x) == some i
  | .vt x => match vtField ty x with
    | .ok (some y) => ty.fields.1.findIdx? (· == y) == some i
    | _ => false
  | _ => false

/-- Functions that return what is in the array at a place. -/
def arrayFns (c : Ctor) (k : Nat) (xs : Arr) : Bool :=
  c.ty.fields.2.findIdx? (· == xs) == some k &&
  (Fn.all.any (fun f => isA ⟨0, c.ty⟩ f.ty && f.body == .nth xs) ||
    (Fn.all.any (fun f => isA ⟨0, c.ty⟩ f.ty && f.body == .fst xs) &&
      Fn.all.any (fun f => isA ⟨0, c.ty⟩ f.ty && f.body == .snd xs) &&
      (c.wants.2 == .pairs || c.wants.2 == .cases) && c.nparts == 1) ||
    (Fn.all.any (fun f => isA ⟨0, c.ty⟩ f.ty && f.body == .upto xs) && c == .comparisonOperator) ||
    c == .patternPath)

/-- The flags, from what is stored. -/
def flagsOf (g : Flag → Option Bool) (d : Option Dir) : List Nat :=
  match d with
  | some .inbound => [1, 0]
  | some .outbound => [0, 1]
  | some .bidirectional => [0, 0]
  | none =>
    match g .includeExisting with
    | some e => [((g .distinct).getD false).toNat + 2 * e.toNat]
    | none => ([.unique, .withHeaders, .optional, .detach, .distinct, .ascending, .all_, .single].filterMap g).map
        Bool.toNat

def Ctor.direction : Ctor → Option Dir
  | .relPattern d => some d
  | _ => none

theorem flags_of (c : Ctor) : c.flags = flagsOf c.flag c.direction := by
  cases c <;> first
    | decide +kernel
    | (rename_i a; cases a <;> decide +kernel)
    | (rename_i a b; cases a <;> cases b <;> decide +kernel)

/-- All the flags. -/
def Flag.all : List Flag :=
  [.all_, .ascending, .detach, .distinct, .includeExisting, .optional, .single, .unique, .withHeaders]

/-- All is to be had. -/
def Ctor.open (c : Ctor) : Bool :=
  (List.range c.wants.1.length).all (fun i => Fn.all.any (fieldFn c.ty i)) &&
  (c.wants.2 == .none || (List.range c.nparts).all fun k => c.ty.fields.2.any (arrayFns c k)) &&
  Flag.all.all (fun x => (c.flag x).isSome == Fn.all.any fun f => isA ⟨0, c.ty⟩ f.ty && f.body == .flag x) &&
  (c.direction.isSome == (c.ty == .relPattern)) &&
  (!hasText c.ty || Fn.all.any fun f => isA ⟨0, c.ty⟩ f.ty && f.body == .text)

set_option maxHeartbeats 4000000 in
theorem Ctor.open_all (c : Ctor) : c.open = true := by
  cases c <;> first
    | decide +kernel
    | (rename_i a; cases a <;> decide +kernel)
    | (rename_i a b; cases a <;> cases b <;> decide +kernel)

/-! ## What is told -/

/-- The same answers to all questions. -/
def TellSame (n m : Node) : Prop := ∀ f : Fn, isA n.ref f.ty = true → ∀ i : Nat, f.call n i = f.call m i

theorem same_run {n m : Node} (hty : n.ctor.ty = m.ctor.ty) (h : TellSame n m) {f : Fn}
    (hf : isA ⟨0, n.ctor.ty⟩ f.ty = true) (i : Nat) : f.body.run n i = f.body.run m i := by
  have h1 : isA n.ref f.ty = true := by rw [← hf]; exact isA_id _ _ _ _
  have h2 : isA m.ref f.ty = true := by
    rw [← hf, hty]; exact isA_id _ _ _ _
  have := h f h1 i
  rwa [call_run h1, call_run h2] at this

theorem field_of_idx {n : Node} {x : Field} {i : Nat} (hi : n.ctor.ty.fields.1.findIdx? (· == x) = some i)
    {a : Option Ref} (ha : n.args[i]? = some a) : n.field x = .ok a := by
  simp only [Node.field, hi, ha]

theorem same_args {n m : Node} (hn : WellTyped n) (hm : WellTyped m) (hty : n.ctor.ty = m.ctor.ty) (h : TellSame n m) :
    n.args = m.args := by
  have ln : n.args.length = n.ctor.wants.1.length := by cases hn; rename_i hf _ _ _ _ _; exact fits_length hf
  have lm : m.args.length = n.ctor.wants.1.length := by
    rw [Ctor.wants_of_ty hty]; cases hm; rename_i hf _ _ _ _ _; exact fits_length hf
  have ho := n.ctor.open_all
  simp only [Ctor.open, Bool.and_eq_true] at ho
  refine ext_getElem (by omega) fun i h1 h2 => ?_
  have := all_eq_true.1 ho.1.1.1.1 i (mem_range.2 (by omega))
  obtain ⟨f, -, hf⟩ := any_eq_true.1 this
  simp only [fieldFn, Bool.and_eq_true] at hf
  have hr := same_run hty h hf.1 0
  have e1 : n.args[i]? = some n.args[i] := getElem?_eq_getElem h1
  have e2 : m.args[i]? = some m.args[i] := getElem?_eq_getElem h2
  have hx := hf.2
  split at hx
  · rename_i x hb
    have hx : n.ctor.ty.fields.1.findIdx? (· == x) = some i := by simpa using hx
    rw [hb, run_get (field_of_idx hx e1), run_get (field_of_idx (by rw [← hty]; exact hx) e2)] at hr
    simpa using hr
  · rename_i x hb
    split at hx
    · rename_i y hy
      have hx : n.ctor.ty.fields.1.findIdx? (· == y) = some i := by simpa using hx
      rw [hb] at hr
      simp only [Body.run, hy, ← hty] at hr
      change (do Except.ok (Got.node (← n.field y))) = (do Except.ok (Got.node (← m.field y))) at hr
      rw [field_of_idx hx e1, field_of_idx (by rw [← hty]; exact hx) e2] at hr
      change Except.ok (Got.node n.args[i]) = Except.ok (Got.node m.args[i]) at hr
      simpa using hr
    · cases hx
  · cases hx

theorem same_flag {n m : Node} (hty : n.ctor.ty = m.ctor.ty) (h : TellSame n m) (x : Flag) :
    n.ctor.flag x = m.ctor.flag x := by
  have ho := n.ctor.open_all
  have hp := m.ctor.open_all
  simp only [Ctor.open, Bool.and_eq_true] at ho hp
  have hx : x ∈ Flag.all := by cases x <;> decide
  have o1 := all_eq_true.1 ho.1.1.2 x hx
  have p1 := all_eq_true.1 hp.1.1.2 x hx
  rw [beq_iff_eq] at o1 p1
  rw [← hty, ← o1] at p1
  cases hb : n.ctor.flag x with
  | none =>
    rw [hb] at p1
    cases hc : m.ctor.flag x with
    | none => rfl
    | some b => rw [hc] at p1; cases p1
  | some b =>
    rw [hb] at o1 p1
    obtain ⟨c, hc⟩ := Option.isSome_iff_exists.1 p1
    obtain ⟨f, -, hf⟩ := any_eq_true.1 o1.symm
    rw [Bool.and_eq_true, beq_iff_eq] at hf
    have hr := same_run hty h hf.1 0
    rw [hf.2] at hr
    simp only [Body.run, hb, hc] at hr
    rw [hc]
    simpa using hr

theorem same_direction {n m : Node} (hty : n.ctor.ty = m.ctor.ty) (h : TellSame n m) :
    n.ctor.direction = m.ctor.direction := by
  have ho := n.ctor.open_all
  have hp := m.ctor.open_all
  simp only [Ctor.open, Bool.and_eq_true, beq_iff_eq] at ho hp
  have o1 := ho.1.2
  have p1 := hp.1.2
  by_cases ht : n.ctor.ty = .relPattern
  · have hr := same_run (f := .rel_pattern_get_direction) hty h (by rw [ht]; decide +kernel) 0
    have get : ∀ {k : Node}, k.ctor.direction.isSome = true → ∃ d, k.ctor.direction = some d ∧
        Body.dir.run k 0 = .ok (.dir d) := by
      intro k hk
      obtain ⟨d, hd⟩ := Option.isSome_iff_exists.1 hk
      refine ⟨d, hd, ?_⟩
      unfold Ctor.direction at hd
      split at hd
      · rename_i d' hc; cases hd; simp only [Body.run, hc]
      · cases hd
    obtain ⟨d, d1, d2⟩ := get (k := n) (by rw [o1, ht]; rfl)
    obtain ⟨e, e1, e2⟩ := get (k := m) (by rw [p1, ← hty, ht]; rfl)
    change Body.dir.run n 0 = Body.dir.run m 0 at hr
    rw [d2, e2] at hr
    rw [d1, e1]
    simpa using hr
  · have a : n.ctor.direction.isSome = false := by rw [o1]; simpa using ht
    have b : m.ctor.direction.isSome = false := by rw [p1, ← hty]; simpa using ht
    rw [Option.isSome_eq_false_iff, Option.isNone_iff_eq_none] at a b
    rw [a, b]

theorem same_ctor {n m : Node} (hty : n.ctor.ty = m.ctor.ty) (h : TellSame n m) : n.ctor.plain = m.ctor.plain := by
  refine Ctor.plain_of hty ?_
  rw [flags_of, flags_of, same_direction hty h]
  congr 1
  funext x
  exact same_flag hty h x

theorem plain_ctor {c d : Ctor} (h : c.ty = d.ty) : (c = .comparisonOperator ↔ d = .comparisonOperator) ∧
    (c = .unaryOperator ↔ d = .unaryOperator) ∧ (c = .binaryOperator ↔ d = .binaryOperator) ∧
    (c = .patternPath ↔ d = .patternPath) ∧ c.nparts = d.nparts := by
  have key : ∀ c : Ctor, (c = .comparisonOperator ↔ c.ty = .comparison) ∧
      (c = .unaryOperator ↔ c.ty = .unaryOperator) ∧ (c = .binaryOperator ↔ c.ty = .binaryOperator) ∧
      (c = .patternPath ↔ c.ty = .patternPath) ∧
      c.nparts = if c.ty = .query then 2 else if c.ty = .call then 2 else 1 := by
    intro c; cases c <;> simp [Ctor.ty, Ctor.nparts]
  obtain ⟨a1, a2, a3, a4, a5⟩ := key c
  obtain ⟨b1, b2, b3, b4, b5⟩ := key d
  rw [h] at a1 a2 a3 a4 a5
  exact ⟨a1.trans b1.symm, a2.trans b2.symm, a3.trans b3.symm, a4.trans b4.symm, a5.trans b5.symm⟩

theorem same_ops {n m : Node} (hn : WellTyped n) (hm : WellTyped m) (hty : n.ctor.ty = m.ctor.ty) (h : TellSame n m) :
    n.ops = m.ops := by
  have on : n.ctor.OpsFit n.ops n.seq := by cases hn; assumption
  have om : m.ctor.OpsFit m.ops m.seq := by cases hm; assumption
  obtain ⟨p1, p2, p3, -⟩ := plain_ctor hty
  have one : ∀ {k : Node} {o : Op}, k.ops = [o] → ∀ i, Body.op.run k i = .ok (.op (some o)) := by
    intro k o hk i; simp only [Body.run, hk]
  by_cases c1 : n.ctor = .comparisonOperator
  · refine ext_getElem? fun i => ?_
    have hr := same_run (f := .comparison_get_operator) hty h (by rw [c1]; decide +kernel) i
    change Except.ok (Got.op n.ops[i]?) = Except.ok (Got.op m.ops[i]?) at hr
    simpa using hr
  by_cases c2 : n.ctor = .unaryOperator
  · rw [c2] at on
    rw [p2.1 c2] at om
    obtain ⟨o, ho⟩ := length_eq_one_iff.1 on
    obtain ⟨o', ho'⟩ := length_eq_one_iff.1 om
    have hr := same_run (f := .unary_operator_get_operator) hty h (by rw [c2]; decide +kernel) 0
    change Body.op.run n 0 = Body.op.run m 0 at hr
    rw [one ho, one ho'] at hr
    rw [ho, ho']
    simpa using hr
  by_cases c3 : n.ctor = .binaryOperator
  · rw [c3] at on
    rw [p3.1 c3] at om
    obtain ⟨o, ho⟩ := length_eq_one_iff.1 on
    obtain ⟨o', ho'⟩ := length_eq_one_iff.1 om
    have hr := same_run (f := .binary_operator_get_operator) hty h (by rw [c3]; decide +kernel) 0
    change Body.op.run n 0 = Body.op.run m 0 at hr
    rw [one ho, one ho'] at hr
    rw [ho, ho']
    simpa using hr
  have none_ : ∀ {c : Ctor} {ops : List Op} {s : List Ref}, c.OpsFit ops s → c ≠ .comparisonOperator →
      c ≠ .unaryOperator → c ≠ .binaryOperator → ops = [] := by
    intro c ops s h h1 h2 h3
    unfold Ctor.OpsFit at h
    split at h <;> first | contradiction | exact h
  rw [none_ on c1 c2 c3, none_ om (fun e => c1 (p1.2 e)) (fun e => c2 (p2.2 e)) (fun e => c3 (p3.2 e))]

theorem array_of_idx {n : Node} {xs : Arr} {k : Nat} (hk : n.ctor.ty.fields.2.findIdx? (· == xs) = some k)
    {s : List Ref} (hs : n.parts[k]? = some s) : n.array xs = .ok s := by
  simp only [Node.array, hk, hs]

theorem same_seq {n m : Node} (hn : WellTyped n) (hm : WellTyped m) (hty : n.ctor.ty = m.ctor.ty) (h : TellSame n m) :
    n.seq = m.seq := by
  have sn : n.ctor.wants.2.Holds n.children n.seq := by cases hn; assumption
  have sm : m.ctor.wants.2.Holds m.children m.seq := by cases hm; assumption
  have on : n.ctor.OpsFit n.ops n.seq := by cases hn; assumption
  have om : m.ctor.OpsFit m.ops m.seq := by cases hm; assumption
  obtain ⟨p1, -, -, p4, p5⟩ := plain_ctor hty
  have w2 : n.ctor.wants.2 = m.ctor.wants.2 := by
    have := same_ctor hty h
    have key : ∀ c : Ctor, c.plain.wants.2 = c.wants.2 := by intro c; cases c <;> rfl
    rw [← key, this, key]
  have ho := n.ctor.open_all
  simp only [Ctor.open, Bool.and_eq_true, Bool.or_eq_true, beq_iff_eq] at ho
  rcases ho.1.1.1.2 with hw | hw
  · have e1 := sn.1
    have e2 := sm.1
    rw [← w2] at e2
    rw [hw] at e1 e2
    exact e1.trans e2.symm
  rw [← parts_flatten n, ← parts_flatten m]
  congr 1
  refine ext_getElem (by rw [parts_length, parts_length, p5]) fun k h1 h2 => ?_
  have := all_eq_true.1 hw k (mem_range.2 (by rw [← parts_length]; exact h1))
  obtain ⟨xs, -, hx⟩ := any_eq_true.1 this
  simp only [arrayFns, Bool.and_eq_true, Bool.or_eq_true, beq_iff_eq] at hx
  have a1 : n.array xs = .ok n.parts[k] := array_of_idx hx.1 (getElem?_eq_getElem h1)
  have a2 : m.array xs = .ok m.parts[k] := array_of_idx (by rw [← hty]; exact hx.1) (getElem?_eq_getElem h2)
  have only : ∀ {j : Node} (hj : k < j.parts.length), j.ctor.nparts = 1 → j.parts[k] = j.seq := by
    intro j hj e
    have hm : ∀ s ∈ j.parts, s = j.seq := by rw [one_part e]; simp
    exact hm _ (getElem_mem hj)
  rcases hx.2 with ((hx | hx) | hx) | hx
  · obtain ⟨f, -, hf⟩ := any_eq_true.1 hx
    rw [Bool.and_eq_true, beq_iff_eq] at hf
    refine ext_getElem? fun i => ?_
    have hr := same_run hty h hf.1 i
    rw [hf.2, run_nth a1, run_nth a2] at hr
    simpa using hr
  · obtain ⟨⟨⟨hf, hg⟩, hp⟩, hq⟩ := hx
    obtain ⟨f, -, hf⟩ := any_eq_true.1 hf
    obtain ⟨g, -, hg⟩ := any_eq_true.1 hg
    rw [Bool.and_eq_true, beq_iff_eq] at hf hg
    have v1 := pairs_even hn hp hq a1
    have v2 := pairs_even hm (by rw [← w2]; exact hp) (by rw [← p5]; exact hq) a2
    refine ext_getElem? fun i => ?_
    rcases Nat.mod_two_eq_zero_or_one i with hi | hi
    · have hr := same_run hty h hf.1 (i / 2)
      rw [hf.2, run_fst a1 v1, run_fst a2 v2, show i / 2 * 2 = i by omega] at hr
      simpa using hr
    · have hr := same_run hty h hg.1 (i / 2)
      rw [hg.2, run_snd a1 v1, run_snd a2 v2, show i / 2 * 2 + 1 = i by omega] at hr
      simpa using hr
  · obtain ⟨f, -, hf⟩ := any_eq_true.1 hx.1
    rw [Bool.and_eq_true, beq_iff_eq] at hf
    have hc := hx.2
    have hc' := p1.1 hc
    rw [hc] at on
    rw [hc'] at om
    have l1 : n.ops.length + 1 = n.parts[k].length := by rw [only h1 (by rw [hc]; rfl)]; exact on
    have l2 : m.ops.length + 1 = m.parts[k].length := by rw [only h2 (by rw [hc']; rfl)]; exact om
    refine ext_getElem? fun i => ?_
    have hr := same_run hty h hf.1 i
    rw [hf.2, run_upto a1 l1, run_upto a2 l2] at hr
    simpa using hr
  · have hc := hx
    have hc' := p4.1 hc
    rw [only h1 (by rw [hc]; rfl), only h2 (by rw [hc']; rfl)]
    have el : ∀ {j : Node}, j.ctor = .patternPath → j.elements = .ok j.seq := by
      intro j hj
      cases j
      cases hj
      rw [Node.elements]; rfl
    refine ext_getElem? fun i => ?_
    have hr := same_run (f := .pattern_path_get_element) hty h (by rw [hc]; decide +kernel) i
    change Body.vtNth.run n i = Body.vtNth.run m i at hr
    rw [run_vtNth (el hc), run_vtNth (el hc')] at hr
    simpa using hr

theorem same_text {n m : Node} (hty : n.ctor.ty = m.ctor.ty) (h : TellSame n m) (ht : hasText n.ctor.ty = true) :
    n.text.takeWhile (· ≠ 0) = m.text.takeWhile (· ≠ 0) := by
  have ho := n.ctor.open_all
  simp only [Ctor.open, Bool.and_eq_true, Bool.or_eq_true] at ho
  rcases ho.2 with h0 | h0
  · rw [ht] at h0; cases h0
  · obtain ⟨f, -, hf⟩ := any_eq_true.1 h0
    rw [Bool.and_eq_true, beq_iff_eq] at hf
    have hr := same_run hty h hf.1 0
    rw [hf.2] at hr
    simpa [Body.run] using hr

/-- C41. Two nodes of one type, of trees that the parser yields, for which all the functions return the same (with any
index) hold the same: flags, operators, fields, arrays, and for types with a text the text up to a NUL. -/
theorem accessors_complete {S : Source σ} {src : σ} {w : List UInt8} (h : Delivers S src w)
    {cfg : Config} {only : Bool} {L : List PSeg} (hL : YieldsP S src cfg only L)
    {S' : Source τ} {src' : τ} {w' : List UInt8} (h' : Delivers S' src' w')
    {cfg' : Config} {only' : Bool} {L' : List PSeg} (hL' : YieldsP S' src' cfg' only' L')
    {s s' : PSeg} (hs : s ∈ L) (hs' : s' ∈ L') {x y : Nat × Node} (hx : x ∈ walkAll 0 s.roots)
    (hy : y ∈ walkAll 0 s'.roots) (hty : x.2.ctor.ty = y.2.ctor.ty)
    (he : ∀ f : Fn, SubType x.2.ctor.ty f.ty → ∀ i : Nat, f.call x.2 i = f.call y.2 i) :
    x.2.ctor.plain = y.2.ctor.plain ∧ x.2.ops = y.2.ops ∧ x.2.args = y.2.args ∧ x.2.seq = y.2.seq ∧
      (hasText x.2.ctor.ty = true → x.2.text.takeWhile (· ≠ 0) = y.2.text.takeWhile (· ≠ 0)) := by
  have hn := walkAll_typed s.roots (cypher_well_typed h cfg only hL s hs) x hx
  have hm := walkAll_typed s'.roots (cypher_well_typed h' cfg' only' hL' s' hs') y hy
  have hS : TellSame x.2 y.2 := fun f hf i => he f (isA_sub (r := x.2.ref) hf) i
  exact ⟨same_ctor hty hS, same_ops hn hm hty hS, same_args hn hm hty hS, same_seq hn hm hty hS,
    same_text hty hS⟩

/-! ## Examples -/

/-- The text of the node that is reached by calling functions, each on the node returned by the one before. -/
def follow : List (Fn × Nat) → Node → Option (List UInt8)
  | [], n => some n.text
  | (f, i) :: fs, n =>
    match f.call n i with
    | .ok (.node (some r)) => (n.children.find? fun c => c.ref = r).bind (follow fs)
    | _ => none

/-- The text of the result of following a path from the first root. -/
def reaches (L : List PSeg) (fs : List (Fn × Nat)) : Option (List UInt8) :=
  L.head?.bind fun s => s.roots.head?.bind (follow fs)

/-- From a clause of a query. -/
private def inClause (i : Nat) (fs : List (Fn × Nat)) (t : String) : List (Fn × Nat) × String :=
  ((.statement_get_body, 0) :: (.query_get_clause, i) :: fs, t)

/-- From a column of a query that has but a `RETURN`. -/
private def inColumn (i : Nat) (fs : List (Fn × Nat)) (t : String) : List (Fn × Nat) × String :=
  inClause 0 ((.return_get_projection, i) :: (.projection_get_expression, 0) :: fs) t

/-- From a relationship pattern. -/
private def inRel (fs : List (Fn × Nat)) (t : String) : List (Fn × Nat) × String :=
  inClause 0 ((.match_get_pattern, 0) :: (.pattern_get_path, 0) :: (.named_path_get_path, 0) ::
    (.pattern_path_get_element, 1) :: fs) t

/-- Queries, and what is where. -/
private def samples : List (String × List (List (Fn × Nat) × String)) :=
  [("LOAD CSV FROM 'u' AS v FIELDTERMINATOR 't' RETURN 1;",
    [inClause 0 [(.load_csv_get_url, 0)] "u",
     inClause 0 [(.load_csv_get_identifier, 0)] "v",
     inClause 0 [(.load_csv_get_field_terminator, 0)] "t"]),
   ("WITH a[b..c] AS d ORDER BY e SKIP f LIMIT g WHERE h RETURN 1;",
    [inClause 0 [(.with_get_projection, 0), (.projection_get_expression, 0),
       (.slice_operator_get_expression, 0)] "a",
     inClause 0 [(.with_get_projection, 0), (.projection_get_expression, 0), (.slice_operator_get_start, 0)] "b",
     inClause 0 [(.with_get_projection, 0), (.projection_get_expression, 0), (.slice_operator_get_end, 0)] "c",
     inClause 0 [(.with_get_projection, 0), (.projection_get_alias, 0)] "d",
     inClause 0 [(.with_get_order_by, 0), (.order_by_get_item, 0), (.sort_item_get_expression, 0)] "e",
     inClause 0 [(.with_get_skip, 0)] "f",
     inClause 0 [(.with_get_limit, 0)] "g",
     inClause 0 [(.with_get_predicate, 0)] "h"]),
   ("MATCH (i:j) WHERE l RETURN 1;",
    [inClause 0 [(.match_get_pattern, 0), (.pattern_get_path, 0), (.pattern_path_get_element, 0),
       (.node_pattern_get_identifier, 0)] "i",
     inClause 0 [(.match_get_pattern, 0), (.pattern_get_path, 0), (.pattern_path_get_element, 0),
       (.node_pattern_get_label, 0)] "j",
     inClause 0 [(.match_get_predicate, 0)] "l"]),
   ("RETURN [m IN n WHERE o|p] SKIP u LIMIT w;",
    [inClause 0 [(.return_get_projection, 0), (.projection_get_expression, 0),
       (.list_comprehension_get_identifier, 0)] "m",
     inClause 0 [(.return_get_projection, 0), (.projection_get_expression, 0),
       (.list_comprehension_get_expression, 0)] "n",
     inClause 0 [(.return_get_projection, 0), (.projection_get_expression, 0),
       (.list_comprehension_get_predicate, 0)] "o",
     inClause 0 [(.return_get_projection, 0), (.projection_get_expression, 0),
       (.list_comprehension_get_eval, 0)] "p",
     inClause 0 [(.return_get_skip, 0)] "u",
     inClause 0 [(.return_get_limit, 0)] "w"]),
   ("RETURN 1, CASE q WHEN r THEN s ELSE t END;",
    [inClause 0 [(.return_get_projection, 1), (.projection_get_expression, 0), (.case_get_expression, 0)] "q",
     inClause 0 [(.return_get_projection, 1), (.projection_get_expression, 0), (.case_get_predicate, 0)] "r",
     inClause 0 [(.return_get_projection, 1), (.projection_get_expression, 0), (.case_get_value, 0)] "s",
     inClause 0 [(.return_get_projection, 1), (.projection_get_expression, 0), (.case_get_default, 0)] "t"]),
   ("START a=node:b(c='d') RETURN 1;",
    [inClause 0 [(.start_get_point, 0), (.node_index_lookup_get_identifier, 0)] "a",
     inClause 0 [(.start_get_point, 0), (.node_index_lookup_get_index_name, 0)] "b",
     inClause 0 [(.start_get_point, 0), (.node_index_lookup_get_prop_name, 0)] "c",
     inClause 0 [(.start_get_point, 0), (.node_index_lookup_get_lookup, 0)] "d"]),
   ("MATCH e=()-[f:g|h*1..2 $i]->() USING INDEX j:k(l) RETURN 1;",
    [inClause 0 [(.match_get_pattern, 0), (.pattern_get_path, 0), (.named_path_get_identifier, 0)] "e",
     inRel [(.rel_pattern_get_identifier, 0)] "f",
     inRel [(.rel_pattern_get_reltype, 0)] "g",
     inRel [(.rel_pattern_get_reltype, 1)] "h",
     inRel [(.rel_pattern_get_varlength, 0), (.range_get_start, 0)] "1",
     inRel [(.rel_pattern_get_varlength, 0), (.range_get_end, 0)] "2",
     inRel [(.rel_pattern_get_properties, 0)] "i",
     inClause 0 [(.match_get_hint, 0), (.using_index_get_identifier, 0)] "j",
     inClause 0 [(.match_get_hint, 0), (.using_index_get_label, 0)] "k",
     inClause 0 [(.match_get_hint, 0), (.using_index_get_prop_name, 0)] "l"]),
   ("UNWIND m AS n FOREACH (o IN p|DELETE q) RETURN 1;",
    [inClause 0 [(.unwind_get_expression, 0)] "m",
     inClause 0 [(.unwind_get_alias, 0)] "n",
     inClause 1 [(.foreach_get_identifier, 0)] "o",
     inClause 1 [(.foreach_get_expression, 0)] "p",
     inClause 1 [(.foreach_get_clause, 0), (.delete_get_expression, 0)] "q"]),
   ("SET r.s=t+u CALL v(w,x) YIELD y RETURN 1;",
    [inClause 0 [(.set_get_item, 0), (.set_property_get_property, 0), (.property_operator_get_expression, 0)] "r",
     inClause 0 [(.set_get_item, 0), (.set_property_get_property, 0), (.property_operator_get_prop_name, 0)] "s",
     inClause 0 [(.set_get_item, 0), (.set_property_get_expression, 0), (.binary_operator_get_argument1, 0)] "t",
     inClause 0 [(.set_get_item, 0), (.set_property_get_expression, 0), (.binary_operator_get_argument2, 0)] "u",
     inClause 1 [(.call_get_proc_name, 0)] "v",
     inClause 1 [(.call_get_argument, 0)] "w",
     inClause 1 [(.call_get_argument, 1)] "x",
     inClause 1 [(.call_get_projection, 0), (.projection_get_expression, 0)] "y"]),
   ("RETURN reduce(z=aa,ab IN ac|ad), [(ae)-->() WHERE af|ag], ah[ai], {aj:ak,al:am};",
    [inColumn 0 [(.reduce_get_accumulator, 0)] "z",
     inColumn 0 [(.reduce_get_init, 0)] "aa",
     inColumn 0 [(.reduce_get_identifier, 0)] "ab",
     inColumn 0 [(.reduce_get_expression, 0)] "ac",
     inColumn 0 [(.reduce_get_eval, 0)] "ad",
     inColumn 1 [(.pattern_comprehension_get_pattern, 0), (.pattern_path_get_element, 0),
       (.node_pattern_get_identifier, 0)] "ae",
     inColumn 1 [(.pattern_comprehension_get_predicate, 0)] "af",
     inColumn 1 [(.pattern_comprehension_get_eval, 0)] "ag",
     inColumn 2 [(.subscript_operator_get_expression, 0)] "ah",
     inColumn 2 [(.subscript_operator_get_subscript, 0)] "ai",
     inColumn 3 [(.map_get_key, 0)] "aj",
     inColumn 3 [(.map_get_value, 0)] "ak",
     inColumn 3 [(.map_get_key, 1)] "al",
     inColumn 3 [(.map_get_value, 1)] "am"])]

private def passes (q : String × List (List (Fn × Nat) × String)) : Bool :=
  match collect streamSource (ascii q.1) plainCfg false false 500 with
  | some (.ok (0, _, L)) => q.2.all fun x => decide (reaches L x.1 = some (ascii x.2))
  | _ => false

private theorem samples_pass : samples.all passes = true := by decide +kernel

/-- The functions on the trees of queries. -/
example : ∀ q ∈ samples, ∃ L, YieldsP streamSource (ascii q.1) plainCfg false L ∧
    ∀ x ∈ q.2, reaches L x.1 = some (ascii x.2) := by
  intro q hq
  obtain ⟨L, h1, h2⟩ := yields_of_test (S := streamSource)
    (src := ascii q.1) (cfg := plainCfg) (only := false) (fuel := 500)
    (fun L => q.2.all fun x => decide (reaches L x.1 = some (ascii x.2))) (all_eq_true.1 samples_pass q hq)
  exact ⟨L, h1, fun x hx => of_decide_eq_true (all_eq_true.1 h2 x hx)⟩

end Verif.Cypher
