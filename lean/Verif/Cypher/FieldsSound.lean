import Mathlib.Data.List.Basic
import Verif.Cypher.Fields
import Verif.Cypher.Nesting
import Verif.Cypher.Skeleton
/-!
# Which nodes a block holds: soundness

`Holds m0 A m`: the machine `m` is described by `A`, the machine at the entry of the rule being `m0`.
Every action keeps this, and every node made refers to the nodes it contains.
-/
namespace Verif.Cypher
open Verif.Peg

/-- The nodes of a list that are part of what was parsed. -/
def kept (ns : List Node) : List Ref := (ns.filter fun n => !n.ty.aside).map Node.ref

theorem kept_append (a b : List Node) : kept (a ++ b) = kept a ++ kept b := by simp [kept]

/-- The nodes a node refers to, in the order in which they were written. -/
def Node.fields (n : Node) : List Ref :=
  (n.args.take n.ctor.ahead).flatMap Option.toList ++ n.seq ++
    (n.args.drop n.ctor.ahead).flatMap Option.toList

/-- Apart from comments and errors a node contains the nodes that it refers to, each once, in the order
in which they were written. A range of one number, as in `*2`, has that number for its start and for its
end (`lib/src/parser.leg:786-787`). -/
def Exact (n : Node) : Prop := kept n.children = n.fields ∨
  n.ctor = .range ∧ ∃ r, n.fields = [r, r] ∧ kept n.children = [r]

/-- The variables of the rule and `$$`. -/
abbrev Vals := (Nat → Option Ref) × Option Ref

/-- The variables of the innermost frame. -/
def valOf (fs : List (List (Option (Option Ref)))) (i : Nat) : Option Ref :=
  match fs with
  | [] => none
  | fr :: _ => ((fr[i]?).join).join

def Mach.vals (m : Mach) : Vals := (valOf m.frames, m.self)

/-- What an item stands for. -/
def Held.den (ρ : Vals) (s : List Ref) : Held → List Ref
  | .self => ρ.2.toList
  | .var i => (ρ.1 i).toList
  | .seq => s

def den (ρ : Vals) (s : List Ref) (is : List Held) : List Ref := is.flatMap (Held.den ρ s)

theorem den_append (ρ : Vals) (s : List Ref) (a b : List Held) :
    den ρ s (a ++ b) = den ρ s a ++ den ρ s b := by simp [den]

/-- What was put into a block is as described. -/
def Has (ρ : Vals) : Option (List Held) → List Node → List Ref → Prop
  | none, _, _ => True
  | some is, c, s => kept c = den ρ s is ∧ (.seq ∉ is → s = [])

theorem den_noseq {ρ : Vals} {s s' : List Ref} {is : List Held} (h : .seq ∉ is) :
    den ρ s is = den ρ s' is := by
  unfold den
  induction is with
  | nil => rfl
  | cons x is ih =>
    simp only [List.mem_cons, not_or] at h
    simp only [List.flatMap_cons, ih h.2]
    cases x with
    | seq => exact absurd rfl h.1
    | _ => rfl

theorem Has.le {ρ : Vals} {a b : Option (List Held)} {c : List Node} {s : List Ref} (h : Has ρ a c s)
    (hl : itemsLe a b = true) : Has ρ b c s := by
  cases b with
  | none => trivial
  | some b =>
    cases a with
    | none => cases hl
    | some a =>
      simp only [itemsLe, Bool.or_eq_true, beq_iff_eq, Bool.and_eq_true, Bool.not_eq_true',
        List.contains_iff_mem, ← Bool.not_eq_true] at hl
      rcases hl with rfl | ⟨h1, rfl⟩
      · exact h
      · have hs := h.2 h1
        subst hs
        refine ⟨?_, fun _ => rfl⟩
        rw [h.1]
        clear h h1
        induction b with
        | nil => rfl
        | cons x b ih =>
          by_cases hx : x = .seq
          · subst hx; simp [den, Held.den]
          · rw [List.erase_cons_tail (by simpa using hx)]
            simp only [den, List.flatMap_cons] at ih ⊢
            rw [ih]

/-- The open blocks: those opened since, and below them the entry's with something added. -/
def HStk (b0 : Block) (rest : List Block) (ρ : Vals) : List (Option (List Held)) → List Block → Prop
  | [], _ => False
  | [a], B => ∃ c s, B = { b0 with children := b0.children ++ c, seq := b0.seq ++ s } :: rest ∧ Has ρ a c s
  | a :: a' :: as, B => ∃ b bs, B = b :: bs ∧ Has ρ a b.children b.seq ∧ HStk b0 rest ρ (a' :: as) bs

theorem HStk.imp {b0 : Block} {rest : List Block} {ρ ρ' : Vals}
    {f : Option (List Held) → Option (List Held)} (hf : ∀ a c s, Has ρ a c s → Has ρ' (f a) c s) :
    ∀ {as : List (Option (List Held))} {B : List Block}, HStk b0 rest ρ as B → HStk b0 rest ρ' (as.map f) B
  | [_], _, ⟨c, s, h1, h2⟩ => ⟨c, s, h1, hf _ _ _ h2⟩
  | _ :: _ :: _, _, ⟨b, bs, h1, h2, h3⟩ => ⟨b, bs, h1, hf _ _ _ h2, HStk.imp hf h3⟩

theorem HStk.le {b0 : Block} {rest : List Block} {ρ : Vals} :
    ∀ {as as' : List (Option (List Held))} {B : List Block}, HStk b0 rest ρ as B →
      allLe itemsLe as as' = true → HStk b0 rest ρ as' B
  | [_], [_], _, ⟨c, s, h1, h2⟩, hl => by
    simp only [allLe, Bool.and_true] at hl
    exact ⟨c, s, h1, h2.le hl⟩
  | _ :: _ :: _, _ :: _ :: _, _, ⟨b, bs, h1, h2, h3⟩, hl => by
    rw [allLe, Bool.and_eq_true] at hl
    exact ⟨b, bs, h1, h2.le hl.1, h3.le hl.2⟩
  | [], _, _, h, _ => h.elim
  | [_], [], _, _, hl => by cases hl
  | [_], _ :: _ :: _, _, _, hl => by simp [allLe] at hl
  | _ :: _ :: _, [], _, _, hl => by cases hl
  | _ :: _ :: _, [_], _, _, hl => by simp [allLe] at hl

/-- Something is added to the innermost block. -/
theorem HStk.top {b0 : Block} {rest : List Block} {ρ : Vals} {a a' : Option (List Held)}
    {as : List (Option (List Held))} {B : List Block} (h : HStk b0 rest ρ (a :: as) B) :
    ∃ b bs, B = b :: bs ∧ ∀ c s, (∀ c0 s0, Has ρ a c0 s0 → Has ρ a' (c0 ++ c) (s0 ++ s)) →
      HStk b0 rest ρ (a' :: as) ({ b with children := b.children ++ c, seq := b.seq ++ s } :: bs) := by
  cases as with
  | nil =>
    obtain ⟨c0, s0, h1, h2⟩ := h
    refine ⟨_, _, h1, fun c s hf => ⟨c0 ++ c, s0 ++ s, ?_, hf _ _ h2⟩⟩
    simp
  | cons a2 as =>
    obtain ⟨b, bs, h1, h2, h3⟩ := h
    exact ⟨b, bs, h1, fun c s hf => ⟨_, _, rfl, hf _ _ h2, h3⟩⟩

/-- Rules without variables have no frame. -/
def HFrame (F0 : List (List (Option (Option Ref)))) (n : Nat) (F : List (List (Option (Option Ref)))) :
    Prop :=
  (n = 0 ∧ F = F0) ∨ (n ≠ 0 ∧ ∃ fr, F = fr :: F0 ∧ fr.length = n)

/-- Every node is as it should be. -/
structure AllExact (m : Mach) : Prop where
  blocks : ∀ b ∈ m.blocks, ∀ n ∈ b.children, Everywhere Exact n
  prev : ∀ q, m.prev = some q → ∀ n ∈ q.children, Everywhere Exact n

theorem AllExact.same {m m' : Mach} (h : AllExact m) (hb : m'.blocks = m.blocks) (hp : m'.prev = m.prev) :
    AllExact m' := ⟨by rw [hb]; exact h.blocks, by rw [hp]; exact h.prev⟩

structure HoldsAt (m0 : Mach) (b0 : Block) (rest : List Block) (A : Hold) (m : Mach) : Prop where
  entry : m0.blocks = b0 :: rest
  blks : HStk b0 rest m.vals A.blks m.blocks
  prev : ∀ is, A.prev = some is → ∀ q, m.prev = some q → Has m.vals (some is) q.children q.seq
  keep : A.keep = true → m.self = m0.self
  null : A.null = true → m.self = none
  nulls : ∀ i ∈ A.nulls, valOf m.frames i = none
  frame : HFrame m0.frames A.nv m.frames
  exact : AllExact m
  num : Numbered m

def Holds (m0 : Mach) (A : Hold) (m : Mach) : Prop := ∃ b0 rest, HoldsAt m0 b0 rest A m

theorem Hold.le_iff {a b : Hold} (h : a.le b = true) : allLe itemsLe a.blks b.blks = true ∧
    itemsLe a.prev b.prev = true ∧ (b.keep = true → a.keep = true) ∧ (b.null = true → a.null = true) ∧
    (∀ i ∈ b.nulls, i ∈ a.nulls) ∧ a.nv = b.nv := by
  simp only [Hold.le, Bool.and_eq_true, Bool.or_eq_true, Bool.not_eq_true', beq_iff_eq, List.all_eq_true,
    List.contains_iff_mem] at h
  obtain ⟨⟨⟨⟨⟨h1, h2⟩, h3⟩, h4⟩, h5⟩, h6⟩ := h
  refine ⟨h1, h2, fun e => ?_, fun e => ?_, h5, h6⟩
  · rcases h3 with h3 | h3
    · rw [h3] at e; cases e
    · exact h3
  · rcases h4 with h4 | h4
    · rw [h4] at e; cases e
    · exact h4

theorem Holds.le {m0 m : Mach} {A B : Hold} (h : Holds m0 A m) (hl : A.le B = true) : Holds m0 B m := by
  obtain ⟨b0, rest, h⟩ := h
  obtain ⟨h1, h2, h3, h4, h5, h6⟩ := Hold.le_iff hl
  refine ⟨b0, rest, h.entry, h.blks.le h1, fun is his q hq => ?_, fun e => h.keep (h3 e),
    fun e => h.null (h4 e), fun i hi => h.nulls i (h5 i hi), h6 ▸ h.frame, h.exact, h.num⟩
  cases ha : A.prev with
  | none => rw [ha, his] at h2; cases h2
  | some js =>
    rw [ha, his] at h2
    exact (h.prev js ha q hq).le h2

theorem Hold.join_le {a b j : Hold} (h : a.join b = some j) : a.le j = true ∧ b.le j = true := by
  unfold Hold.join at h
  simp only at h
  split at h
  · rename_i hc
    simp only [Bool.and_eq_true] at hc
    cases h; exact hc
  · cases h

/-! ### Values change -/

theorem Has.forget {ρ ρ' : Vals} {x : Held} (h : ∀ y s, y ≠ x → Held.den ρ' s y = Held.den ρ s y)
    (a : Option (List Held)) (c : List Node) (s : List Ref) (ha : Has ρ a c s) : Has ρ' (drop x a) c s := by
  cases a with
  | none => trivial
  | some is =>
    simp only [drop]
    split
    · trivial
    · rename_i hx
      rw [List.contains_iff_mem] at hx
      refine ⟨?_, ha.2⟩
      rw [ha.1]
      unfold den
      refine List.flatMap_congr fun y hy => (h y s fun e => hx (e ▸ hy)).symm

theorem Has.renamed {ρ : Vals} {x y : Held} (hx : x ≠ .seq)
    (h : ∀ s, Held.den ρ s x = Held.den ρ s y)
    (a : Option (List Held)) (c : List Node) (s : List Ref) (ha : Has ρ a c s) : Has ρ (rename x y a) c s := by
  cases a with
  | none => trivial
  | some is =>
    refine ⟨?_, fun hs => ha.2 fun hm => hs ?_⟩
    · rw [ha.1]
      simp only [den, List.flatMap_map]
      refine List.flatMap_congr fun z _ => ?_
      split
      · rename_i e; rw [e]; exact h s
      · rfl
    · exact List.mem_map.2 ⟨.seq, hm, by simp [Ne.symm hx]⟩

theorem Has.nothing {ρ : Vals} {x : Held} (hx : x ≠ .seq) (h : ∀ s, Held.den ρ s x = [])
    (a : Option (List Held)) (c : List Node) (s : List Ref) (ha : Has ρ a c s) : Has ρ (without x a) c s := by
  cases a with
  | none => trivial
  | some is =>
    refine ⟨?_, fun hs => ha.2 fun hm => hs ?_⟩
    · rw [ha.1]
      clear ha
      unfold den
      induction is with
      | nil => rfl
      | cons z is ih =>
        by_cases hz : z = x
        · subst hz; simp [h, ih]
        · simp [hz, ih]
    · simp [hm, Ne.symm hx]

theorem forgetSelf_holds {m0 m : Mach} {b0 : Block} {rest : List Block} {A : Hold} {v : Option Ref}
    (h : HoldsAt m0 b0 rest A m) : HoldsAt m0 b0 rest A.forgetSelf { m with self := v } := by
  have hf := Has.forget (ρ := m.vals) (ρ' := ({ m with self := v } : Mach).vals) (x := .self)
    (fun y s hy => by cases y <;> first | rfl | exact absurd rfl hy)
  refine ⟨h.entry, h.blks.imp hf, fun is his q hq => ?_, (fun e => by cases e), (fun e => by cases e), h.nulls,
    h.frame, h.exact.same rfl rfl, h.num.same ⟨rfl, rfl, rfl⟩⟩
  have his : drop .self A.prev = some is := his
  cases ha : A.prev with
  | none => rw [ha] at his; cases his
  | some js =>
    have := hf _ _ _ (h.prev js ha q hq)
    rw [← ha, his] at this
    exact this

theorem setVar_vals {m m' : Mach} {i : Nat} {v : Option Ref} (h : m.setVar i v = .ok m') :
    ∃ fr frs, m.frames = fr :: frs ∧ i < fr.length ∧ m' = { m with frames := fr.set i (some v) :: frs } := by
  unfold Mach.setVar at h
  split at h
  · cases h
  · rename_i fr frs hf
    split at h
    · rename_i hi; cases h; exact ⟨fr, frs, hf, hi, rfl⟩
    · cases h

theorem forgetVar_holds {m0 m m' : Mach} {b0 : Block} {rest : List Block} {A : Hold} {v : Option Ref} {i : Nat}
    (h : HoldsAt m0 b0 rest A m) (hi : i < A.nv) (hm : m.setVar i v = .ok m') :
    HoldsAt m0 b0 rest (A.forgetVar i) m' ∧ valOf m'.frames i = v := by
  obtain ⟨fr, frs, hfr, hil, rfl⟩ := setVar_vals hm
  have hother : ∀ j, j ≠ i → valOf (fr.set i (some v) :: frs) j = valOf m.frames j := by
    intro j hj
    simp only [valOf, hfr, List.getElem?_set_ne (Ne.symm hj)]
  have hf := Has.forget (ρ := m.vals) (ρ' := ({ m with frames := fr.set i (some v) :: frs } : Mach).vals)
    (x := .var i) (fun y s hy => by
      cases y with
      | var j =>
        have : j ≠ i := fun e => hy (e ▸ rfl)
        simp only [Held.den, Mach.vals, hother j this]
      | _ => rfl)
  refine ⟨⟨h.entry, h.blks.imp hf, fun is his q hq => ?_, h.keep, h.null, fun j hj => ?_, ?_,
    h.exact.same rfl rfl, h.num.same ⟨rfl, rfl, rfl⟩⟩, ?_⟩
  · have his : drop (.var i) A.prev = some is := his
    cases ha : A.prev with
    | none => rw [ha] at his; cases his
    | some js =>
      have := hf _ _ _ (h.prev js ha q hq)
      rw [← ha, his] at this
      exact this
  · simp only [Hold.forgetVar, Hold.map, List.mem_filter, decide_eq_true_eq] at hj
    show valOf (fr.set i (some v) :: frs) j = none
    rw [hother j hj.2]
    exact h.nulls j hj.1
  · rcases h.frame with ⟨e, -⟩ | ⟨e, fr', e1, e2⟩
    · omega
    · rw [hfr] at e1
      cases e1
      exact .inr ⟨e, _, rfl, by rw [List.length_set]; exact e2⟩
  · simp [valOf, hil]

theorem map_holds {m0 m : Mach} {b0 : Block} {rest : List Block} {A : Hold}
    {f : Option (List Held) → Option (List Held)} (hnone : f none = none) (h : HoldsAt m0 b0 rest A m)
    (hf : ∀ a c s, Has m.vals a c s → Has m.vals (f a) c s) : HoldsAt m0 b0 rest (A.map f) m := by
  refine ⟨h.entry, h.blks.imp hf, fun is his q hq => ?_, h.keep, h.null, h.nulls, h.frame, h.exact, h.num⟩
  have his : f A.prev = some is := his
  cases ha : A.prev with
  | none => rw [ha, hnone] at his; cases his
  | some js =>
    have := hf _ _ _ (h.prev js ha q hq)
    rw [← ha, his] at this
    exact this

/-- `v:` at a call. -/
theorem setSelf_holds {env : Env} {m0 m m' : Mach} {A A' : Hold} {v : Option Nat} (h : Holds m0 A m)
    (ha : A.setSelf v = some A') (he : Mach.exec env (setT v) m = .ok m') : Holds m0 A' m' := by
  cases v with
  | none => cases ha; cases he; exact h
  | some i =>
    have he : m.setVar i m.self = .ok m' := by
      simpa [setT, Mach.exec, Mach.step, bind, Except.bind] using he
    simp only [Hold.setSelf] at ha
    split at ha
    · rename_i hi
      cases ha
      obtain ⟨b0, rest, h⟩ := h
      obtain ⟨h1, h2⟩ := forgetVar_holds h hi he
      have hself : m'.self = m.self := by
        obtain ⟨_, _, _, _, rfl⟩ := setVar_vals he; rfl
      have h3 := map_holds (f := rename .self (.var i)) rfl h1 (Has.renamed (by simp) fun s => by
        simp only [Held.den, Mach.vals, h2, hself])
      refine ⟨b0, rest, h3.entry, h3.blks, h3.prev, h3.keep, h3.null, fun j hj => ?_, h3.frame, h3.exact, h3.num⟩
      simp only at hj
      split at hj
      · rename_i hn
        rcases List.mem_cons.1 hj with rfl | hj
        · rw [h2]; exact h.null hn
        · exact h3.nulls j hj
      · exact h3.nulls j hj
    · cases ha

/-! ### Builders -/

theorem getVar_val {m : Mach} {i : Nat} {v : Option Ref} (h : m.getVar i = .ok v) : v = valOf m.frames i := by
  unfold Mach.getVar at h
  unfold valOf
  split at h
  · cases h
  · rename_i fr frs hf
    rw [hf]
    simp only
    split at h
    · cases h
    · cases h
    · rename_i w hw; cases h; rw [hw]; rfl

theorem getArgs_val {m : Mach} : ∀ {as : List (Option Nat)} {vs : List (Option Ref)},
    m.getArgs as = .ok vs → vs = as.map fun a => a.bind (valOf m.frames)
  | [], vs, h => by cases h; rfl
  | none :: as, vs, h => by
    simp only [Mach.getArgs] at h
    obtain ⟨ws, h1, h⟩ := bind_ok h
    cases h
    rw [getArgs_val h1]; rfl
  | some i :: as, vs, h => by
    simp only [Mach.getArgs] at h
    obtain ⟨v, h0, h⟩ := bind_ok h
    obtain ⟨ws, h1, h⟩ := bind_ok h
    cases h
    rw [getArgs_val h1, getVar_val h0]; rfl

/-- A node was added. -/
def Mach.added (m : Mach) (b : Block) (bs : List Block) (n : Node) (os : List Op) : Mach :=
  { m with
    blocks := { b with children := b.children ++ [n] } :: bs
    prev := none
    ops := os
    next := m.next + 1 }

/-- What a builder does. -/
theorem build_fields {env : Env} {c : Ctor} {args : List (Option Ref)} {m : Mach} {x : Mach × Ref}
    (h : Mach.build env c args m = .ok x) : ∃ q b bs n os, m.prev = some q ∧ m.blocks = b :: bs ∧
      x.1 = m.added b bs n os ∧ x.2 = n.ref ∧ n.ctor = c ∧ n.children = q.children ∧
      ((c.terminal.isSome = true ∧ n.children = [] ∧ n.args = [] ∧ n.seq = []) ∨
        c.terminal = none ∧ n.args = args ∧ n.seq = if c.checks.2 = .none then [] else q.seq) := by
  have key : ∀ {m1 m2 : Mach} {n : Node}, m1.addChild n = .ok m2 → ∃ b bs, m1.blocks = b :: bs ∧
      m2 = { m1 with blocks := { b with children := b.children ++ [n] } :: bs, next := m1.next + 1 } := by
    intro m1 m2 n h
    unfold Mach.addChild at h
    split at h
    · cases h
    · rename_i b bs hb
      cases h; exact ⟨b, bs, hb, rfl⟩
  unfold Mach.build at h
  split at h
  · rename_i k hk
    unfold Mach.terminal at h
    split at h
    · cases h
    · rename_i q hq
      obtain ⟨t, -, h⟩ := bind_ok h
      simp only at h
      split at h
      · cases h
      · rename_i hc
        obtain ⟨m1, h1, h⟩ := bind_ok h
        cases h
        obtain ⟨b, bs, e1, e2⟩ := key h1
        have : q.children = [] := by simpa using hc
        exact ⟨q, b, bs, _, m.ops, hq, e1, e2, rfl, rfl, by rw [this]; rfl,
          .inl ⟨by simp [hk], rfl, rfl, rfl⟩⟩
  · rename_i hk
    unfold Mach.branch at h
    split at h
    · cases h
    · rename_i q hq
      obtain ⟨os, -, h⟩ := bind_ok h
      simp only at h
      split at h
      · cases h
      · split at h
        · cases h
        · cases h
        · obtain ⟨m1, h1, h⟩ := bind_ok h
          cases h
          obtain ⟨b, bs, e1, e2⟩ := key h1
          exact ⟨q, b, bs, _, os.2, hq, e1, e2, rfl, rfl, rfl, .inr ⟨hk, rfl, rfl⟩⟩

theorem den_args (ρ : Vals) (s : List Ref) (as : List (Option Nat)) :
    den ρ s (as.flatMap asItem) = (as.map fun a => a.bind ρ.1).flatMap Option.toList := by
  induction as with
  | nil => rfl
  | cons a as ih =>
    rw [List.flatMap_cons, den_append, ih, List.map_cons, List.flatMap_cons]
    cases a <;> simp [asItem, den, Held.den]

/-- The node made of a block refers to the nodes of the block. -/
theorem exact_of {ρ : Vals} {c : Ctor} {args : List (Option Nat)} {is : List Held} {n : Node} {s : List Ref}
    (hm : matches_ c args is = true)
    (hh : Has ρ (some is) n.children s) (hc : n.ctor = c) (ha : n.args = args.map fun a => a.bind ρ.1)
    (hs : n.seq = if c.checks.2 = .none then [] else s) : Exact n := by
  unfold Exact
  simp only [matches_, Bool.or_eq_true] at hm
  rcases hm with hm | hm
  · have hh := hh.le hm
    have he : n.fields = den ρ s (wanted c args) := by
      unfold Node.fields wanted
      rw [den_append, den_append, den_args, den_args, hc, ha, hs, List.map_take, List.map_drop]
      congr 2
      split <;> simp [den, Held.den]
    exact .inl (by rw [he, hh.1])
  · split at hm
    · rename_i i j
      simp only [Bool.and_eq_true, beq_iff_eq] at hm
      obtain ⟨rfl, rfl⟩ := hm
      have h1 := hh.1
      unfold Node.fields
      rw [h1, hc, ha, hs]
      simp only [den, Ctor.ahead, Ctor.checks, List.flatMap_cons, List.flatMap_nil, Held.den]
      cases hv : ρ.1 i with
      | none => exact .inl (by simp [hv])
      | some r => exact .inr ⟨trivial, r, by simp [hv], by simp⟩
    · cases hm

/-- A node is added to the innermost block. -/
theorem add_holds {m0 m : Mach} {b0 b : Block} {rest bs : List Block} {A A' : Hold} {n : Node} {os : List Op}
    {f : Option (List Held) → Option (List Held)}
    (h : HoldsAt m0 b0 rest A m) (hb : m.blocks = b :: bs) (ha : A.onTop f = some A')
    (hnum : Numbered (m.added b bs n os)) (hn : Everywhere Exact n)
    (hf : ∀ a c s, Has m.vals a c s → Has m.vals (f a) (c ++ [n]) s) :
    HoldsAt m0 b0 rest { A' with prev := none } (m.added b bs n os) := by
  unfold Hold.onTop at ha
  split at ha
  · cases ha
  · rename_i a as hbl
    cases ha
    have hst := h.blks
    rw [hbl] at hst
    obtain ⟨b', bs', e1, e2⟩ := hst.top (a' := f a)
    rw [hb] at e1
    cases e1
    refine ⟨h.entry, ?_, (fun is his => by cases his), h.keep, h.null, h.nulls, h.frame,
      ⟨fun x hx y hy => ?_, (fun q hq => by cases hq)⟩, hnum⟩
    · have := e2 [n] [] fun c s hc => by rw [List.append_nil]; exact hf a c s hc
      rw [List.append_nil] at this
      exact this
    · rcases List.mem_cons.1 hx with rfl | hx
      · rcases List.mem_append.1 hy with hy | hy
        · exact h.exact.blocks _ (by rw [hb]; exact List.mem_cons_self) y hy
        · rw [List.mem_singleton.1 hy]; exact hn
      · exact h.exact.blocks x (by rw [hb]; exact List.mem_cons_of_mem _ hx) y hy

theorem HStk.ne {b0 : Block} {rest : List Block} {ρ : Vals} {as : List (Option (List Held))} {B : List Block}
    (h : HStk b0 rest ρ as B) : ∃ a as', as = a :: as' := by
  cases as with
  | nil => exact h.elim
  | cons a as => exact ⟨a, as, rfl⟩

theorem has_aside {ρ : Vals} {n : Node} (hn : n.ty.aside = true) (a : Option (List Held)) (c : List Node)
    (s : List Ref) (h : Has ρ a c s) : Has ρ a (c ++ [n]) s := by
  cases a with
  | none => trivial
  | some is =>
    refine ⟨?_, h.2⟩
    rw [kept_append, h.1]
    simp [kept, hn]

theorem has_add {ρ : Vals} {n : Node} {x : Held} (hn : n.ty.aside = false) (hx : ∀ s, Held.den ρ s x = [n.ref])
    (hs : x ≠ .seq) (a : Option (List Held)) (c : List Node) (s : List Ref) (h : Has ρ a c s) :
    Has ρ (addItem x a) (c ++ [n]) s := by
  cases a with
  | none => trivial
  | some is =>
    refine ⟨?_, fun e => h.2 fun e' => e (by simp [e'])⟩
    rw [kept_append, h.1, den_append]
    simp [kept, hn, den, hx]

theorem noPrev_holds {m0 m : Mach} {b0 : Block} {rest : List Block} {A : Hold} (h : HoldsAt m0 b0 rest A m) :
    HoldsAt m0 b0 rest { A with prev := none } m :=
  ⟨h.entry, h.blks, (fun is his => by cases his), h.keep, h.null, h.nulls, h.frame, h.exact, h.num⟩

/-- The node a builder makes. -/
theorem built_exact {env : Env} {m0 m : Mach} {b0 : Block} {rest : List Block} {A : Hold} {c : Ctor}
    {args : List (Option Nat)} {vs : List (Option Ref)} {x : Mach × Ref} (h : HoldsAt m0 b0 rest A m)
    (hc : A.fits c args = true) (hv : m.getArgs args = .ok vs) (hb : Mach.build env c vs m = .ok x) :
    ∃ b bs n os, m.blocks = b :: bs ∧ x = (m.added b bs n os, n.ref) ∧ n.ty = c.ty ∧ Everywhere Exact n := by
  obtain ⟨q, b, bs, n, os, h1, h2, h3, h4, h5, h6, h7⟩ := build_fields hb
  refine ⟨b, bs, n, os, h2, Prod.ext h3 h4, by rw [Node.ty, h5], ?_⟩
  refine .mk ?_ fun y hy => h.exact.prev q h1 y (h6 ▸ hy)
  rcases h7 with ⟨-, e1, e2, e3⟩ | ⟨e0, e1, e2⟩
  · simp [Exact, Node.fields, kept, e1, e2, e3]
  · unfold Hold.fits at hc
    rw [e0] at hc
    simp only [Option.isSome_none, Bool.false_or] at hc
    split at hc
    · rename_i is his
      have hh := h.prev is his q h1
      rw [← h6] at hh
      refine exact_of (ρ := m.vals) (s := q.seq) hc hh h5 ?_ e2
      rw [e1, getArgs_val hv]; rfl
    · cases hc

theorem onTop_prev {A A' : Hold} {f : Option (List Held) → Option (List Held)} (h : A.onTop f = some A')
    (hp : A.prev = none) : { A' with prev := none } = A' := by
  unfold Hold.onTop at h
  split at h
  · cases h
  · cases h; rw [← hp]

theorem store_holds {m0 m m' : Mach} {b0 b : Block} {rest bs : List Block} {A A' : Hold} {d : Dst} {n : Node}
    {os : List Op} (h : HoldsAt m0 b0 rest A m) (hp : A.prev = none) (hb : m.blocks = b :: bs)
    (ha : A.store d n.ty.aside = some A') (hm : (m.added b bs n os).assign d (some n.ref) = .ok m')
    (hnum : Numbered m') (hn : Everywhere Exact n) : HoldsAt m0 b0 rest A' m' := by
  have key : ∀ {B B' : Hold} {m1 : Mach} {x : Held}, HoldsAt m0 b0 rest B m1 → m1.blocks = b :: bs →
      B.onTop (if n.ty.aside = true then id else addItem x) = some B' → Numbered (m1.added b bs n os) →
      B.prev = none → (∀ s, Held.den m1.vals s x = [n.ref]) → x ≠ .seq →
      HoldsAt m0 b0 rest B' (m1.added b bs n os) := by
    intro B B' m1 x h1 h2 h3 h4 h5 h6 h7
    rw [← onTop_prev h3 h5]
    refine add_holds h1 h2 h3 h4 hn ?_
    cases hs : n.ty.aside with
    | true => exact has_aside hs
    | false => exact has_add hs h6 h7
  cases d with
  | self =>
    cases hm
    exact key (forgetSelf_holds (v := some n.ref) h) hb ha hnum (by simp [Hold.forgetSelf, Hold.map, hp, drop])
      (fun _ => rfl) (by simp)
  | var i =>
    simp only [Hold.store] at ha
    split at ha
    · rename_i hi
      obtain ⟨fr, frs, e1, e2, e3⟩ := setVar_vals hm
      have hs : m.setVar i (some n.ref) = .ok { m with frames := fr.set i (some (some n.ref)) :: frs } := by
        have e1 : m.frames = fr :: frs := e1
        unfold Mach.setVar
        rw [e1]
        simp only [e2, if_true]
      obtain ⟨g1, g2⟩ := forgetVar_holds h hi hs
      rw [e3]
      have hnum : Numbered (({ m with frames := fr.set i (some (some n.ref)) :: frs } : Mach).added b bs n os) := by
        rw [e3] at hnum; exact hnum
      exact key g1 hb ha hnum (by simp [Hold.forgetVar, Hold.map, hp, drop])
        (fun s => by simp only [Held.den, Mach.vals, g2]; rfl) (by simp)
    · cases ha
  | discard =>
    cases hm
    simp only [Hold.store] at ha
    rw [← onTop_prev ha hp]
    refine add_holds h hb ha hnum hn ?_
    cases hs : n.ty.aside with
    | true => exact has_aside hs
    | false => exact fun _ _ _ _ => trivial

theorem build_holds {env : Env} {m0 m m' : Mach} {b0 : Block} {rest : List Block} {A A' : Hold} {d : Dst}
    {c : Ctor} {args : List (Option Nat)} {vs : List (Option Ref)} {x : Mach × Ref}
    (h : HoldsAt m0 b0 rest A m) (ha : A.build d c args = some A') (hv : m.getArgs args = .ok vs)
    (hb : Mach.build env c vs m = .ok x) (hm : x.1.assign d (some x.2) = .ok m') (hnum : Numbered m') :
    HoldsAt m0 b0 rest A' m' := by
  unfold Hold.build at ha
  split at ha
  · rename_i hc
    obtain ⟨b, bs, n, os, e1, rfl, e3, e4⟩ := built_exact h hc hv hb
    rw [← e3] at ha
    exact store_holds (noPrev_holds h) rfl e1 ha hm hnum e4
  · cases ha

/-! ### Sequences -/

theorem seqTake_split {i : Nat} : ∀ {is is' : List Held}, seqTake i is = some is' →
    ∃ xs ys, .seq ∉ xs ∧ .seq ∉ ys ∧ is' = xs ++ .seq :: ys ∧
      (is = xs ++ .seq :: .var i :: ys ∨ is = xs ++ .var i :: ys)
  | [], _, h => by cases h
  | .seq :: .var j :: is, is', h => by
    simp only [seqTake] at h
    split at h
    · rename_i hc
      cases h
      obtain ⟨rfl, hc⟩ := hc
      exact ⟨[], is, by simp, by simpa using hc, rfl, .inl rfl⟩
    · cases h
  | [.seq], _, h => by cases h
  | .seq :: .seq :: _, _, h => by cases h
  | .seq :: .self :: _, _, h => by cases h
  | .var j :: is, is', h => by
    simp only [seqTake] at h
    split at h
    · rename_i hj
      split at h
      · cases h
      · rename_i hc
        cases h
        subst hj
        exact ⟨[], is, by simp, by simpa using hc, rfl, .inr rfl⟩
    · simp only [Option.map_eq_some_iff] at h
      obtain ⟨js, h, rfl⟩ := h
      obtain ⟨xs, ys, h1, h2, rfl, h4⟩ := seqTake_split h
      refine ⟨.var j :: xs, ys, by simpa using h1, h2, rfl, ?_⟩
      rcases h4 with rfl | rfl
      · exact .inl rfl
      · exact .inr rfl
  | .self :: is, is', h => by
    simp only [seqTake, Option.map_eq_some_iff] at h
    obtain ⟨js, h, rfl⟩ := h
    obtain ⟨xs, ys, h1, h2, rfl, h4⟩ := seqTake_split h
    refine ⟨.self :: xs, ys, by simpa using h1, h2, rfl, ?_⟩
    rcases h4 with rfl | rfl
    · exact .inl rfl
    · exact .inr rfl

theorem seqTake_has {ρ : Vals} {i : Nat} {r : Ref} (hr : ρ.1 i = some r) (a : Option (List Held))
    (c : List Node) (s : List Ref) (h : Has ρ a c s) : Has ρ (a.bind (seqTake i)) (c ++ []) (s ++ [r]) := by
  rw [List.append_nil]
  cases a with
  | none => trivial
  | some is =>
    simp only [Option.bind_some]
    cases ht : seqTake i is with
    | none => trivial
    | some is' =>
      obtain ⟨xs, ys, h1, h2, rfl, h3⟩ := seqTake_split ht
      refine ⟨?_, fun e => absurd (by simp) e⟩
      rw [h.1]
      have hs : ∀ t l, den ρ t (.seq :: l) = t ++ den ρ t l := fun t l => by simp [den, Held.den]
      have hv : ∀ t l, den ρ t (.var i :: l) = [r] ++ den ρ t l := fun t l => by simp [den, Held.den, hr]
      rcases h3 with rfl | rfl
      · simp only [den_append, hs, hv]
        rw [den_noseq h1 (s' := s ++ [r]), den_noseq h2 (s' := s ++ [r])]
        simp
      · have : s = [] := h.2 (by simp [h1, h2])
        subst this
        simp only [den_append, hs, hv, List.nil_append]
        rw [den_noseq h1 (s' := [r]), den_noseq h2 (s' := [r])]

theorem seqAdds_holds {m0 m' : Mach} {b0 : Block} {rest : List Block} {A' : Hold} : ∀ {is : List Nat} {A : Hold}
    {m : Mach}, HoldsAt m0 b0 rest A m → A.seqAdds is = some A' → m.seqAdds is = .ok m' → Numbered m' →
    HoldsAt m0 b0 rest A' m'
  | [], A, m, h, ha, he, _ => by cases ha; cases he; exact h
  | i :: is, A, m, h, ha, he, hnum => by
    unfold Mach.seqAdds at he
    obtain ⟨v, hv, he⟩ := bind_ok he
    obtain ⟨m1, h1, he⟩ := bind_ok he
    simp only [Hold.seqAdds] at ha
    split at ha
    · rename_i A1 ha1
      refine seqAdds_holds (is := is) ?_ ha he hnum
      have hv := getVar_val hv
      unfold Mach.seqAdd at h1
      split at h1
      · cases h1
      · rename_i b bs hb
        split at h1
        · cases h1
        · rename_i _ r hv0
          clear hv0
          cases h1
          unfold Hold.onTop at ha1
          split at ha1
          · cases ha1
          · rename_i a as hbl
            cases ha1
            have hst := h.blks
            rw [hbl] at hst
            obtain ⟨b', bs', e1, e2⟩ := hst.top (a' := a.bind (seqTake i))
            rw [hb] at e1
            cases e1
            have := e2 [] [r] (seqTake_has hv.symm a)
            rw [List.append_nil] at this
            refine ⟨h.entry, this, h.prev, h.keep, h.null, h.nulls, h.frame, ⟨fun x hx => ?_, h.exact.prev⟩, ?_⟩
            · rcases List.mem_cons.1 hx with rfl | hx
              · exact h.exact.blocks b (by rw [hb]; exact List.mem_cons_self)
              · exact h.exact.blocks x (by rw [hb]; exact List.mem_cons_of_mem _ hx)
            · refine h.num.of ?_ rfl
              simp [Mach.ids, hb, blocksIds]
    · cases ha

end Verif.Cypher
