import Verif.Cypher.DetailFind
import Verif.Props.Text
/-!
# Property C40: what is printed of a parse tells everything about the tree
-/
namespace Verif.Cypher
open Verif Verif.Peg Verif.Print List

/-! ## Specification -/

/-- What there is to know of a node: its place in the tree, its range, how it was made (except by which of two
builders an identifier or a string was), its operators, the ordinals of the nodes it refers to, and its text, up to
the first NUL and escaped. The options of a query are not referred to. -/
structure View where
  depth : Nat
  ordinal : Nat
  start : Nat
  stop : Nat
  ctor : Ctor
  ops : List (List UInt8)
  args : List (Option Nat)
  seq : List Nat
  text : List UInt8
  deriving DecidableEq, Repr

def view (ord : Nat → Nat) (depth : Nat) (n : Node) : View where
  depth := depth
  ordinal := ord n.id
  start := n.range.start.offset
  stop := n.range.stop.offset
  ctor := n.ctor.plain
  ops := n.ops.map fun o => ascii o.str
  args := n.args.map fun x => x.map fun r => ord r.id
  seq := (if n.ctor = .query then n.seq.filter fun r => ! isA r .queryOption else n.seq).map fun r => ord r.id
  text := if hasText n.ty then (n.text.takeWhile (· ≠ 0)).flatMap escape else []

mutual
/-- The nodes of a tree, parents first, with their depths. -/
def Node.walk : Nat → Node → List (Nat × Node)
  | depth, .mk i c o a s t r children => (depth, .mk i c o a s t r children) :: walkAll (depth + 1) children
def walkAll : Nat → List Node → List (Nat × Node)
  | _, [] => []
  | depth, n :: ns => n.walk depth ++ walkAll depth ns
end

/-- All there is to know of some trees. -/
def views (ord : Nat → Nat) (roots : List Node) : List View := (walkAll 0 roots).map fun x => view ord x.1 x.2

/-- The ordinals of the nodes of a segment. -/
def ordinals (first : Nat) (roots : List Node) : Nat → Nat := (numberAll roots first fun _ => 0).2

/-! ## Entries -/

/-- What is printed of a node, by what `detailstr` writes. -/
def entryOf (ord : Nat → Nat) (x : Nat × Node) : Entry :=
  ⟨x.1, ord x.2.id, x.2.range.start.offset, x.2.range.stop.offset, ascii (x.2.ty.name.getD ""),
    match details ord x.2 with | .ok ds => bytesOf (toksOf ds) | .error _ => []⟩

theorem walk_typed : (∀ (n : Node) (depth : Nat), WellTyped n → ∀ x ∈ n.walk depth, WellTyped x.2) := by
  intro n depth h
  induction h generalizing depth with
  | @mk id c ops args seq text range children h1 h2 h3 h4 h5 h6 ih =>
    have all : ∀ (ns : List Node), (∀ n ∈ ns, n ∈ children) → ∀ x ∈ walkAll (depth + 1) ns, WellTyped x.2 := by
      intro ns
      induction ns with
      | nil => intro _ x hx; cases hx
      | cons n ns ih' =>
        intro hm x hx
        rw [walkAll] at hx
        rcases mem_append.1 hx with hx | hx
        · exact ih n (hm n mem_cons_self) (depth + 1) x hx
        · exact ih' (fun n hn => hm n (mem_cons_of_mem _ hn)) x hx
    intro x hx
    rw [Node.walk] at hx
    rcases mem_cons.1 hx with rfl | hx
    · exact .mk h1 h2 h3 h4 h5 h6
    · exact all children (fun _ h => h) x hx

theorem walkAll_typed : ∀ (ns : List Node) {depth : Nat}, (∀ n ∈ ns, WellTyped n) →
    ∀ x ∈ walkAll depth ns, WellTyped x.2
  | [], _, _, x, hx => by cases hx
  | n :: ns, depth, h, x, hx => by
    rw [walkAll] at hx
    rcases mem_append.1 hx with hx | hx
    · exact walk_typed n depth (h n mem_cons_self) x hx
    · exact walkAll_typed ns (fun n hn => h n (mem_cons_of_mem _ hn)) x hx

/-- C40. `detailstr` does not fail on well-typed nodes, and its constants are not beyond the texts copied. -/
theorem details_ok (ord : Nat → Nat) {n : Node} (h : WellTyped n) :
    ∃ ds, details ord n = .ok ds ∧ ∀ w ∈ ds.map D.toW, w.Ok := by
  obtain ⟨ds, h1, h2⟩ := runSteps_ok (given_for ord h) n.ctor.safe_all
  refine ⟨ds, h1, fun w hw => ?_⟩
  obtain ⟨d, hd, rfl⟩ := mem_map.1 hw
  exact h2 d hd

theorem ctor_named (c : Ctor) : c.ty.name.isSome = true := by cases c <;> rfl

theorem tree_spec {ord : Nat → Nat} (ho : ∀ i, ord i < 2 ^ 32) {n : Node} (h : WellTyped n) :
    ∃ t, n.tree ord = .ok t ∧ t.Ok ∧ ∀ depth, t.entries depth = (n.walk depth).map (entryOf ord) := by
  induction h with
  | @mk id c ops args seq text range children h1 h2 h3 h4 h5 h6 ih =>
    have all : ∀ (ns : List Node), (∀ n ∈ ns, n ∈ children) →
        ∃ ts, treeAll ord ns = .ok ts ∧ Tree.OkAll ts ∧
          ∀ depth, Tree.entriesAll depth ts = (walkAll depth ns).map (entryOf ord) := by
      intro ns
      induction ns with
      | nil => exact fun _ => ⟨[], rfl, trivial, fun _ => rfl⟩
      | cons n ns ih' =>
        intro hm
        obtain ⟨t, a1, a2, a3⟩ := ih n (hm n mem_cons_self)
        obtain ⟨ts, b1, b2, b3⟩ := ih' fun n hn => hm n (mem_cons_of_mem _ hn)
        refine ⟨t :: ts, by simp only [treeAll, a1, b1, bind, Except.bind], ⟨a2, b2⟩, fun depth => ?_⟩
        rw [Tree.entriesAll, walkAll, map_append, a3, b3]
    have hn : WellTyped (.mk id c ops args seq text range children) := .mk h1 h2 h3 h4 h5 h6
    obtain ⟨ds, d1, d2⟩ := details_ok ord hn
    obtain ⟨ts, b1, b2, b3⟩ := all children fun _ h => h
    refine ⟨.node c.ty range (ord id) (ds.map D.toW) ts, by simp only [Node.tree, d1, b1, bind, Except.bind], ⟨ctor_named c, ho id, d2, b2⟩,
      fun depth => ?_⟩
    rw [Tree.entries, Node.walk, map_cons, b3, textOf_toW]
    congr 1
    simp only [entryOf, d1]
    rfl

theorem treeAll_spec {ord : Nat → Nat} (ho : ∀ i, ord i < 2 ^ 32) : ∀ {ns : List Node}, (∀ n ∈ ns, WellTyped n) →
    ∃ ts, treeAll ord ns = .ok ts ∧ Tree.OkAll ts ∧
      ∀ depth, Tree.entriesAll depth ts = (walkAll depth ns).map (entryOf ord)
  | [], _ => ⟨[], rfl, trivial, fun _ => rfl⟩
  | n :: ns, h => by
    obtain ⟨t, a1, a2, a3⟩ := tree_spec ho (h n mem_cons_self)
    obtain ⟨ts, b1, b2, b3⟩ := treeAll_spec ho fun n hn => h n (mem_cons_of_mem _ hn)
    refine ⟨t :: ts, by simp only [treeAll, a1, b1, bind, Except.bind], ⟨a2, b2⟩, fun depth => ?_⟩
    rw [Tree.entriesAll, walkAll, map_append, a3, b3]

/-! ## Names -/

theorem name_find (t : AstType) (h : t.name.isSome = true) :
    (AstType.all.find? fun u => u.name == t.name) = some t := by
  cases t <;> first | cases h; done | decide +kernel

theorem name_text (t : AstType) : (t.name.map fun s => String.ofList ((ascii s).map fun b => Char.ofNat b.toNat)) =
    t.name := by
  cases t <;> decide +kernel

theorem name_inj {t u : AstType} (ht : t.name.isSome = true) (hu : u.name.isSome = true)
    (h : ascii (t.name.getD "") = ascii (u.name.getD "")) : t = u := by
  obtain ⟨a, ha⟩ := Option.isSome_iff_exists.1 ht
  obtain ⟨b, hb⟩ := Option.isSome_iff_exists.1 hu
  have h1 := name_text t
  have h2 := name_text u
  rw [ha] at h1; rw [hb] at h2
  rw [ha, hb] at h
  simp only [Option.getD_some] at h
  simp only [Option.map_some, Option.some.injEq] at h1 h2
  have e : t.name = u.name := by rw [ha, hb, ← h1, ← h2, h]
  have f1 := name_find t ht
  rw [e, name_find u hu] at f1
  injection f1 with f1
  exact f1.symm

/-! ## One node -/

theorem query_seq {r : Ref} (h : SubType r.ty .queryClause) : isA r .queryOption = false := by
  have : ∀ t : AstType, isA ⟨0, t⟩ .queryClause = true → isA ⟨0, t⟩ .queryOption = false := by
    intro t; cases t <;> decide +kernel
  exact this r.ty (sub_isA (by decide) h)

theorem arrays_seq {n : Node} (h : WellTyped n) :
    (if n.ctor = .query then n.seq.filter fun r => ! isA r .queryOption else n.seq) = n.arrays.flatten := by
  cases h with
  | @mk id c ops args seq text range children h1 h2 =>
    by_cases hq : c = .query
    · subst hq
      obtain ⟨a, b, rfl, ha, _, hb⟩ := h2.1
      have ha' : ∀ r ∈ a, isA r .queryOption = true := fun r hr => sub_isA (by decide) (ha r hr)
      have hb' : ∀ r ∈ b, isA r .queryOption = false := fun r hr => query_seq (hb r hr)
      have d : (a ++ b).dropWhile (isA · .queryOption) = b := by
        rw [dropWhile_append_of_pos ha']
        cases b with
        | nil => rfl
        | cons r b => rw [dropWhile_cons, hb' r mem_cons_self]; rfl
      have f : (a ++ b).filter (fun r => ! isA r .queryOption) = b := by
        rw [filter_append, filter_eq_nil_iff.2 (fun r hr => by simp [ha' r hr]),
          filter_eq_self.2 (fun r hr => by simp [hb' r hr]), nil_append]
      simp only [Node.ctor, Node.seq, Node.arrays, if_true, d, f]
      simp
    · simp only [Node.ctor, hq, if_false, Node.seq, Node.arrays]
      cases c <;> first
        | exact absurd rfl hq
        | exact (append_nil _).symm
        | simp [takeWhile_append_dropWhile]

/-- C40. What is printed of a node tells all there is to know. -/
theorem detail_determines {ord ord' : Nat → Nat} {n n' : Node} (hw : WellTyped n) (hw' : WellTyped n')
    {depth depth' : Nat} (h : (entryOf ord (depth, n)).shown = (entryOf ord' (depth', n')).shown) :
    view ord depth n = view ord' depth' n' := by
  obtain ⟨ds, d1, -⟩ := details_ok ord hw
  obtain ⟨ds', d2, -⟩ := details_ok ord' hw'
  simp only [Entry.shown, entryOf, Prod.mk.injEq, d1, d2] at h
  obtain ⟨e1, e2, e3, e4, e5, e6⟩ := h
  have hty : n.ctor.ty = n'.ctor.ty := name_inj (ctor_named _) (ctor_named _) e5
  have s := bytes_same (given_for ord hw) (given_for ord' hw') hty d1 d2 e6
  simp only [view, View.mk.injEq]
  refine ⟨e1, e2, e3, e4, Ctor.plain_of hty s.flags, s.ops, s.args, ?_, ?_⟩
  · rw [arrays_seq hw, arrays_seq hw', map_flatten, map_flatten]
    exact congrArg flatten s.arrays
  · have : n.ty = n'.ty := hty
    rw [this]
    cases ht : hasText n'.ty with
    | false => rfl
    | true => exact s.text (hty ▸ ht)

/-! ## Details begin without a blank and have no NUL -/

/-- Numbers do not begin with a blank. -/
def NoBlank (n : Node) : Prop := n.ty = .integer ∨ n.ty = .floatLiteral → n.text.head? ≠ some 32

def Ctor.startsWell (c : Ctor) : Bool :=
  if hasText c.ty then
    match textShape c.steps with
    | some (a, b) => (a.head? != some 32) && (a != [] || (b == [] && (c.ty == .integer || c.ty == .floatLiteral))) &&
      a.all (· != 0) && b.all (· != 0)
    | none => false
  else match stepsItems c.steps with
    | some is => avoids [some 32] is
    | none => true

theorem Ctor.startsWell_all (c : Ctor) : c.startsWell = true := by
  cases c <;> first
    | decide +kernel
    | (rename_i a; cases a <;> decide +kernel)
    | (rename_i a b; cases a <;> cases b <;> decide +kernel)

theorem op_head (o : Op) : (ascii o.str).head?.all (· != 32) = true ∧ ascii o.str ≠ [] := by
  cases o <;> decide +kernel

theorem bytes_head {ts : List Tok} (h : ¬ [some 32] <+: ts.map Tok.sym) : (bytesOf ts).head? ≠ some 32 := by
  cases ts with
  | nil => simp [bytesOf]
  | cons t ts =>
    cases t with
    | ord n => simp [bytesOf_cons, Tok.bytes]
    | ch c =>
      intro e
      simp only [bytesOf_cons, Tok.bytes, cons_append, head?_cons, Option.some.injEq] at e
      exact h (by rw [e]; exact cons_prefix_cons.2 ⟨rfl, nil_prefix⟩)

theorem bytes_no_nul {ts : List Tok} (h : ∀ t ∈ ts, t.plain = true) : 0 ∉ bytesOf ts := by
  intro hc
  obtain ⟨t, ht, hc⟩ := mem_flatMap.1 hc
  have hp := h t ht
  cases t with
  | ord n =>
    rcases mem_cons.1 hc with hc | hc
    · cases hc
    · have := (decimal_digits n).all 0 hc
      simp at this
  | ch c =>
    simp only [Tok.bytes, mem_singleton] at hc
    subst hc
    revert hp; decide

theorem flush_special {c : Ctor} {g : Given} (hg : g.For c)
    (hop : ∀ o ∈ g.ops, o.head? ≠ some 32 ∧ o ≠ [])
    (hc : c = .cypherOption ∨ c = .range ∨ c = .unaryOperator ∨ c = .binaryOperator ∨ c = .comparisonOperator)
    {ds : List D} (h : runSteps g c.steps = .ok ds) : (bytesOf (toksOf ds)).head? ≠ some 32 := by
  rcases hc with rfl | rfl | rfl | rfl | rfl
  · rw [option_toks h]
    refine bytes_head (avoids_spec ?_ ?_)
    · cases (g.arg 0).isSome <;> decide
    · cases (g.arg 0).isSome <;> simp [optionItems, Item.Present]
  · rcases range_toks hg h with ⟨_, e⟩ | ⟨_, e⟩ <;> rw [e]
    · decide
    · exact bytes_head (avoids_spec (by decide) (by simp [Item.Present]))
  · obtain ⟨o, x, h1, -, h3⟩ := unary_toks hg
    rw [h3 ds h, bytesOf_append, bytesOf_lits]
    obtain ⟨a, b⟩ := hop o (by simp [h1])
    cases o with
    | nil => exact absurd rfl b
    | cons y ys => simpa using a
  · obtain ⟨o, x, y, -, -, h3⟩ := binary_toks hg
    rw [h3 ds h]
    simp [bytesOf_cons, Tok.bytes]
  · simp only [Ctor.steps, runSteps, Prim.run, bind, Except.bind] at h
    cases h1 : comparisonD g.ops (g.array 0) with
    | error f => rw [h1] at h; cases h
    | ok b =>
      rw [h1] at h
      injection h with h
      rw [append_nil] at h; subst h
      cases ha : g.array 0 with
      | nil => rw [ha] at h1; cases ho : g.ops <;> rw [ho] at h1 <;> cases h1
      | cons y ys =>
        rw [ha] at h1
        cases ho : g.ops with
        | nil => rw [ho] at h1; injection h1 with h1; subst h1; simp [D.toks, bytesOf_cons, Tok.bytes]
        | cons o os =>
          rw [ho] at h1
          simp only [comparisonD, bind, Except.bind] at h1
          cases h2 : comparisonD os ys with
          | error f => rw [h2] at h1; cases h1
          | ok b' => rw [h2] at h1; injection h1 with h1; subst h1; simp [D.toks, bytesOf_cons, Tok.bytes]

theorem detail_flush {ord : Nat → Nat} {n : Node} (hw : WellTyped n) (hb : NoBlank n) {ds : List D}
    (h : details ord n = .ok ds) : (bytesOf (toksOf ds)).head? ≠ some 32 ∧ 0 ∉ bytesOf (toksOf ds) := by
  have hg := given_for ord hw
  have hs := n.ctor.startsWell_all
  have hd := n.ctor.tidy_all
  cases ht : hasText n.ctor.ty with
  | true =>
    obtain ⟨a, b, s1, t1⟩ := text_toks ht h
    simp only [Ctor.startsWell, ht, if_true, s1, Bool.and_eq_true, bne_iff_ne, ne_eq, Bool.or_eq_true,
      beq_iff_eq, all_eq_true] at hs
    obtain ⟨⟨⟨k1, k2⟩, k3⟩, k4⟩ := hs
    rw [t1, bytesOf_lits]
    refine ⟨?_, fun h0 => ?_⟩
    · cases a with
      | cons c a => simpa using k1
      | nil =>
        rcases k2 with k2 | ⟨rfl, k2⟩
        · exact absurd rfl k2
        · have := hb k2
          simp only [nil_append, append_nil]
          show ((n.text.takeWhile (· ≠ 0)).head? ≠ some 32)
          cases ht : n.text with
          | nil => simp
          | cons c t =>
            rw [ht] at this
            by_cases hc : c = 0
            · simp [hc]
            · simpa [hc] using this
    · rcases mem_append.1 h0 with h0 | h0
      · rcases mem_append.1 h0 with h0 | h0
        · exact k3 0 h0 rfl
        · have := all_eq_true.1 all_takeWhile _ h0
          simp at this
      · exact k4 0 h0 rfl
  | false =>
    obtain ⟨p1, -⟩ := toks_same hg hg rfl ht h h
    refine ⟨?_, bytes_no_nul p1⟩
    cases hi : stepsItems n.ctor.steps with
    | some is =>
      simp only [Ctor.startsWell, ht, hi, Bool.false_eq_true, if_false] at hs
      obtain ⟨t1, q1⟩ := runSteps_items hg.fairSteps hi h
      rw [t1]
      exact bytes_head (avoids_spec hs q1)
    | none =>
      simp only [Ctor.tidy, ht, hi, Bool.false_eq_true, if_false, contains_iff_mem, mem_cons, not_mem_nil,
        or_false] at hd
      refine flush_special hg (fun o ho => ?_) hd h
      obtain ⟨o', _, rfl⟩ := mem_map.1 ho
      obtain ⟨h1, h2⟩ := op_head o'
      refine ⟨fun e => ?_, h2⟩
      rw [e] at h1
      simp at h1

/-! ## Trees -/

theorem map_transfer {α β γ : Type} {f f' : α → β} {v v' : α → γ} : ∀ {l l' : List α},
    (∀ x ∈ l, ∀ y ∈ l', f x = f' y → v x = v' y) → l.map f = l'.map f' → l.map v = l'.map v'
  | [], [], _, _ => rfl
  | [], y :: l', _, h => by simp at h
  | x :: l, [], _, h => by simp at h
  | x :: l, y :: l', hv, h => by
    simp only [map_cons, cons.injEq] at h ⊢
    exact ⟨hv x mem_cons_self y mem_cons_self h.1,
      map_transfer (fun x hx y hy => hv x (mem_cons_of_mem _ hx) y (mem_cons_of_mem _ hy)) h.2⟩

/-- The conditions of C37 on what is printed. -/
structure Printable (ord : Nat → Nat) (roots : List Node) : Prop where
  small : ∀ i, ord i < 2 ^ 32
  measurable : Measurable ((walkAll 0 roots).map (entryOf ord))
  roomy : Roomy 1024 ((walkAll 0 roots).map (entryOf ord))

/-- C40. Trees that are printed alike are alike. -/
theorem print_determines {junk junk' : Nat → List UInt8} (hj : ∀ n, n < (junk n).length)
    (hj' : ∀ n, n < (junk' n).length) {ord ord' : Nat → Nat} {rs rs' : List Node}
    (hw : ∀ n ∈ rs, WellTyped n) (hw' : ∀ n ∈ rs', WellTyped n)
    (hb : ∀ x ∈ walkAll 0 rs, NoBlank x.2) (hb' : ∀ x ∈ walkAll 0 rs', NoBlank x.2)
    (hp : Printable ord rs) (hp' : Printable ord' rs') {ts ts' : List Tree}
    (ht : treeAll ord rs = .ok ts) (ht' : treeAll ord' rs' = .ok ts')
    (h : fprintv junk noColours 0 ts = fprintv junk' noColours 0 ts') : views ord rs = views ord' rs' := by
  obtain ⟨ts1, a1, a2, a3⟩ := treeAll_spec hp.small hw
  obtain ⟨ts2, b1, b2, b3⟩ := treeAll_spec hp'.small hw'
  rw [ht] at a1; rw [ht'] at b1
  injection a1 with a1; injection b1 with b1
  subst a1 b1
  have flush : ∀ {ord : Nat → Nat} {rs : List Node}, (∀ n ∈ rs, WellTyped n) → (∀ x ∈ walkAll 0 rs, NoBlank x.2) →
      ∀ e ∈ (walkAll 0 rs).map (entryOf ord), e.Flush ∧ 0 ∉ e.detail := by
    intro ord rs hw hb e he
    obtain ⟨x, hx, rfl⟩ := mem_map.1 he
    have hwx := walkAll_typed rs hw x hx
    obtain ⟨ds, d1, -⟩ := details_ok ord hwx
    have := detail_flush hwx (hb x hx) d1
    simp only [entryOf, Entry.Flush, d1]
    exact this
  have hs := fprint_readable hj hj' a2 b2 (by rw [a3]; exact hp.measurable) (by rw [b3]; exact hp'.measurable)
    (by rw [a3]; exact hp.roomy) (by rw [b3]; exact hp'.roomy) (by rw [a3]; exact flush hw hb)
    (by rw [b3]; exact flush hw' hb') h
  rw [a3, b3, map_map, map_map] at hs
  exact map_transfer (fun x hx y hy e =>
    detail_determines (walkAll_typed rs hw x hx) (walkAll_typed rs' hw' y hy) e) hs

/-! ## Ordinals -/

/-- What numbering does to the memory. -/
structure Counted (ids : List Nat) (n : Nat) (ord : Nat → Nat) (r : Nat × (Nat → Nat)) : Prop where
  next : r.1 = n + ids.length
  other : ∀ i, i ∉ ids → r.2 i = ord i
  each : ids.Nodup → ids.map r.2 = range' n ids.length
  below : ∀ b, (∀ i, ord i < b) → n + ids.length ≤ b → ∀ i, r.2 i < b

theorem Counted.append {a b : List Nat} {n : Nat} {ord : Nat → Nat} {r r' : Nat × (Nat → Nat)}
    (h : Counted a n ord r) (h' : Counted b r.1 r.2 r') : Counted (a ++ b) n ord r' := by
  refine ⟨by rw [h'.next, h.next, length_append, Nat.add_assoc], fun i hi => ?_, fun hn => ?_, fun k hk hl => ?_⟩
  · simp only [mem_append, not_or] at hi
    rw [h'.other i hi.2, h.other i hi.1]
  · obtain ⟨n1, n2, n3⟩ := nodup_append.1 hn
    rw [map_append, h'.each n2, length_append, h.next, ← range'_append_1, ← h.each n1]
    congr 1
    exact map_congr_left fun i hi => h'.other i fun hb => n3 i hi i hb rfl
  · rw [length_append] at hl
    exact h'.below k (h.below k hk (by omega)) (by rw [h.next]; omega)

mutual
theorem number_spec : ∀ (x : Node) (n : Nat) (ord : Nat → Nat), Counted x.ids n ord (x.number n ord)
  | .mk id c o a s t r children, n, ord => by
    have h := numberAll_spec children (n + 1) fun i => if i = id then n else ord i
    simp only [Node.ids, Node.number]
    refine ⟨by rw [h.next, length_cons]; omega, fun i hi => ?_, fun hn => ?_, fun b hb hl => ?_⟩
    · simp only [mem_cons, not_or] at hi
      rw [h.other i hi.2, if_neg hi.1]
    · obtain ⟨n1, n2⟩ := nodup_cons.1 hn
      rw [map_cons, h.each n2, h.other id n1, if_pos rfl, length_cons, range'_succ]
    · rw [length_cons] at hl
      refine h.below b (fun i => ?_) (by omega)
      split
      · omega
      · exact hb i
theorem numberAll_spec : ∀ (xs : List Node) (n : Nat) (ord : Nat → Nat), Counted (Node.idss xs) n ord (numberAll xs n ord)
  | [], n, ord => ⟨rfl, fun _ _ => rfl, fun _ => rfl, fun _ h _ => h⟩
  | x :: xs, n, ord => by
    rw [Node.idss, numberAll]
    exact (number_spec x n ord).append (numberAll_spec xs _ _)
end

mutual
theorem walk_ids : ∀ (x : Node) (d : Nat), (x.walk d).map (fun y => y.2.id) = x.ids
  | .mk id c o a s t r children, d => by
    rw [Node.walk, map_cons, walkAll_ids children (d + 1), Node.ids]; rfl
theorem walkAll_ids : ∀ (xs : List Node) (d : Nat), (walkAll d xs).map (fun y => y.2.id) = Node.idss xs
  | [], _ => rfl
  | x :: xs, d => by rw [walkAll, map_append, walk_ids x d, walkAll_ids xs d, Node.idss]
end

/-- C40. If no node is in two places, its nodes get consecutive ordinals, in the order in which they are printed. -/
theorem ordinals_consecutive {first : Nat} {roots : List Node} (h : (Node.idss roots).Nodup) :
    (views (ordinals first roots) roots).map View.ordinal = range' first (walkAll 0 roots).length := by
  have h1 := (numberAll_spec roots first fun _ => 0).each h
  have hl : (Node.idss roots).length = (walkAll 0 roots).length := by rw [← walkAll_ids roots 0, length_map]
  rw [views, map_map, ← hl, ← h1, ← walkAll_ids roots 0, map_map]
  rfl

/-- C40. The ordinals that a node shows are those of its children. -/
theorem shown_children {ord : Nat → Nat} {n : Node} (h : WellTyped n) (depth : Nat) :
    (∀ o, some o ∈ (view ord depth n).args → ∃ c ∈ n.children, ord c.id = o) ∧
    ∀ o ∈ (view ord depth n).seq, ∃ c ∈ n.children, ord c.id = o := by
  cases h with
  | @mk id c ops args seq text range children h1 h2 h3 h4 h5 h6 =>
    have hs : ∀ r ∈ seq, ∃ m ∈ children, m.ref = r := h2.2
    refine ⟨fun o ho => ?_, fun o ho => ?_⟩
    · obtain ⟨x, hx, e⟩ := mem_map.1 ho
      cases x with
      | none => cases e
      | some r =>
        injection e with e
        have : ∀ {ws : List Want} {as : List (Option Ref)}, Fits children ws as → some r ∈ as →
            ∃ m ∈ children, m.ref = r := by
          intro ws
          induction ws with
          | nil => intro as hf hm; cases as with
            | nil => cases hm
            | cons a as => exact hf.elim
          | cons w ws ih =>
            intro as hf hm
            cases as with
            | nil => exact hf.elim
            | cons a as =>
              rcases mem_cons.1 hm with rfl | hm
              · have := hf.1
                cases w <;> exact this.2
              · exact ih hf.2 hm
        obtain ⟨m, hm, rfl⟩ := this h1 hx
        exact ⟨m, hm, e⟩
    · obtain ⟨r, hr, e⟩ := mem_map.1 ho
      have : r ∈ seq := by
        split at hr
        · exact mem_of_mem_filter hr
        · exact hr
      obtain ⟨m, hm, rfl⟩ := hs r this
      exact ⟨m, hm, e⟩

/-! ## Parses -/

theorem everywhere_walk {P : Node → Prop} {n : Node} (h : Everywhere P n) :
    ∀ (depth : Nat), ∀ x ∈ n.walk depth, P x.2 := by
  induction h with
  | @mk n h1 h2 ih =>
    intro depth x hx
    obtain ⟨id, c, o, a, s, t, r, children⟩ := n
    rw [Node.walk] at hx
    rcases mem_cons.1 hx with rfl | hx
    · exact h1
    · have all : ∀ (ns : List Node), (∀ n ∈ ns, n ∈ children) → ∀ x ∈ walkAll (depth + 1) ns, P x.2 := by
        intro ns
        induction ns with
        | nil => intro _ x hx; cases hx
        | cons n ns ih' =>
          intro hm x hx
          rw [walkAll] at hx
          rcases mem_append.1 hx with hx | hx
          · exact ih n (hm n mem_cons_self) (depth + 1) x hx
          · exact ih' (fun n hn => hm n (mem_cons_of_mem _ hn)) x hx
      exact all children (fun _ h => h) x hx

theorem everywhere_walkAll {P : Node → Prop} : ∀ {ns : List Node} {depth : Nat}, (∀ n ∈ ns, Everywhere P n) →
    ∀ x ∈ walkAll depth ns, P x.2
  | [], _, _, x, hx => by cases hx
  | n :: ns, depth, h, x, hx => by
    rw [walkAll] at hx
    rcases mem_append.1 hx with hx | hx
    · exact everywhere_walk (h n mem_cons_self) depth x hx
    · exact everywhere_walkAll (fun n hn => h n (mem_cons_of_mem _ hn)) x hx

theorem textFor_noBlank {ty : AstType} {s t : List UInt8} (h : TextFor ty s t) (ht : ty = .integer ∨ ty = .floatLiteral) :
    t.head? ≠ some 32 := by
  have dig : ∀ {c : UInt8}, Text.Digit c → c ≠ 32 := by
    rintro c hc rfl
    revert hc
    simp [Text.Digit]
  rcases ht with rfl | rfl
  · obtain ⟨hd, -⟩ := h.2
    simpa using dig hd
  · have h := h.2
    cases h with
    | @exp ds pt es e sg d cs h1 h2 _ _ _ _ _ _ =>
      cases ds with
      | nil => exact absurd rfl h1
      | cons c ds => simpa using dig (h2 c mem_cons_self)
    | @point ds d cs h2 _ _ =>
      cases ds with
      | nil => simp
      | cons c ds => simpa using dig (h2 c mem_cons_self)

theorem noBlank_of_textFor {n : Node} {s : List UInt8} (h : TextFor n.ref.ty s n.text) : NoBlank n := by
  cases n
  exact textFor_noBlank h

variable {σ τ : Type}

/-- What is needed to print a segment: there are not too many nodes, and the conditions of C37. -/
structure SegPrintable (s : PSeg) : Prop where
  small : s.ordinal + (Node.idss s.roots).length ≤ 2 ^ 32
  measurable : Measurable ((walkAll 0 s.roots).map (entryOf (ordinals s.ordinal s.roots)))
  roomy : Roomy 1024 ((walkAll 0 s.roots).map (entryOf (ordinals s.ordinal s.roots)))

theorem SegPrintable.printable {s : PSeg} (h : SegPrintable s) : Printable (ordinals s.ordinal s.roots) s.roots :=
  ⟨(numberAll_spec s.roots s.ordinal fun _ => 0).below _ (fun _ => by decide) h.small, h.measurable, h.roomy⟩

/-- C40. No `detailstr` meets a missing node or fails an assertion: each node of each segment gives one line, as in
C37, with the text of `details` in it. -/
theorem cypher_print_lines {S : Source σ} {src : σ} {w : List UInt8} (h : Delivers S src w)
    {cfg : Config} {only : Bool} {L : List PSeg} (hL : YieldsP S src cfg only L)
    {junk : Nat → List UInt8} (hj : ∀ n, n < (junk n).length) (C : Colours) (render : Nat)
    {s : PSeg} (hs : s ∈ L) (hp : SegPrintable s) :
    (∀ x ∈ walkAll 0 s.roots, ∃ ds, details (ordinals s.ordinal s.roots) x.2 = .ok ds) ∧
    ∃ cols lines, printRoots junk C render s.ordinal s.roots = .ok lines.flatten ∧
      Forall₂ (Line C render cols) ((walkAll 0 s.roots).map (entryOf (ordinals s.ordinal s.roots))) lines := by
  have hw := cypher_well_typed h cfg only hL s hs
  obtain ⟨ts, a1, a2, a3⟩ := treeAll_spec hp.printable.small hw
  refine ⟨fun x hx => ?_, ?_⟩
  · obtain ⟨ds, d1, -⟩ := details_ok (ordinals s.ordinal s.roots) (walkAll_typed s.roots hw x hx)
    exact ⟨ds, d1⟩
  · obtain ⟨cols, lines, h1, h2⟩ := fprint_lines_partial hj C render a2 (by rw [a3]; exact hp.measurable)
      (by rw [a3]; exact hp.roomy)
    refine ⟨cols, lines, ?_, by rw [← a3]; exact h2⟩
    show (match treeAll (ordinals s.ordinal s.roots) s.roots with | .ok ts => _ | .error e => _) = _
    rw [a1]
    exact h1

/-- C40, part. Whatever was parsed, and however: if two segments are printed alike then all there is to know of their
trees is the same, and the ordinals tell the nodes apart. *Missing:* texts are known only up to escapes
(`print_ambiguous`) and the first NUL, and segments that are not `SegPrintable` (`comment_alone_undefined`). -/
theorem cypher_print_determines_partial {S : Source σ} {src : σ} {w : List UInt8} (h : Delivers S src w)
    {cfg : Config} {only : Bool} {L : List PSeg} (hL : YieldsP S src cfg only L)
    {S' : Source τ} {src' : τ} {w' : List UInt8} (h' : Delivers S' src' w')
    {cfg' : Config} {only' : Bool} {L' : List PSeg} (hL' : YieldsP S' src' cfg' only' L')
    {junk junk' : Nat → List UInt8} (hj : ∀ n, n < (junk n).length) (hj' : ∀ n, n < (junk' n).length)
    {s s' : PSeg} (hs : s ∈ L) (hs' : s' ∈ L') (hp : SegPrintable s) (hp' : SegPrintable s')
    (he : printRoots junk noColours 0 s.ordinal s.roots = printRoots junk' noColours 0 s'.ordinal s'.roots) :
    views (ordinals s.ordinal s.roots) s.roots = views (ordinals s'.ordinal s'.roots) s'.roots ∧
    (views (ordinals s.ordinal s.roots) s.roots).map View.ordinal = range' s.ordinal (walkAll 0 s.roots).length := by
  have hw := cypher_well_typed h cfg only hL s hs
  have hw' := cypher_well_typed h' cfg' only' hL' s' hs'
  have hb : ∀ x ∈ walkAll 0 s.roots, NoBlank x.2 :=
    everywhere_walkAll fun n hn => (cypher_texts_by_type h cfg only hL s hs n hn).imp
      fun n ht => noBlank_of_textFor ht
  have hb' : ∀ x ∈ walkAll 0 s'.roots, NoBlank x.2 :=
    everywhere_walkAll fun n hn => (cypher_texts_by_type h' cfg' only' hL' s' hs' n hn).imp
      fun n ht => noBlank_of_textFor ht
  obtain ⟨ts, a1, -, -⟩ := treeAll_spec hp.printable.small hw
  obtain ⟨ts', b1, -, -⟩ := treeAll_spec hp'.printable.small hw'
  have e1 : printRoots junk noColours 0 s.ordinal s.roots = fprintv junk noColours 0 ts := by
    show (match treeAll (ordinals s.ordinal s.roots) s.roots with | .ok ts => _ | .error e => _) = _
    rw [a1]
  have e2 : printRoots junk' noColours 0 s'.ordinal s'.roots = fprintv junk' noColours 0 ts' := by
    show (match treeAll (ordinals s'.ordinal s'.roots) s'.roots with | .ok ts => _ | .error e => _) = _
    rw [b1]
  rw [e1, e2] at he
  exact ⟨print_determines hj hj' hw hw' hb hb' hp.printable hp'.printable a1 b1 he,
    ordinals_consecutive (cypher_directive_partial h cfg only hL s hs).1⟩

/-! ## Examples -/

private def zeros (n : Nat) : List UInt8 := replicate (n + 1) 0

private instance [DecidableEq α] [DecidableEq β] : DecidableEq (Except α β)
  | .ok a, .ok b => decidable_of_iff (a = b) (by simp)
  | .error a, .error b => decidable_of_iff (a = b) (by simp)
  | .ok _, .error _ => .isFalse (by simp)
  | .error _, .ok _ => .isFalse (by simp)

/-- The print of each segment. -/
private def printed (L : List PSeg) : List (Except Print.Stop (List UInt8)) :=
  L.map fun s => printRoots zeros noColours 0 s.ordinal s.roots

private def texts (L : List PSeg) : List (List UInt8) :=
  L.flatMap fun s => (walkAll 0 s.roots).map fun x => x.2.text

/-- Of `, actions=` only eight bytes are copied (ast_merge.c:156). -/
example : ∃ L, YieldsP streamSource (ascii "MERGE (n) ON CREATE SET n.x=-1;") plainCfg false L ∧
    (printed L).head? = some (.ok
      (ascii " @0   0..31  statement                 body=@1\n" ++
       ascii " @1   0..31  > query                   clauses=[@2]\n" ++
       ascii " @2   0..30  > > MERGE                 path=@3, action[@6]\n" ++
       ascii " @3   6..9   > > > pattern path        (@4)\n" ++
       ascii " @4   6..9   > > > > node pattern      (@5)\n" ++
       ascii " @5   7..8   > > > > > identifier      `n`\n" ++
       ascii " @6  10..30  > > > ON CREATE           items=[@7]\n" ++
       ascii " @7  24..30  > > > > set property      @8 = @11\n" ++
       ascii " @8  24..27  > > > > > property        @9.@10\n" ++
       ascii " @9  24..25  > > > > > > identifier    `n`\n" ++
       ascii "@10  26..27  > > > > > > prop name     `x`\n" ++
       ascii "@11  28..30  > > > > > unary operator  - @12\n" ++
       ascii "@12  29..30  > > > > > > integer       1\n")) := by
  obtain ⟨L, h1, h2⟩ := yields_of_test (S := streamSource)
    (src := ascii "MERGE (n) ON CREATE SET n.x=-1;") (cfg := plainCfg) (only := false) (fuel := 150)
    (fun L => decide ((printed L).head? = some (.ok
      (ascii " @0   0..31  statement                 body=@1\n" ++
       ascii " @1   0..31  > query                   clauses=[@2]\n" ++
       ascii " @2   0..30  > > MERGE                 path=@3, action[@6]\n" ++
       ascii " @3   6..9   > > > pattern path        (@4)\n" ++
       ascii " @4   6..9   > > > > node pattern      (@5)\n" ++
       ascii " @5   7..8   > > > > > identifier      `n`\n" ++
       ascii " @6  10..30  > > > ON CREATE           items=[@7]\n" ++
       ascii " @7  24..30  > > > > set property      @8 = @11\n" ++
       ascii " @8  24..27  > > > > > property        @9.@10\n" ++
       ascii " @9  24..25  > > > > > > identifier    `n`\n" ++
       ascii "@10  26..27  > > > > > > prop name     `x`\n" ++
       ascii "@11  28..30  > > > > > unary operator  - @12\n" ++
       ascii "@12  29..30  > > > > > > integer       1\n")))) (by decide +kernel)
  exact ⟨L, h1, of_decide_eq_true h2⟩

private def ambiguous : List UInt8 :=
  ascii "@0   0..20  statement                body=@1\n" ++
  ascii "@1   0..20  > query                  clauses=[@2]\n" ++
  ascii "@2   0..19  > > CREATE               pattern=@3\n" ++
  ascii "@3   7..19  > > > pattern            paths=[@4]\n" ++
  ascii "@4   7..19  > > > > pattern path     (@5)\n" ++
  ascii "@5   7..19  > > > > > node pattern   ( {@6})\n" ++
  ascii "@6   8..18  > > > > > > map          {@7:@8}\n" ++
  ascii "@7   9..10  > > > > > > > prop name  `x`\n" ++
  ascii "@8  11..17  > > > > > > > string     \"\\n\\n\"\n"

/-- Texts are told apart only up to escapes: these two are printed alike, but one has a string of two line ends, the
other one of a line end, a backslash and an `n`. -/
theorem print_ambiguous :
    ∃ L L', YieldsP streamSource (ascii "CREATE ({x:'\n\\\\n'});") plainCfg false L ∧
      YieldsP streamSource (ascii "CREATE ({x:'\\n\\n'});") plainCfg false L' ∧
      printed L = printed L' ∧ texts L ≠ texts L' := by
  obtain ⟨L, h1, h2⟩ := yields_of_test (S := streamSource)
    (src := ascii "CREATE ({x:'\n\\\\n'});") (cfg := plainCfg) (only := false) (fuel := 150)
    (fun L => decide (printed L = [.ok ambiguous] ∧ [10, 92, 110] ∈ texts L)) (by decide +kernel)
  obtain ⟨L', h1', h2'⟩ := yields_of_test (S := streamSource)
    (src := ascii "CREATE ({x:'\\n\\n'});") (cfg := plainCfg) (only := false) (fuel := 150)
    (fun L => decide (printed L = [.ok ambiguous] ∧ [10, 92, 110] ∉ texts L)) (by decide +kernel)
  have a := of_decide_eq_true h2
  have b := of_decide_eq_true h2'
  exact ⟨L, L', h1, h1', a.1.trans b.1.symm, fun e => b.2 (e ▸ a.2)⟩

/-- Of a comment at the beginning of the input all ordinals and starts are zero, and `log10(0)` is converted to an
integer (ast.c:857-859, C37). -/
theorem comment_alone_undefined :
    ∃ L, YieldsP streamSource (ascii "//x") plainCfg false L ∧ Except.error Print.Stop.conversion ∈ printed L := by
  obtain ⟨L, h1, h2⟩ := yields_of_test (S := streamSource) (src := ascii "//x") (cfg := plainCfg) (only := false)
    (fuel := 100) (fun L => decide (Except.error Print.Stop.conversion ∈ printed L)) (by decide +kernel)
  exact ⟨L, h1, of_decide_eq_true h2⟩

private instance : ∀ (cap : Nat) (es : List Entry), Decidable (Roomy cap es)
  | _, [] => .isTrue trivial
  | cap, e :: es =>
    have : Decidable (Roomy (capAfter cap e.detail.length) es) := instDecidableRoomy _ es
    inferInstanceAs (Decidable (_ ∧ _))

private instance (es : List Entry) : Decidable (Measurable es) := by unfold Measurable; infer_instance

/-- The conditions hold of ordinary segments. -/
example : ∃ L, YieldsP streamSource (ascii "CREATE ({x:'\n\\\\n'});") plainCfg false L ∧ ∃ s ∈ L, SegPrintable s := by
  obtain ⟨L, h1, h2⟩ := yields_of_test (S := streamSource)
    (src := ascii "CREATE ({x:'\n\\\\n'});") (cfg := plainCfg) (only := false) (fuel := 150)
    (fun L => L.any fun s => decide (s.ordinal + (Node.idss s.roots).length ≤ 2 ^ 32 ∧
      Measurable ((walkAll 0 s.roots).map (entryOf (ordinals s.ordinal s.roots))) ∧
      Roomy 1024 ((walkAll 0 s.roots).map (entryOf (ordinals s.ordinal s.roots))))) (by decide +kernel)
  obtain ⟨s, hs, h⟩ := List.any_eq_true.1 h2
  have h := of_decide_eq_true h
  exact ⟨L, h1, s, hs, h.1, h.2.1, h.2.2⟩

end Verif.Cypher
