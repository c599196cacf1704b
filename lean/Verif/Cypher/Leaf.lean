import Verif.Cypher.Nesting
import Verif.Cypher.Skeleton
import Verif.Cypher.TextSpec
/-!
# Texts of leaves: running the actions

What runs of thunks do to the string buffer and to the open blocks.
-/
namespace Verif.Cypher
open Verif.Peg Verif.Text

/-- What the text of a node should be, given the source between the ends of its range. -/
def Leaf : Ctor → List UInt8 → List UInt8 → Prop
  | .strbufIdentifier, s, t => Name s t
  | .strbufPropName, s, t => Name s t
  | .strbufIndexName, s, t => Name s t
  | .strbufLabel, s, t => Colon s t
  | .strbufReltype, s, t => Name s t ∨ Colon s t
  | .strbufParameter, s, t => Param s t
  | .strbufFunctionName, s, t => Dotted s t
  | .strbufProcName, s, t => Dotted s t
  | .strbufInteger, s, t => s = t ∧ IntText t
  | .strbufFloat, s, t => s = t ∧ FloatText t
  | .strbufString, s, t => t = unquote none s
  | .blockString, s, t => s = t
  | .lineComment, s, t => s = t ∧ 10 ∉ t
  | .blockComment, s, t => s = t ∧ NoEnd t
  | .skip, s, t => s = t
  | .blockIdentifier, s, t => Trimmed s t
  | _, _, t => t = []

/-- The text of a node that has one is right. -/
def LeafAt (env : Env) (w : List UInt8) (n : Node) : Prop :=
  match n.ctor.terminal with
  | none | some .plain => n.text = []
  | _ => ∃ i j, Located env n.range.start i ∧ Located env n.range.stop j ∧
      Leaf n.ctor (w.extract i j) n.text

/-- The same, of a text that starts at offset `off`. -/
def Written (w : List UInt8) (off : Nat) (n : Node) : Prop :=
  match n.ctor.terminal with
  | none | some .plain => n.text = []
  | _ => Leaf n.ctor (w.extract (n.range.start.offset - off) (n.range.stop.offset - off)) n.text

theorem LeafAt.written {env : Env} {w : List UInt8} {n : Node} (h : LeafAt env w n) :
    Written w env.off.offset n := by
  unfold LeafAt at h
  unfold Written
  have key : (∃ i j, Located env n.range.start i ∧ Located env n.range.stop j ∧
      Leaf n.ctor (w.extract i j) n.text) →
      Leaf n.ctor (w.extract (n.range.start.offset - env.off.offset)
        (n.range.stop.offset - env.off.offset)) n.text := by
    rintro ⟨i, j, h1, h2, h3⟩
    rw [h1.offset, h2.offset, Nat.add_sub_cancel, Nat.add_sub_cancel]; exact h3
  split at h
  · exact h
  · exact h
  · exact key h

/-- All nodes of the machine satisfy `L`. -/
structure Leafy (L : Node → Prop) (m : Mach) : Prop where
  blocks : ∀ b ∈ m.blocks, ∀ n ∈ b.children, Everywhere L n
  prev : ∀ b, m.prev = some b → ∀ n ∈ b.children, Everywhere L n

theorem Leafy.same {L : Node → Prop} {m m' : Mach} (h : Leafy L m) (hb : m'.blocks = m.blocks)
    (hp : m'.prev = m.prev) : Leafy L m' :=
  ⟨by rw [hb]; exact h.blocks, by rw [hp]; exact h.prev⟩

/-- Where the open blocks begin. -/
def heads (bs : List Block) : List (Nat × Pos) := bs.map fun b => (b.start, b.rstart)

theorem exec_cons {env : Env} {t : Peg.Thunk Act} {ts : List (Peg.Thunk Act)} {m m' : Mach}
    (h : Mach.exec env (t :: ts) m = .ok m') :
    ∃ m1, Mach.exec env ts m = .ok m1 ∧ Mach.step env t m1 = .ok m' := by
  unfold Mach.exec at h; exact bind_ok h

theorem exec_app {env : Env} {us ts : List (Peg.Thunk Act)} {m m' : Mach}
    (h : Mach.exec env (us ++ ts) m = .ok m') :
    ∃ m1, Mach.exec env ts m = .ok m1 ∧ Mach.exec env us m1 = .ok m' := by
  rw [exec_append] at h; exact bind_ok h

theorem exec_one {env : Env} {t : Peg.Thunk Act} {m m' : Mach}
    (h : Mach.exec env [t] m = .ok m') : Mach.step env t m = .ok m' := by
  obtain ⟨m1, h1, h⟩ := exec_cons h
  cases h1; exact h

/-- The machine between two points: nodes stay good, blocks that were open still are. -/
structure Kept (L : Node → Prop) (m m' : Mach) : Prop where
  leafy : Leafy L m'
  heads : heads m'.blocks = heads m.blocks

/-- Running `ts` appends `out` to the string buffer, keeps the open blocks and makes only good
nodes. -/
def Quiet (env : Env) (L : Node → Prop) (ts : List (Peg.Thunk Act)) (out : List UInt8) : Prop :=
  ∀ m m', Mach.exec env ts m = .ok m' → Leafy L m → Kept L m m' ∧ m'.strbuf = m.strbuf ++ out

section
variable {env : Env} {L : Node → Prop} {w : List UInt8}

theorem Quiet.nil : Quiet env L [] [] := by
  intro m m' h hl
  cases h
  exact ⟨⟨hl, rfl⟩, by simp⟩

theorem Quiet.append {ts us : List (Peg.Thunk Act)} {x y : List UInt8} (h1 : Quiet env L ts x)
    (h2 : Quiet env L us y) : Quiet env L (us ++ ts) (x ++ y) := by
  intro m m' h hl
  obtain ⟨m1, e1, e2⟩ := exec_app h
  obtain ⟨a1, a2⟩ := h1 _ _ e1 hl
  obtain ⟨b1, b2⟩ := h2 _ _ e2 a1.leafy
  exact ⟨⟨b1.leafy, b1.heads.trans a1.heads⟩, by rw [b2, a2, List.append_assoc]⟩

theorem Quiet.char {c : UInt8} {p : Nat} : Quiet env L [.act (.sbAppend c) p] [c] := by
  intro m m' h hl
  have h := exec_one h
  cases h
  exact ⟨⟨hl.same rfl rfl, rfl⟩, rfl⟩

theorem Quiet.eof {p : Nat} : Quiet env L [.act .eof p] [] := by
  intro m m' h hl
  have h := exec_one h
  cases h
  exact ⟨⟨hl.same rfl rfl, rfl⟩, by simp⟩

theorem blockStart_inv {p : Nat} {m m' : Mach} (h : Mach.blockStart env p m = .ok m') :
    ∃ x, Located env x p ∧ m' = { m with blocks := ⟨p, p, x, x, [], []⟩ :: m.blocks, prev := none } := by
  unfold Mach.blockStart at h
  obtain ⟨x, hx, h⟩ := bind_ok h
  refine ⟨x, position_inv hx, ?_⟩
  split at h
  · split at h
    · cases h
    · cases h; rfl
  · cases h; rfl

/-- The closed block runs from `p` to `q`. -/
structure Closed (env : Env) (p q : Nat) (b : Block) : Prop where
  start : b.start = p
  stop : b.stop = q
  rstart : Located env b.rstart p
  rstop : Located env b.rstop q

theorem blockEnd_inv {q : Nat} {m m' : Mach} {p : Nat} {x : Pos} {hs : List (Nat × Pos)}
    (hx : Located env x p) (hh : heads m.blocks = (p, x) :: hs) (hl : Leafy L m) (a : Act)
    (ha : a = .blockEnd ∨ a = .blockMerge) (h : Mach.act env a q m = .ok m') :
    Leafy L m' ∧ heads m'.blocks = hs ∧ m'.strbuf = m.strbuf ∧
      ∃ b, m'.prev = some b ∧ Closed env p q b := by
  rcases ha with rfl | rfl
  · simp only [Mach.act, Mach.blockEnd] at h
    obtain ⟨⟨c, cs⟩, hp, h⟩ := bind_ok h
    cases h
    obtain ⟨b0, b', bs', y, e1, e2, rfl, rfl, -⟩ := blockPop_inv hp
    rw [e1] at hh
    simp only [heads, List.map_cons, List.cons.injEq, Prod.mk.injEq] at hh
    obtain ⟨⟨h1, h2⟩, h3⟩ := hh
    refine ⟨⟨fun b hb => hl.blocks b (by rw [e1]; exact List.mem_cons_of_mem _ hb), ?_⟩, h3, rfl,
      _, rfl, h1, rfl, by simp only [h2]; exact hx, e2⟩
    rintro b ⟨⟩ n hn
    exact hl.blocks b0 (by rw [e1]; exact List.mem_cons_self) n hn
  · simp only [Mach.act, Mach.blockMerge] at h
    obtain ⟨⟨c, cs⟩, hp, h⟩ := bind_ok h
    obtain ⟨b0, b', bs', y, e1, e2, rfl, rfl, -⟩ := blockPop_inv hp
    rw [e1] at hh
    simp only [heads, List.map_cons, List.cons.injEq, Prod.mk.injEq] at hh
    obtain ⟨⟨h1, h2⟩, h3⟩ := hh
    have hb0 := hl.blocks b0 (by rw [e1]; exact List.mem_cons_self)
    have hb' := hl.blocks b' (by rw [e1]; exact List.mem_cons_of_mem _ List.mem_cons_self)
    simp only at h
    split at h
    · cases h
      refine ⟨⟨fun b hb => hl.blocks b (by rw [e1]; exact List.mem_cons_of_mem _ hb), ?_⟩, h3, rfl,
        _, rfl, h1, rfl, by simp only [h2]; exact hx, e2⟩
      rintro b ⟨⟩ n hn
      exact hb0 n hn
    · cases h
      refine ⟨⟨fun b hb => ?_, ?_⟩, h3, rfl, _, rfl, h1, rfl, by simp only [h2]; exact hx, e2⟩
      · rcases List.mem_cons.1 hb with rfl | hb
        · intro n hn
          rcases List.mem_append.1 hn with hn | hn
          · exact hb' n hn
          · exact hb0 n hn
        · exact hl.blocks b (by rw [e1]; exact List.mem_cons_of_mem _ (List.mem_cons_of_mem _ hb))
      · rintro b ⟨⟩ n hn
        cases hn

/-- A block, opened and closed, with quiet actions in between. -/
theorem bracket {ts : List (Peg.Thunk Act)} {out : List UInt8} (hq : Quiet env L ts out) {p q : Nat}
    {a : Act} (ha : a = .blockEnd ∨ a = .blockMerge) {m m' : Mach}
    (h : Mach.exec env (.act a q :: (ts ++ [.act .blockStart p])) m = .ok m') (hl : Leafy L m) :
    Kept L m m' ∧ m'.strbuf = m.strbuf ++ out ∧ ∃ b, m'.prev = some b ∧ Closed env p q b := by
  obtain ⟨m2, h2, h3⟩ := exec_cons h
  obtain ⟨m1, h1, h2⟩ := exec_app h2
  have h1 := exec_one h1
  obtain ⟨x, hx, rfl⟩ := blockStart_inv h1
  obtain ⟨a1, a2⟩ := hq _ _ h2 ⟨fun b hb => by
    rcases List.mem_cons.1 hb with rfl | hb
    · intro n hn; cases hn
    · exact hl.blocks b hb, fun b hb => by cases hb⟩
  obtain ⟨b1, b2, b3, b4⟩ := blockEnd_inv hx a1.heads a1.leafy a ha h3
  exact ⟨⟨b1, b2⟩, by rw [b3, a2], b4⟩

/-- The buffer is the beginning of the input. -/
def Reads (env : Env) (w : List UInt8) : Prop := ∃ rest, w = env.buf ++ rest

theorem blockText_inv (hf : Reads env w) {p q : Nat} {b : Block} (hb : Closed env p q b) {t : List UInt8}
    (h : Mach.blockText env b = .ok t) : p ≤ q ∧ q ≤ w.length ∧ t = w.extract p q := by
  obtain ⟨rest, hw⟩ := hf
  unfold Mach.blockText at h
  rw [hb.start, hb.stop] at h
  split at h
  · rename_i hc
    cases h
    refine ⟨hc.1, by rw [hw, List.length_append]; omega, ?_⟩
    rw [hw]
    simp only [List.extract_eq_take_drop]
    rw [List.drop_append_of_le_length (by omega), List.take_append_of_le_length (by simp; omega)]
  · cases h

/-- A block, opened and closed, and its text appended. -/
theorem Quiet.block (hf : Reads env w) {ts : List (Peg.Thunk Act)} {out : List UInt8}
    (hq : Quiet env L ts out) {p q r : Nat} {a : Act} (ha : a = .blockEnd ∨ a = .blockMerge) :
    Quiet env L (.act .sbAppendBlock r :: .act a q :: (ts ++ [.act .blockStart p]))
      (out ++ w.extract p q) := by
  intro m m' h hl
  obtain ⟨m1, h1, h2⟩ := exec_cons h
  obtain ⟨a1, a2, b, hb, hc⟩ := bracket hq ha h1 hl
  simp only [Mach.step, Mach.act] at h2
  rw [hb] at h2
  simp only at h2
  obtain ⟨t, ht, h2⟩ := bind_ok h2
  cases h2
  obtain ⟨-, -, rfl⟩ := blockText_inv hf hc ht
  exact ⟨⟨a1.leafy.same rfl hb.symm, a1.heads⟩, by simp only [a2, List.append_assoc]⟩

theorem addChild_inv {m m' : Mach} {n : Node} (h : m.addChild n = .ok m') : ∃ b bs, m.blocks = b :: bs ∧
    m' = { m with blocks := { b with children := b.children ++ [n] } :: bs, next := m.next + 1 } := by
  unfold Mach.addChild at h
  split at h
  · cases h
  · rename_i b bs hb
    cases h; exact ⟨b, bs, hb, rfl⟩

theorem Leafy.add {m m' : Mach} {n : Node} (hl : Leafy L m) (hn : Everywhere L n)
    (h : m.addChild n = .ok m') : Kept L m m' := by
  obtain ⟨b, bs, hb, rfl⟩ := addChild_inv h
  refine ⟨⟨fun c hc => ?_, hl.prev⟩, by rw [hb]; rfl⟩
  rcases List.mem_cons.1 hc with rfl | hc
  · intro x hx
    rcases List.mem_append.1 hx with hx | hx
    · exact hl.blocks b (by rw [hb]; exact List.mem_cons_self) x hx
    · cases List.mem_singleton.1 hx; exact hn
  · exact hl.blocks c (by rw [hb]; exact List.mem_cons_of_mem _ hc)

theorem terminal_inv {c : Ctor} {k : Terminal} {m : Mach} {x : Mach × Ref}
    (h : Mach.terminal env c k m = .ok x) : ∃ b t, m.prev = some b ∧
      Mach.terminalText env k m b = .ok t ∧
      Mach.addChild { m with prev := none } (.mk m.next c [] [] [] t ⟨b.rstart, b.rstop⟩ []) = .ok x.1 := by
  unfold Mach.terminal at h
  split at h
  · cases h
  · rename_i b hb
    obtain ⟨t, ht, h⟩ := bind_ok h
    simp only at h
    split at h
    · cases h
    · obtain ⟨m', h1, h⟩ := bind_ok h
      cases h
      exact ⟨b, t, hb, ht, h1⟩

theorem addChild_strbuf {m m' : Mach} {n : Node} (h : m.addChild n = .ok m') : m'.strbuf = m.strbuf := by
  obtain ⟨b, bs, hb, rfl⟩ := addChild_inv h
  rfl

theorem setVar_strbuf {m m' : Mach} {i : Nat} {v : Option Ref} (h : m.setVar i v = .ok m') :
    m'.strbuf = m.strbuf := by
  unfold Mach.setVar at h
  split at h
  · cases h
  · split at h
    · cases h; rfl
    · cases h

theorem assign_strbuf {m m' : Mach} {d : Dst} {v : Option Ref} (h : m.assign d v = .ok m') :
    m'.strbuf = m.strbuf := by
  cases d with
  | self => cases h; rfl
  | var i => exact setVar_strbuf h
  | discard => cases h; rfl

/-- Making a terminal whose text is right. -/
theorem build_leaf {c : Ctor} {k : Terminal} (hk : c.terminal = some k) {m m' : Mach} {d : Dst}
    {args : List (Option Nat)} {r : Nat} (hl : Leafy L m)
    (hok : ∀ b t, m.prev = some b → Mach.terminalText env k m b = .ok t →
      L (.mk m.next c [] [] [] t ⟨b.rstart, b.rstop⟩ []))
    (h : Mach.act env (.build d c args) r m = .ok m') : Kept L m m' ∧ m'.strbuf = m.strbuf := by
  simp only [Mach.act] at h
  obtain ⟨vs, -, h⟩ := bind_ok h
  obtain ⟨x, hx, h⟩ := bind_ok h
  unfold Mach.build at hx
  rw [hk] at hx
  obtain ⟨b, t, hb, ht, ha⟩ := terminal_inv hx
  have hadd := Leafy.add (L := L) (m := { m with prev := none }) ⟨hl.blocks, fun b hb => by cases hb⟩
    (.mk (hok b t hb ht) (fun c hc => by cases hc)) ha
  have := assign_blocks h
  refine ⟨⟨hadd.leafy.same this.1 this.2.1, ?_⟩, ?_⟩
  · rw [this.1]; exact hadd.heads
  · rw [assign_strbuf h, addChild_strbuf ha]

theorem Kept.trans {m1 m2 m3 : Mach} (h : Kept L m1 m2) (h' : Kept L m2 m3) : Kept L m1 m3 :=
  ⟨h'.leafy, h'.heads.trans h.heads⟩

/-- Running `ts` keeps the open blocks and makes only good nodes. -/
def Calm (env : Env) (L : Node → Prop) (ts : List (Peg.Thunk Act)) : Prop :=
  ∀ m m', Mach.exec env ts m = .ok m' → Leafy L m → Kept L m m'

theorem Quiet.calm {ts : List (Peg.Thunk Act)} {out : List UInt8} (h : Quiet env L ts out) :
    Calm env L ts := fun m m' h1 h2 => (h m m' h1 h2).1

theorem Calm.append {ts us : List (Peg.Thunk Act)} (h1 : Calm env L ts) (h2 : Calm env L us) :
    Calm env L (us ++ ts) := by
  intro m m' h hl
  obtain ⟨m1, e1, e2⟩ := exec_app h
  have a := h1 _ _ e1 hl
  exact a.trans (h2 _ _ e2 a.leafy)

/-- A block, opened and closed, and a leaf made of its text. -/
theorem Quiet.leaf (hf : Reads env w) {ts : List (Peg.Thunk Act)} {out : List UInt8}
    (hq : Quiet env (LeafAt env w) ts out) {p q r : Nat} {a : Act} (ha : a = .blockEnd ∨ a = .blockMerge)
    {d : Dst} {c : Ctor} (hk : c.terminal = some .block) (hc : Leaf c (w.extract p q) (w.extract p q)) :
    Quiet env (LeafAt env w) (.act (.build d c []) r :: .act a q :: (ts ++ [.act .blockStart p])) out := by
  intro m m' h hl
  obtain ⟨m1, h1, h2⟩ := exec_cons h
  obtain ⟨a1, a2, b, hb, hcl⟩ := bracket hq ha h1 hl
  obtain ⟨b1, b2⟩ := build_leaf (r := r) hk a1.leafy (fun b' t hb' ht => by
    rw [hb] at hb'
    cases hb'
    obtain ⟨-, -, rfl⟩ := blockText_inv hf hcl ht
    show LeafAt env w _
    unfold LeafAt
    simp only [Node.ctor, hk]
    exact ⟨p, q, hcl.rstart, hcl.rstop, hc⟩) h2
  exact ⟨a1.trans b1, by rw [b2, a2]⟩

/-- The string buffer is emptied, a block opened and closed, and a leaf made of what was appended. -/
theorem Calm.name {ts : List (Peg.Thunk Act)} {out : List UInt8}
    (hq : Quiet env (LeafAt env w) ts out) {p q r s : Nat} {a : Act} (ha : a = .blockEnd ∨ a = .blockMerge)
    {d : Dst} {c : Ctor} (hk : c.terminal = some .strbuf) (hc : Leaf c (w.extract p q) out) :
    Calm env (LeafAt env w)
      (.act (.build d c []) r :: .act a q :: (ts ++ [.act .blockStart p, .act .sbReset s])) := by
  intro m m' h hl
  have h : Mach.exec env ([.act (.build d c []) r] ++ ((.act a q :: (ts ++ [.act .blockStart p])) ++
    [.act .sbReset s])) m = .ok m' := by simpa using h
  obtain ⟨m1, h1, h2⟩ := exec_app h
  obtain ⟨m0, h0, h1⟩ := exec_app h1
  have h0 := exec_one h0
  cases h0
  obtain ⟨a1, a2, b, hb, hcl⟩ := bracket hq ha h1 (hl.same rfl rfl)
  have h2 := exec_one h2
  obtain ⟨b1, b2⟩ := build_leaf (r := r) hk a1.leafy (fun b' t hb' ht => by
    rw [hb] at hb'
    cases hb'
    simp only [Mach.terminalText, a2, List.nil_append] at ht
    cases ht
    show LeafAt env w _
    unfold LeafAt
    simp only [Node.ctor, hk]
    exact ⟨p, q, hcl.rstart, hcl.rstop, hc⟩) h2
  exact ⟨b1.leafy, b1.heads.trans a1.heads⟩

/-- The same when the string buffer is emptied inside the block. -/
theorem Calm.name' {ts : List (Peg.Thunk Act)} {out : List UInt8}
    (hq : Quiet env (LeafAt env w) ts out) {p q r s : Nat} {a : Act} (ha : a = .blockEnd ∨ a = .blockMerge)
    {d : Dst} {c : Ctor} (hk : c.terminal = some .strbuf) (hc : Leaf c (w.extract p q) out) :
    Calm env (LeafAt env w)
      (.act (.build d c []) r :: .act a q :: (ts ++ [.act .sbReset s, .act .blockStart p])) := by
  intro m m' h hl
  refine Calm.name (env := env) (w := w) hq (p := p) (q := q) (r := r) (s := s) (d := d) ha hk hc m m' ?_ hl
  rw [← h]
  have h1 : ∀ x y : Peg.Thunk Act, (.act (.build d c []) r :: .act a q :: (ts ++ [x, y])) =
      (.act (.build d c []) r :: .act a q :: ts) ++ [x, y] := by intro x y; simp
  rw [h1, h1, exec_append, exec_append]
  congr 1
  simp only [Mach.exec, Mach.step, Mach.act, bind, Except.bind, Mach.blockStart, throw, throwThe,
    MonadExceptOf.throw, pure, Except.pure]
  cases Mach.position env p with
  | error e => rfl
  | ok x =>
    cases hp : m.prev with
    | none => simp [hp]
    | some b => by_cases hc : b.children = [] <;> simp [hp, hc]

end
end Verif.Cypher
