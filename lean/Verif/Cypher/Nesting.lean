import Verif.Cypher.Ending
/-!
# Ranges of nodes

Whatever actions are run, in the order of their positions: the nodes made have ranges within those of
the nodes that contain them, siblings end in order, and no two nodes have the same number.
-/
namespace Verif.Cypher
open Verif.Peg

/-- A property of a node and of all nodes below it. -/
inductive Everywhere (P : Node → Prop) : Node → Prop
  | mk {n : Node} : P n → (∀ c ∈ n.children, Everywhere P c) → Everywhere P n

theorem Everywhere.imp {P Q : Node → Prop} {n : Node} (h : Everywhere P n) (hpq : ∀ x, P x → Q x) :
    Everywhere Q n := by
  induction h with
  | mk h _ ih => exact .mk (hpq _ h) ih

/-- `x` is where `i` is. -/
def Located (env : Env) (x : Pos) (i : Nat) : Prop := inputPosition env.off env.lines i = .ok x

theorem Located.offset {env : Env} {x : Pos} {i : Nat} (h : Located env x i) :
    x.offset = i + env.off.offset := by
  unfold Located inputPosition at h
  split at h
  · cases h
  · cases h; rfl

/-- `b` follows `a`: it ends no earlier, and it starts where `a` ends or later, unless it is a node without
children that was made of a text that `a` is part of (`block_merge_action`, `lib/src/parser.c:957-979`). -/
def Follows (a b : Node) : Prop :=
  a.range.stop.offset ≤ b.range.stop.offset ∧
    (a.range.stop.offset ≤ b.range.start.offset ∨ b.range.start.offset ≤ a.range.start.offset ∧ b.children = [])

/-- Siblings follow each other. -/
def InOrder (ns : List Node) : Prop := ns.Pairwise Follows

/-- A node between `lo` and `hi`, and what it contains between its ends. -/
inductive Spans (env : Env) : Nat → Nat → Node → Prop
  | mk {lo hi i j : Nat} {n : Node} : lo ≤ i → i ≤ j → j ≤ hi → Located env n.range.start i →
      Located env n.range.stop j → InOrder n.children → (∀ c ∈ n.children, Spans env i j c) →
      Spans env lo hi n

theorem Spans.mono {env : Env} {lo hi lo' hi' : Nat} {n : Node} (h : Spans env lo hi n) (h1 : lo' ≤ lo)
    (h2 : hi ≤ hi') : Spans env lo' hi' n := by
  cases h with
  | mk a b c d e f g => exact .mk (by omega) b (by omega) d e f g

theorem Spans.stop_le {env : Env} {lo hi : Nat} {n : Node} (h : Spans env lo hi n) :
    n.range.stop.offset ≤ hi + env.off.offset := by
  cases h with
  | mk a b c d e f g => have := e.offset; omega

/-- Nodes of one block, which was opened at `k`; now is `p`. -/
structure Kids (env : Env) (k p : Nat) (ns : List Node) : Prop where
  span : ∀ n ∈ ns, Spans env k p n
  order : InOrder ns

theorem Kids.nil (env : Env) (k p : Nat) : Kids env k p [] := ⟨by simp, .nil⟩

theorem Kids.mono {env : Env} {k p k' p' : Nat} {ns : List Node} (h : Kids env k p ns) (h1 : k' ≤ k)
    (h2 : p ≤ p') : Kids env k' p' ns := ⟨fun n hn => (h.span n hn).mono h1 h2, h.order⟩

/-- Everything in the second list follows everything in the first. -/
def Before (ms ns : List Node) : Prop := ∀ a ∈ ms, ∀ b ∈ ns, Follows a b

theorem Kids.append {env : Env} {k p : Nat} {ms ns : List Node} (h : Kids env k p ms)
    (h' : Kids env k p ns) (hb : Before ms ns) : Kids env k p (ms ++ ns) := by
  refine ⟨fun n hn => ?_, ?_⟩
  · rcases List.mem_append.1 hn with e | e
    · exact h.span n e
    · exact h'.span n e
  · exact List.pairwise_append.2 ⟨h.order, h'.order, hb⟩

theorem Kids.before {env : Env} {k' k p : Nat} {ms ns : List Node} (h : Kids env k' k ms)
    (h' : Kids env k p ns) : Before ms ns := by
  intro a ha b hb
  have h1 := (h.span a ha).stop_le
  cases h'.span b hb with
  | mk e1 e2 e3 e4 e5 e6 e7 =>
    have := e4.offset
    have := e5.offset
    exact ⟨by omega, .inl (by omega)⟩

/-- The open blocks: the innermost was opened at `k`, and nothing was added to the others since. -/
def Opened (env : Env) (p : Nat) : Nat → List Block → Prop
  | _, [] => False
  | k, [b] => k ≤ p ∧ Kids env k p b.children
  | k, b :: b' :: bs => k ≤ p ∧ Located env b.rstart k ∧ Kids env k p b.children ∧
      ∃ k', k' ≤ k ∧ Opened env k k' (b' :: bs)

theorem Opened.le {env : Env} {p k : Nat} : ∀ {bs : List Block}, Opened env p k bs → k ≤ p
  | [_], h => h.1
  | _ :: _ :: _, h => h.1

theorem Opened.later {env : Env} {p p' k : Nat} (hp : p ≤ p') : ∀ {bs : List Block},
    Opened env p k bs → Opened env p' k bs
  | [_], h => ⟨by have := h.1; omega, h.2.mono (Nat.le_refl _) hp⟩
  | _ :: _ :: _, h => ⟨by have := h.1; omega, h.2.1, h.2.2.1.mono (Nat.le_refl _) hp, h.2.2.2⟩

theorem Opened.kids {env : Env} {p k : Nat} : ∀ {b : Block} {bs : List Block},
    Opened env p k (b :: bs) → Kids env k p b.children
  | _, [], h => h.2
  | _, _ :: _, h => h.2.2.1

theorem Opened.set {env : Env} {p k : Nat} {b c : Block} (hs : c.rstart = b.rstart)
    (hk : Kids env k p c.children) : ∀ {bs : List Block}, Opened env p k (b :: bs) →
    Opened env p k (c :: bs)
  | [], h => ⟨h.1, hk⟩
  | _ :: _, h => ⟨h.1, by rw [hs]; exact h.2.1, hk, h.2.2.2⟩

/-- What holds of the machine at position `p`. -/
structure Shape (env : Env) (p k : Nat) (b : Block) (bs : List Block) (m : Mach) : Prop where
  blocks : m.blocks = b :: bs
  opened : Opened env p k (b :: bs)
  prev : ∀ q, m.prev = some q → ∃ i j, k ≤ i ∧ i ≤ j ∧ j ≤ p ∧ Located env q.rstart i ∧
    Located env q.rstop j ∧ Kids env i j q.children ∧
    ∀ n ∈ b.children, n.range.stop.offset ≤ q.rstop.offset ∧
      (n.range.stop.offset ≤ q.rstart.offset ∨ q.rstart.offset ≤ n.range.start.offset ∧ q.children = [])

def Shaped (env : Env) (p : Nat) (m : Mach) : Prop := ∃ k b bs, Shape env p k b bs m

theorem Shaped.later {env : Env} {p p' : Nat} {m : Mach} (h : Shaped env p m) (hp : p ≤ p') :
    Shaped env p' m := by
  obtain ⟨k, b, bs, h1, h2, h3⟩ := h
  refine ⟨k, b, bs, h1, h2.later hp, fun q hq => ?_⟩
  obtain ⟨i, j, a1, a2, a3, a4⟩ := h3 q hq
  exact ⟨i, j, a1, a2, by omega, a4⟩

theorem Shaped.same {env : Env} {p : Nat} {m m' : Mach} (h : Shaped env p m)
    (hb : m'.blocks = m.blocks) (hp : m'.prev = m.prev) : Shaped env p m' := by
  obtain ⟨k, b, bs, h1, h2, h3⟩ := h
  exact ⟨k, b, bs, hb.trans h1, h2, fun q hq => h3 q (hp ▸ hq)⟩

theorem position_inv {env : Env} {p : Nat} {x : Pos} (h : Mach.position env p = .ok x) :
    Located env x p := by
  unfold Mach.position at h
  unfold Located
  split at h
  · rename_i heq; cases h; exact heq
  · cases h

theorem blockStart_shaped {env : Env} {p : Nat} {m m' : Mach} (hs : Shaped env p m)
    (h : Mach.blockStart env p m = .ok m') : Shaped env p m' := by
  obtain ⟨k, b, bs, h1, h2, h3⟩ := hs
  unfold Mach.blockStart at h
  obtain ⟨x, hx, h⟩ := bind_ok h
  have hx := position_inv hx
  have key : ∀ m'' : Mach, m''.blocks = ⟨p, p, x, x, [], []⟩ :: m.blocks → m''.prev = none →
      Shaped env p m'' := by
    intro m'' e1 e2
    refine ⟨p, _, b :: bs, by rw [e1, h1], ⟨Nat.le_refl _, hx, .nil _ _ _, k, h2.le, h2⟩, ?_⟩
    intro q hq
    rw [e2] at hq; cases hq
  split at h
  · split at h
    · cases h
    · cases h; exact key _ rfl rfl
  · cases h; exact key _ rfl rfl

theorem blockPop_inv {env : Env} {p : Nat} {m : Mach} {c : Block} {cs : List Block}
    (h : Mach.blockPop env p m = .ok (c, cs)) : ∃ b b' bs x, m.blocks = b :: b' :: bs ∧
      Located env x p ∧ c = { b with stop := p, rstop := x } ∧ cs = b' :: bs ∧
      (∀ q, m.prev = some q → q.children = []) := by
  unfold Mach.blockPop at h
  obtain ⟨x, hx, h⟩ := bind_ok h
  have hx := position_inv hx
  split at h
  · cases h
  · cases h
  · rename_i b bs hne heq
    simp only at h
    cases bs with
    | nil => exact (hne rfl).elim
    | cons b' bs =>
      have key : ∀ u : Unit, (match m.prev with
          | some q => if q.children ≠ [] then throw Crash.prevNotEmpty else pure ()
          | none => pure () : Except Crash Unit) = .ok u → ∀ q, m.prev = some q → q.children = [] := by
        intro u hu q hq
        rw [hq] at hu
        simp only at hu
        split at hu
        · cases hu
        · rename_i hc; simpa using hc
      split at h
      · cases h
      · split at h
        · rename_i q hq
          split at h
          · cases h
          · rename_i hc
            cases h
            refine ⟨b, b', bs, x, heq, hx, rfl, rfl, fun q' hq' => ?_⟩
            rw [hq] at hq'; cases hq'
            simpa using hc
        · rename_i hq
          cases h
          refine ⟨b, b', bs, x, heq, hx, rfl, rfl, fun q' hq' => ?_⟩
          rw [hq] at hq'; cases hq'

theorem blockEnd_shaped {env : Env} {p : Nat} {m m' : Mach} (hs : Shaped env p m)
    (h : Mach.blockEnd env p m = .ok m') : Shaped env p m' := by
  obtain ⟨k, b, bs, h1, h2, h3⟩ := hs
  unfold Mach.blockEnd at h
  obtain ⟨⟨c, cs⟩, hp, h⟩ := bind_ok h
  cases h
  obtain ⟨b0, b', bs', x, e1, e2, rfl, rfl, -⟩ := blockPop_inv hp
  rw [h1] at e1
  cases e1
  obtain ⟨g1, g2, g3, k', g4, g5⟩ := h2
  refine ⟨k', b', bs', rfl, g5.later g1, ?_⟩
  rintro q ⟨⟩
  refine ⟨k, p, g4, g1, Nat.le_refl _, g2, e2, g3, fun n hn => ?_⟩
  have := (g5.kids.span n hn).stop_le
  have := g2.offset
  have h3 := e2.offset
  refine ⟨show _ ≤ x.offset from ?_, .inl (show _ ≤ b.rstart.offset from ?_)⟩ <;> omega

theorem blockReplace_shaped {env : Env} {p : Nat} {m m' : Mach} (hs : Shaped env p m)
    (h : Mach.blockReplace env p m = .ok m') : Shaped env p m' := by
  obtain ⟨k, b, bs, h1, h2, h3⟩ := hs
  unfold Mach.blockReplace at h
  obtain ⟨⟨c, cs⟩, hp, h⟩ := bind_ok h
  cases h
  obtain ⟨b0, b', bs', x, e1, e2, rfl, rfl, -⟩ := blockPop_inv hp
  rw [h1] at e1
  cases e1
  obtain ⟨g1, g2, g3, k', g4, g5⟩ := h2
  refine ⟨k, _, b' :: bs', rfl, ⟨g1, g2, .nil _ _ _, k', g4, g5⟩, ?_⟩
  rintro q ⟨⟩
  exact ⟨k, p, Nat.le_refl _, g1, Nat.le_refl _, g2, e2, g3, by simp⟩

theorem blockMerge_shaped {env : Env} {p : Nat} {m m' : Mach} (hs : Shaped env p m)
    (h : Mach.blockMerge env p m = .ok m') : Shaped env p m' := by
  obtain ⟨k, b, bs, h1, h2, h3⟩ := hs
  unfold Mach.blockMerge at h
  obtain ⟨⟨c, cs⟩, hp, h⟩ := bind_ok h
  obtain ⟨b0, b', bs', x, e1, e2, rfl, rfl, -⟩ := blockPop_inv hp
  rw [h1] at e1
  cases e1
  obtain ⟨g1, g2, g3, k', g4, g5⟩ := h2
  simp only at h
  split at h
  · cases h
    refine ⟨k', b', bs', rfl, g5.later g1, ?_⟩
    rintro q ⟨⟩
    refine ⟨k, p, g4, g1, Nat.le_refl _, g2, e2, g3, fun n hn => ?_⟩
    have := (g5.kids.span n hn).stop_le
    have := g2.offset
    have h3 := e2.offset
    refine ⟨show _ ≤ x.offset from ?_, .inl (show _ ≤ b.rstart.offset from ?_)⟩ <;> omega
  · cases h
    have hk : Kids env k' p (b'.children ++ b.children) :=
      (g5.kids.mono (Nat.le_refl _) g1).append (g3.mono g4 (Nat.le_refl _)) (g5.kids.before g3)
    refine ⟨k', _, bs', rfl, Opened.set (b := b') (c := { b' with children := b'.children ++ b.children }) rfl hk
      (g5.later g1), ?_⟩
    rintro q ⟨⟩
    refine ⟨k, p, g4, g1, Nat.le_refl _, g2, e2, .nil _ _ _, fun n hn => ?_⟩
    have := (hk.span n hn).stop_le
    have g6 := g2.offset
    have := e2.offset
    refine ⟨show _ ≤ x.offset from by omega, ?_⟩
    rcases List.mem_append.1 hn with hn | hn
    · have := (g5.kids.span n hn).stop_le
      exact .inl (show _ ≤ b.rstart.offset from by omega)
    · cases g3.span n hn with
      | mk a1 a2 a3 a4 =>
        have := a4.offset
        exact .inr ⟨show b.rstart.offset ≤ _ from by omega, rfl⟩

theorem setVar_blocks {m m' : Mach} {i : Nat} {v : Option Ref} (h : m.setVar i v = .ok m') :
    m'.blocks = m.blocks ∧ m'.prev = m.prev ∧ m'.next = m.next := by
  unfold Mach.setVar at h
  split at h
  · cases h
  · split at h
    · cases h; exact ⟨rfl, rfl, rfl⟩
    · cases h

theorem assign_blocks {m m' : Mach} {d : Dst} {v : Option Ref} (h : m.assign d v = .ok m') :
    m'.blocks = m.blocks ∧ m'.prev = m.prev ∧ m'.next = m.next := by
  cases d with
  | self => cases h; exact ⟨rfl, rfl, rfl⟩
  | var i => exact setVar_blocks h
  | discard => cases h; exact ⟨rfl, rfl, rfl⟩

/-- A builder makes a node of the closed block and adds it to the innermost open one. -/
theorem build_inv {env : Env} {c : Ctor} {args : List (Option Ref)} {m : Mach} {x : Mach × Ref}
    (h : Mach.build env c args m = .ok x) : ∃ q b bs n, m.prev = some q ∧ m.blocks = b :: bs ∧
      n.id = m.next ∧ n.children = q.children ∧ n.range = ⟨q.rstart, q.rstop⟩ ∧
      x.1.blocks = { b with children := b.children ++ [n] } :: bs ∧ x.1.prev = none ∧
      x.1.next = m.next + 1 := by
  have key : ∀ {m1 m2 : Mach} {n : Node}, m1.addChild n = .ok m2 → ∃ b bs, m1.blocks = b :: bs ∧
      m2.blocks = { b with children := b.children ++ [n] } :: bs ∧ m2.prev = m1.prev ∧
      m2.next = m1.next + 1 := by
    intro m1 m2 n h
    unfold Mach.addChild at h
    split at h
    · cases h
    · rename_i b bs hb
      cases h; exact ⟨b, bs, hb, rfl, rfl, rfl⟩
  unfold Mach.build at h
  split at h
  · unfold Mach.terminal at h
    split at h
    · cases h
    · rename_i q hq
      obtain ⟨t, -, h⟩ := bind_ok h
      simp only at h
      split at h
      · cases h
      · rename_i hc
        obtain ⟨m1, h1, h⟩ := bind_ok h
        cases h
        obtain ⟨b, bs, e1, e2, e3, e4⟩ := key h1
        refine ⟨q, b, bs, _, hq, e1, rfl, ?_, rfl, e2, e3, e4⟩
        have : q.children = [] := by simpa using hc
        rw [this]; rfl
  · unfold Mach.branch at h
    split at h
    · cases h
    · rename_i q hq
      obtain ⟨os, -, h⟩ := bind_ok h
      simp only at h
      split at h
      · cases h
      · split at h
        · cases h
        · cases h
        · obtain ⟨m1, h1, h⟩ := bind_ok h
          cases h
          obtain ⟨b, bs, e1, e2, e3, e4⟩ := key h1
          exact ⟨q, b, bs, _, hq, e1, rfl, rfl, rfl, e2, e3, e4⟩

theorem build_shaped {env : Env} {p : Nat} {c : Ctor} {args : List (Option Ref)} {m : Mach}
    {x : Mach × Ref} (hs : Shaped env p m) (h : Mach.build env c args m = .ok x) :
    Shaped env p x.1 := by
  obtain ⟨k, b, bs, h1, h2, h3⟩ := hs
  obtain ⟨q, b0, bs0, n, e1, e2, -, e4, e5, e6, e7, -⟩ := build_inv h
  rw [h1] at e2
  cases e2
  obtain ⟨i, j, a1, a2, a3, a4, a5, a6, a7⟩ := h3 q e1
  have hn : Spans env k p n := .mk a1 a2 a3 (by rw [e5]; exact a4) (by rw [e5]; exact a5)
    (by rw [e4]; exact a6.order) (by rw [e4]; exact a6.span)
  have hk : Kids env k p (b.children ++ [n]) := by
    refine h2.kids.append ⟨by simpa using hn, List.pairwise_singleton _ _⟩ ?_
    intro a ha b' hb'
    simp only [List.mem_singleton] at hb'
    subst hb'
    have := a7 a ha
    rw [Follows, e5, e4]; exact this
  refine ⟨k, _, bs, e6, Opened.set (b := b) (c := { b with children := b.children ++ [n] }) rfl hk h2, ?_⟩
  intro q' hq'
  rw [e7] at hq'; cases hq'

theorem seqAdds_blocks {m' : Mach} : ∀ {is : List Nat} {m : Mach}, m.seqAdds is = .ok m' →
    m'.prev = m.prev ∧ m'.next = m.next ∧ (m'.blocks = m.blocks ∨ ∃ b bs s, m.blocks = b :: bs ∧
      m'.blocks = { b with seq := s } :: bs)
  | [], m, h => by cases h; exact ⟨rfl, rfl, .inl rfl⟩
  | i :: is, m, h => by
    unfold Mach.seqAdds at h
    obtain ⟨v, -, h⟩ := bind_ok h
    obtain ⟨m1, h1, h⟩ := bind_ok h
    obtain ⟨g1, g2, g3⟩ := seqAdds_blocks h
    unfold Mach.seqAdd at h1
    split at h1
    · cases h1
    · rename_i b bs hb
      split at h1
      · cases h1
      · cases h1
        refine ⟨g1, g2, .inr ?_⟩
        rcases g3 with g3 | ⟨b', bs', s, g3, g4⟩
        · exact ⟨b, bs, _, hb, g3⟩
        · cases g3
          exact ⟨b, bs, s, hb, g4⟩

theorem seqAdds_shaped {env : Env} {p : Nat} {is : List Nat} {m m' : Mach} (hs : Shaped env p m)
    (h : m.seqAdds is = .ok m') : Shaped env p m' := by
  obtain ⟨g1, -, g3⟩ := seqAdds_blocks h
  rcases g3 with g3 | ⟨b', bs', s, g3, g4⟩
  · exact hs.same g3 g1
  · obtain ⟨k, b, bs, h1, h2, h3⟩ := hs
    rw [h1] at g3
    cases g3
    exact ⟨k, _, _, g4, Opened.set (b := b') (c := { b' with seq := s }) rfl h2.kids h2,
      fun q hq => h3 q (g1 ▸ hq)⟩

theorem act_shaped {env : Env} {a : Act} {p : Nat} {m m' : Mach} (hs : Shaped env p m)
    (h : Mach.act env a p m = .ok m') : Shaped env p m' := by
  cases a with
  | eof => cases h; exact hs.same rfl rfl
  | result v => obtain ⟨r, rfl, -⟩ := result_inv h; exact hs.same rfl rfl
  | finished => obtain ⟨es, -, rfl⟩ := finished_inv h; exact hs.same rfl rfl
  | blockStart => exact blockStart_shaped hs h
  | blockEnd => exact blockEnd_shaped hs h
  | blockReplace => exact blockReplace_shaped hs h
  | blockMerge => exact blockMerge_shaped hs h
  | seqAdd vs => exact seqAdds_shaped hs h
  | copy i =>
    simp only [Mach.act] at h
    obtain ⟨v, -, h⟩ := bind_ok h
    cases h; exact hs.same rfl rfl
  | null => cases h; exact hs.same rfl rfl
  | build d c args =>
    simp only [Mach.act] at h
    obtain ⟨vs, -, h⟩ := bind_ok h
    obtain ⟨x, h1, h⟩ := bind_ok h
    have := assign_blocks h
    exact (build_shaped hs h1).same this.1 this.2.1
  | aliasUnless e i =>
    simp only [Mach.act] at h
    obtain ⟨v, -, h⟩ := bind_ok h
    split at h
    · split at h
      · cases h; exact hs
      · obtain ⟨x, h1, h⟩ := bind_ok h
        have := setVar_blocks h
        exact (build_shaped hs h1).same this.1 this.2.1
    · obtain ⟨x, h1, h⟩ := bind_ok h
      have := setVar_blocks h
      exact (build_shaped hs h1).same this.1 this.2.1
  | sbReset => cases h; exact hs.same rfl rfl
  | sbAppend c => cases h; exact hs.same rfl rfl
  | sbAppendBlock =>
    simp only [Mach.act] at h
    split at h
    · cases h
    · obtain ⟨t, -, h⟩ := bind_ok h
      cases h; exact hs.same rfl rfl
  | opPush o => cases h; exact hs.same rfl rfl

/-- The ranges are right after any run of thunks. -/
theorem exec_shaped {env : Env} {lo : Nat} {m0 : Mach} (hs : Shaped env lo m0) :
    ∀ {ts : List (Peg.Thunk Act)} {hi : Nat} {m : Mach}, Mono lo hi ts →
      Mach.exec env ts m0 = .ok m → Shaped env hi m
  | [], hi, m, hm, h => by cases h; exact hs.later hm
  | t :: ts, hi, m, hm, h => by
    unfold Mach.exec at h
    obtain ⟨m1, h1, h⟩ := bind_ok h
    cases t with
    | push n => cases h; exact (exec_shaped (ts := ts) hs hm h1).same rfl rfl
    | pop n =>
      simp only [Mach.step] at h
      split at h
      · cases h
      · cases h; exact (exec_shaped (ts := ts) hs hm h1).same rfl rfl
    | set i =>
      have := setVar_blocks h
      exact (exec_shaped (ts := ts) hs hm h1).same this.1 this.2.1
    | act a p => exact (act_shaped (exec_shaped (ts := ts) hs hm.2 h1) h).later hm.1

/-! ## Numbers -/

mutual
/-- The numbers of a node and of all it contains. -/
def Node.ids : Node → List Nat
  | .mk i _ _ _ _ _ _ c => i :: Node.idss c
def Node.idss : List Node → List Nat
  | [] => []
  | n :: ns => n.ids ++ Node.idss ns
end

theorem Node.idss_append (a b : List Node) : Node.idss (a ++ b) = Node.idss a ++ Node.idss b := by
  induction a with
  | nil => rfl
  | cons n ns ih => simp only [List.cons_append, Node.idss, ih, List.append_assoc]

theorem Node.ids_eq (n : Node) : n.ids = n.id :: Node.idss n.children := by
  cases n; simp only [Node.ids, Node.id, Node.children]

def blocksIds : List Block → List Nat
  | [] => []
  | b :: bs => Node.idss b.children ++ blocksIds bs

def prevIds : Option Block → List Nat
  | none => []
  | some b => Node.idss b.children

/-- All numbers in use. -/
def Mach.ids (m : Mach) : List Nat := prevIds m.prev ++ blocksIds m.blocks

/-- No number is used twice, and the next one is new. -/
structure Numbered (m : Mach) : Prop where
  nodup : m.ids.Nodup
  lt : ∀ i ∈ m.ids, i < m.next

theorem Numbered.of {m m' : Mach} (h : Numbered m) (hp : m'.ids.Perm m.ids)
    (hn : m'.next = m.next) : Numbered m' :=
  ⟨hp.nodup_iff.2 h.nodup, fun i hi => by rw [hn]; exact h.lt i (hp.mem_iff.1 hi)⟩

theorem Numbered.same {m m' : Mach} (h : Numbered m)
    (hb : m'.blocks = m.blocks ∧ m'.prev = m.prev ∧ m'.next = m.next) : Numbered m' :=
  h.of (by unfold Mach.ids; rw [hb.1, hb.2.1]) hb.2.2

/-- From one state to another, the nodes made are added to those there, with the numbers that follow. -/
def Grown (m m' : Mach) : Prop :=
  ∃ n, m'.next = m.next + n ∧ m'.ids.Perm (m.ids ++ List.range' m.next n)

theorem Grown.refl (m : Mach) : Grown m m := ⟨0, rfl, by simp⟩

theorem Grown.trans {m m1 m2 : Mach} (h : Grown m m1) (h' : Grown m1 m2) : Grown m m2 := by
  obtain ⟨n, e1, p1⟩ := h
  obtain ⟨k, e2, p2⟩ := h'
  refine ⟨n + k, by omega, p2.trans ?_⟩
  rw [← List.range'_append_1, ← List.append_assoc, ← e1]
  exact p1.append_right _

theorem Grown.of {m0 m m' : Mach} (h : Grown m0 m) (hp : m'.ids.Perm m.ids)
    (hn : m'.next = m.next) : Grown m0 m' := by
  obtain ⟨n, e1, p1⟩ := h
  exact ⟨n, by omega, hp.trans p1⟩

theorem Grown.same {m0 m m' : Mach} (h : Grown m0 m)
    (hb : m'.blocks = m.blocks ∧ m'.prev = m.prev ∧ m'.next = m.next) : Grown m0 m' :=
  h.of (by unfold Mach.ids; rw [hb.1, hb.2.1]) hb.2.2

theorem Grown.numbered {m m' : Mach} (h : Grown m m') (hs : Numbered m) : Numbered m' := by
  obtain ⟨n, e, p⟩ := h
  refine ⟨p.nodup_iff.2 (List.nodup_append.2 ⟨hs.nodup, List.nodup_range', ?_⟩), fun i hi => ?_⟩
  · intro a ha b hb
    have := hs.lt a ha
    have := (List.mem_range'_1.1 hb).1
    omega
  · rcases List.mem_append.1 (p.mem_iff.1 hi) with h | h
    · have := hs.lt i h; omega
    · have := (List.mem_range'_1.1 h).2; omega

theorem act_grown {env : Env} {a : Act} {p : Nat} {m m' : Mach}
    (h : Mach.act env a p m = .ok m') : Grown m m' := by
  have hs : Grown m m := .refl m
  have hbuild : ∀ {c args} {x : Mach × Ref}, Mach.build env c args m = .ok x → Grown m x.1 := by
    intro c args x h
    obtain ⟨q, b, bs, n, e1, e2, e3, e4, e5, e6, e7, e8⟩ := build_inv h
    have hp : x.1.ids.Perm (m.next :: m.ids) := by
      unfold Mach.ids
      rw [e6, e7, e1, e2]
      simp only [prevIds, blocksIds, Node.idss_append, Node.idss, List.append_nil, List.nil_append]
      rw [Node.ids_eq, e3, e4]
      generalize Node.idss b.children = B
      generalize Node.idss q.children = Q
      generalize blocksIds bs = R
      have h1 : (B ++ m.next :: Q ++ R).Perm ((m.next :: Q) ++ B ++ R) :=
        (List.perm_append_comm).append_right R
      refine h1.trans ?_
      simp
    exact ⟨1, e8, hp.trans (List.perm_append_singleton _ _).symm⟩
  cases a with
  | eof => cases h; exact hs.same ⟨rfl, rfl, rfl⟩
  | result v => obtain ⟨r, rfl, -⟩ := result_inv h; exact hs.same ⟨rfl, rfl, rfl⟩
  | finished => obtain ⟨es, -, rfl⟩ := finished_inv h; exact hs.same ⟨rfl, rfl, rfl⟩
  | blockStart =>
    simp only [Mach.act, Mach.blockStart] at h
    obtain ⟨pos, -, h⟩ := bind_ok h
    split at h
    · rename_i q hq
      split at h
      · cases h
      · rename_i hc
        cases h
        have hc : q.children = [] := by simpa using hc
        refine hs.of ?_ rfl
        simp [Mach.ids, hq, prevIds, hc, Node.idss, blocksIds]
    · rename_i hq
      cases h
      refine hs.of ?_ rfl
      simp [Mach.ids, hq, prevIds, Node.idss, blocksIds]
  | blockEnd =>
    simp only [Mach.act, Mach.blockEnd] at h
    obtain ⟨⟨c, cs⟩, hp, h⟩ := bind_ok h
    cases h
    obtain ⟨b0, b', bs', x, e1, e2, rfl, rfl, e3⟩ := blockPop_inv hp
    refine hs.of ?_ rfl
    have : prevIds m.prev = [] := by
      cases hm : m.prev with
      | none => rfl
      | some q => simp [prevIds, e3 q hm, Node.idss]
    unfold Mach.ids
    rw [this, e1]
    simp [blocksIds, prevIds]
  | blockReplace =>
    simp only [Mach.act, Mach.blockReplace] at h
    obtain ⟨⟨c, cs⟩, hp, h⟩ := bind_ok h
    cases h
    obtain ⟨b0, b', bs', x, e1, e2, rfl, rfl, e3⟩ := blockPop_inv hp
    refine hs.of ?_ rfl
    have : prevIds m.prev = [] := by
      cases hm : m.prev with
      | none => rfl
      | some q => simp [prevIds, e3 q hm, Node.idss]
    unfold Mach.ids
    rw [this, e1]
    simp [blocksIds, prevIds, Node.idss]
  | blockMerge =>
    simp only [Mach.act, Mach.blockMerge] at h
    obtain ⟨⟨c, cs⟩, hp, h⟩ := bind_ok h
    obtain ⟨b0, b', bs', x, e1, e2, rfl, rfl, e3⟩ := blockPop_inv hp
    have hz : prevIds m.prev = [] := by
      cases hm : m.prev with
      | none => rfl
      | some q => simp [prevIds, e3 q hm, Node.idss]
    simp only at h
    split at h
    · cases h
      refine hs.of ?_ rfl
      unfold Mach.ids
      rw [hz, e1]
      simp [blocksIds, prevIds]
    · cases h
      refine hs.of ?_ rfl
      unfold Mach.ids
      rw [hz, e1]
      simp only [blocksIds, prevIds, Node.idss, Node.idss_append, List.nil_append]
      rw [← List.append_assoc (Node.idss b0.children)]
      exact (List.perm_append_comm).append_right _
  | seqAdd vs =>
    obtain ⟨g1, g2, g3⟩ := seqAdds_blocks h
    rcases g3 with g3 | ⟨b', bs', s, g3, g4⟩
    · exact hs.same ⟨g3, g1, g2⟩
    · refine hs.of ?_ g2
      simp [Mach.ids, g1, g3, g4, blocksIds]
  | copy i =>
    simp only [Mach.act] at h
    obtain ⟨v, -, h⟩ := bind_ok h
    cases h; exact hs.same ⟨rfl, rfl, rfl⟩
  | null => cases h; exact hs.same ⟨rfl, rfl, rfl⟩
  | build d c args =>
    simp only [Mach.act] at h
    obtain ⟨vs, -, h⟩ := bind_ok h
    obtain ⟨x, h1, h⟩ := bind_ok h
    exact (hbuild h1).same (assign_blocks h)
  | aliasUnless e i =>
    simp only [Mach.act] at h
    obtain ⟨v, -, h⟩ := bind_ok h
    split at h
    · split at h
      · cases h; exact hs
      · obtain ⟨x, h1, h⟩ := bind_ok h
        exact (hbuild h1).same (setVar_blocks h)
    · obtain ⟨x, h1, h⟩ := bind_ok h
      exact (hbuild h1).same (setVar_blocks h)
  | sbReset => cases h; exact hs.same ⟨rfl, rfl, rfl⟩
  | sbAppend c => cases h; exact hs.same ⟨rfl, rfl, rfl⟩
  | sbAppendBlock =>
    simp only [Mach.act] at h
    split at h
    · cases h
    · obtain ⟨t, -, h⟩ := bind_ok h
      cases h; exact hs.same ⟨rfl, rfl, rfl⟩
  | opPush o => cases h; exact hs.same ⟨rfl, rfl, rfl⟩

theorem act_numbered {env : Env} {a : Act} {p : Nat} {m m' : Mach} (hs : Numbered m)
    (h : Mach.act env a p m = .ok m') : Numbered m' := (act_grown h).numbered hs

theorem exec_grown {env : Env} {m0 : Mach} :
    ∀ {ts : List (Peg.Thunk Act)} {m : Mach}, Mach.exec env ts m0 = .ok m → Grown m0 m
  | [], m, h => by cases h; exact .refl _
  | t :: ts, m, h => by
    unfold Mach.exec at h
    obtain ⟨m1, h1, h⟩ := bind_ok h
    have ih := exec_grown h1
    cases t with
    | push n => cases h; exact ih.same ⟨rfl, rfl, rfl⟩
    | pop n =>
      simp only [Mach.step] at h
      split at h
      · cases h
      · cases h; exact ih.same ⟨rfl, rfl, rfl⟩
    | set i => exact ih.same (setVar_blocks h)
    | act a p => exact ih.trans (act_grown h)

theorem exec_numbered {env : Env} {m0 : Mach} (hs : Numbered m0) {ts : List (Peg.Thunk Act)} {m : Mach}
    (h : Mach.exec env ts m0 = .ok m) : Numbered m := (exec_grown h).numbered hs

end Verif.Cypher
