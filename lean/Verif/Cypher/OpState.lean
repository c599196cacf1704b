import Verif.Cypher.OpRun
import Verif.Cypher.OpStop
/-!
# Operators: the machine inside the rules of expressions

`NodesOk`: the rules up to some height make only operators that are as they should be. `BlockAt` describes the
machine inside a block of the rule being looked at.
-/
namespace Verif.Cypher
open Verif.Peg Verif.Ops

section
variable {w : List UInt8} {n : Nat} {e : E} {p p' : Nat} {q q' : QState} {res : SkRes}
  {ts : List (Peg.Thunk Act)} {env : Env} {m m' : Mach}

/-! ## Rules without operators -/

/-- Nodes are as they should be. -/
abbrev Fine (env : Env) (w : List UInt8) (m : Mach) : Prop := Leafy (OperatorOk w env.off.offset) m

theorem fine_lenient : Lenient (OperatorOk w env.off.offset) := by
  intro n hn h
  rw [hn] at h; cases h

def NodesOk (env : Env) (w : List UInt8) (n : Nat) : Prop :=
  ∀ {r p q p' ts q' m m' b bs}, r ≠ .r__expression → SkN w n (.nt r none) p q (.ok p' ts q') →
    p' ≤ env.buf.length → Mach.blocks m = b :: bs → Idle env m → Fine env w m →
    Mach.exec env ts m = .ok m' → Fine env w m'

/-- No operator is built, and `_expression` is not called. -/
def plainE : E → Bool
  | .eps | .one _ | .str _ | .pred _ | .peek _ | .npeek _ => true
  | .nt r _ => r != .r__expression
  | .act a => !operatorBuild a
  | .seq a b | .alt a b => plainE a && plainE b
  | .star a | .onfail a _ => plainE a

def notPlain : List Rule :=
  [.r_expression, .r__prec_expression, .r__expression, .r__atom, .r_property_expression]

theorem plain_all : ∀ r, r ∉ notPlain → plainE (grammar r).body = true := by
  have : ∀ r ∈ Rule.all, r ∉ notPlain → plainE (grammar r).body = true := by decide +kernel
  exact fun r => this r (Rule.mem_all r)

theorem Stk.cons {off : Nat} {b0 : Block} {rest : List Block} {as : List ABlk} {D : List Delta}
    {B : List Block} (h : Stk off p b0 rest as D B) : ∃ b bs, B = b :: bs := by
  match as, h with
  | [], h => exact h.elim
  | [_], ⟨_, _, _, h⟩ => exact ⟨_, _, h⟩
  | _ :: _ :: _, ⟨_, _, b, bs, _, h, _⟩ => exact ⟨b, bs, h⟩

theorem G.ready {m0 : Mach} {A : Abs} (h : G env m0 A p m) (hc : A.prev.isClean = true) :
    (∃ b bs, m.blocks = b :: bs) ∧ Idle env m := by
  obtain ⟨b0, rest, D, xs, h⟩ := h
  exact ⟨h.blks.cons, APrev.isClean_ok h.prev h.clean hc, h.errs⟩

theorem set_same {v : Option Nat} (h : Mach.exec env (setT v) m = .ok m') :
    m'.blocks = m.blocks ∧ m'.prev = m.prev := by
  cases v with
  | none => cases h; exact ⟨rfl, rfl⟩
  | some i =>
    have h := exec_one h
    have := setVar_blocks (show m.setVar i m.self = .ok m' from h)
    exact ⟨this.1, this.2.1⟩

theorem leave_same {k : Nat} (h : Mach.exec env (leaveT k) m = .ok m') :
    m'.blocks = m.blocks ∧ m'.prev = m.prev ∧ m'.self = m.self ∧ m'.ops = m.ops := by
  unfold leaveT at h
  split at h
  · cases h; exact ⟨rfl, rfl, rfl, rfl⟩
  · have h := exec_one h
    simp only [Mach.step] at h
    split at h
    · cases h
    · cases h; exact ⟨rfl, rfl, rfl, rfl⟩

theorem enter_same {k : Nat} (h : Mach.exec env (enterT k) m = .ok m') :
    m' = { m with frames := if k = 0 then m.frames else List.replicate k none :: m.frames } := by
  unfold enterT at h
  split at h
  · rename_i hk
    cases h; simp [hk]
  · rename_i hk
    have h := exec_one h
    simp only [Mach.step] at h
    cases h; simp [hk]

/-- What is recorded for a rule without operators makes good nodes. -/
theorem plain_fine (he : EnvOk env) (hn : NodesOk env w n) {m0 : Mach} : ∀ (e : E), plainE e = true →
    ∀ {p q p' ts q' A oA m m'}, SkN w n e p q (.ok p' ts q') → tr lax sumT e A = some oA →
      G env m0 A p m → Fine env w m → p' ≤ env.buf.length → Mach.exec env ts m = .ok m' → Fine env w m' := by
  intro e
  induction e with
  | eps => intro _ p q p' ts q' A oA m m' h _ _ hf _ hx; cases h; cases hx; exact hf
  | one => intro _ p q p' ts q' A oA m m' h _ _ hf _ hx; cases h; cases hx; exact hf
  | str => intro _ p q p' ts q' A oA m m' h _ _ hf _ hx; cases h; cases hx; exact hf
  | peek => intro _ p q p' ts q' A oA m m' h _ _ hf _ hx; cases h; cases hx; exact hf
  | npeek => intro _ p q p' ts q' A oA m m' h _ _ hf _ hx; cases h; cases hx; exact hf
  | pred x =>
    intro _ p q p' ts q' A oA m m' h _ _ hf _ hx
    obtain ⟨rfl, rfl, -⟩ := h.pred
    rw [recT_act] at hx
    split at hx
    · rename_i a ha
      refine act_leafy fine_lenient ?_ (exec_one hx) hf
      cases x <;> first | (cases ha; done) | (cases ha; rfl)
    · cases hx; exact hf
  | act a =>
    intro hp p q p' ts q' A oA m m' h _ _ hf _ hx
    obtain ⟨rfl, rfl, -⟩ := h.act'
    exact act_leafy fine_lenient (by simpa [plainE] using hp) (exec_one hx) hf
  | nt r v =>
    intro hp p q p' ts q' A oA m m' h ht hg hf hl hx
    obtain ⟨us, rfl, h'⟩ := h.nt_set
    obtain ⟨m1, hx1, hx2⟩ := exec_app hx
    have hs := set_same hx2
    refine Leafy.same ?_ hs.1 hs.2
    simp only [tr] at ht
    cases hin : inlined r with
    | some a =>
      obtain ⟨hn0, x, hb, hxa⟩ := inlined_body hin
      obtain ⟨k, us', -, h2, rfl⟩ := h'.nt
      rw [hb] at h2
      obtain ⟨rfl, rfl, -⟩ := h2.pred
      rw [recT_act, hxa, hn0] at hx1
      simp only [setT, leaveT, enterT, if_true, List.nil_append, List.append_nil] at hx1
      refine act_leafy fine_lenient ?_ (exec_one hx1) hf
      cases r <;> first | (cases hin; done) | (cases hin; rfl)
    | none =>
      rw [hin] at ht
      simp only at ht
      split at ht
      · rename_i hs'
        obtain ⟨A', hA, -⟩ := h.toSk.runs sumT_ok (by simp [lax]) _ _ _ rfl A none
          (by simp only [tr, hin, hs'])
        cases hA
      · rename_i s hs'
        simp only [Option.map_eq_some_iff, Option.bind_eq_some_iff] at ht
        obtain ⟨A2, ⟨A1, hcall, -⟩, -⟩ := ht
        unfold Abs.call at hcall
        split at hcall
        · cases hcall
        · split at hcall
          · rename_i hc
            simp only [Bool.and_eq_true] at hc
            obtain ⟨⟨b, bs, hb⟩, hr⟩ := hg.ready hc.1.1
            exact hn (by simpa [plainE] using hp) h' hl hb hr hf hx1
          · cases hcall
  | seq a b iha ihb =>
    intro hp p q p' ts q' A oA m m' h ht hg hf hl hx
    simp only [plainE, Bool.and_eq_true] at hp
    obtain ⟨p1, us, q1, vs, h1, h2, rfl⟩ := h.seq
    obtain ⟨m1, hx1, hx2⟩ := exec_app hx
    have hle := h2.le
    simp only [tr] at ht
    cases hta : tr lax sumT a A with
    | none => rw [hta] at ht; cases ht
    | some o =>
      obtain ⟨B, rfl, -⟩ := h1.toSk.runs sumT_ok (by simp [lax]) _ _ _ rfl A o hta
      rw [hta] at ht
      exact ihb hp.2 h2 ht (h1.runs hta he (by omega) hg hx1) (iha hp.1 h1 hta hg hf (by omega) hx1) hl hx2
  | alt a b iha ihb =>
    intro hp p q p' ts q' A oA m m' h ht hg hf hl hx
    simp only [plainE, Bool.and_eq_true] at hp
    simp only [tr] at ht
    obtain ⟨⟨x, hx'⟩, y, hy⟩ := altJoin_some ht
    rcases h.alt with h | ⟨q1, -, h⟩
    · exact iha hp.1 h hx' hg hf hl hx
    · exact ihb hp.2 h hy hg hf hl hx
  | star a iha =>
    intro hp p q p' ts q' A oA m m' h ht hg hf hl hx
    simp only [tr] at ht
    obtain ⟨J, rfl, h1, h2, h3⟩ := starLoop_fix 6 ht
    have key := SkN.star (w := w) (n := n) (a := a)
      (P := fun p q p' ts q' => p ≤ p' ∧ (p' ≤ env.buf.length → ∀ m m', G env m0 J p m → Fine env w m →
        Mach.exec env ts m = .ok m' → Fine env w m')) ?_ ?_ h
    · exact key.2 hl m m' (h1 _ _ _ _ hg) hf hx
    · intro p q p1 us q1 p2 vs q2 ha ih
      refine ⟨Nat.le_trans ha.le ih.1, fun hl m m' hg hf hx => ?_⟩
      obtain ⟨m1, hx1, hx2⟩ := exec_app hx
      rcases h3 with h3 | ⟨B, h3, h4⟩
      · obtain ⟨B, hB, -⟩ := ha.toSk.runs sumT_ok (by simp [lax]) _ _ _ rfl J none h3
        cases hB
      · have hl1 : p1 ≤ env.buf.length := Nat.le_trans ih.1 hl
        exact ih.2 hl m1 m' (h4 _ _ _ _ (ha.runs h3 he hl1 hg hx1)) (iha hp ha h3 hg hf hl1 hx1) hx2
    · intro p q q1 _
      refine ⟨Nat.le_refl _, fun _ m m' _ hf hx => ?_⟩
      cases hx; exact hf
  | onfail a x iha =>
    intro hp p q p' ts q' A oA m m' h ht hg hf hl hx
    exact iha hp h.onfail ht hg hf hl hx

/-- A rule without operators. -/
theorem rule_fine (he : EnvOk env) (hn : ∀ k, k < n → NodesOk env w k) {r : Rule} (hr : r ∉ notPlain)
    (h : SkN w n (.nt r none) p q (.ok p' ts q')) (hl : p' ≤ env.buf.length) {b : Block} {bs : List Block}
    (hb : m.blocks = b :: bs) (hm : Idle env m) (hf : Fine env w m) (hx : Mach.exec env ts m = .ok m') :
    Fine env w m' := by
  obtain ⟨k, us, hk, h1, rfl⟩ := h.nt
  obtain ⟨m3, hx, hx4⟩ := exec_app hx
  obtain ⟨m2, hx, hx3⟩ := exec_app hx
  obtain ⟨m1, hx1, hx2⟩ := exec_app hx
  cases hx4
  have hs := leave_same hx3
  refine Leafy.same ?_ hs.1 hs.2.1
  have hf1 : Fine env w m1 := by
    rw [enter_same hx1]; exact hf.same rfl rfl
  cases hin : inlined r with
  | some a =>
    obtain ⟨hn0, x, hbo, hxa⟩ := inlined_body hin
    rw [hbo] at h1
    obtain ⟨rfl, rfl, -⟩ := h1.pred
    rw [recT_act, hxa] at hx2
    refine act_leafy fine_lenient ?_ (exec_one hx2) hf1
    cases r <;> first | (cases hin; done) | (cases hin; rfl)
  | none =>
    obtain ⟨m1', hx1', hg⟩ := enter_sound (p := p) hb hm.clean hm.errs (grammar r).nvars
    cases hx1.symm.trans hx1'
    have hok := sumT_ok r
    simp only [sumOk, hin, Option.isSome_none, Bool.false_or] at hok
    cases ht : tr lax sumT (grammar r).body (.init (grammar r).nvars) with
    | none => rw [ht] at hok; cases hok
    | some oA => exact plain_fine he (hn k hk) _ (plain_all r hr) h1 ht hg hf1 hl hx2

/-! ## Inside a block -/

/-- The machine inside a block that began at `x`: its sequence, its nodes, the blocks around it, the
variables, the operators. -/
structure BlockAt (env : Env) (w : List UInt8) (x : Pos) (B : List Block)
    (FF : List (List (Option (Option Ref)))) (O : List Op) (kids : List Node) (sq : List Ref)
    (m : Mach) : Prop where
  blocks : ∃ s t y, m.blocks = ⟨s, t, x, y, sq, kids⟩ :: B
  frames : m.frames = FF
  ops : m.ops = O
  ready : Idle env m
  fine : Fine env w m

variable {x : Pos} {B : List Block} {FF F : List (List (Option (Option Ref)))}
  {fr : List (Option (Option Ref))} {O : List Op} {kids : List Node} {sq : List Ref} {i k : Nat} {r : Rule}

theorem BlockAt.call (he : EnvOk env) (hn : NodesOk env w n) (hr : callOk r k = true) (hne : r ≠ .r__expression)
    (h : SkN w n (.nt r none) p q (.ok p' ts q')) (hl : p' ≤ env.buf.length)
    (hs : BlockAt env w x B FF O kids sq m) (hx : Mach.exec env ts m = .ok m') :
    ∃ d xs, BlockAt env w x B FF (xs ++ O) (kids ++ d) sq m' ∧ xs.length = k := by
  obtain ⟨s, t, y, hb⟩ := hs.blocks
  obtain ⟨⟨d, xs, hc⟩, -⟩ := call_at hr h he hl hb hs.ready hx
  exact ⟨d, xs, ⟨⟨s, t, y, hc.blocks⟩, hc.frames.trans hs.frames, hc.ops.trans (by rw [hs.ops]), hc.ready,
    hn hne h hl hb hs.ready hs.fine hx⟩, hc.len⟩

/-- A rule that pushes no operator. -/
theorem BlockAt.call0 (he : EnvOk env) (hn : NodesOk env w n) (hr : callOk r 0 = true) (hne : r ≠ .r__expression)
    (h : SkN w n (.nt r none) p q (.ok p' ts q')) (hl : p' ≤ env.buf.length)
    (hs : BlockAt env w x B FF O kids sq m) (hx : Mach.exec env ts m = .ok m') :
    ∃ d, BlockAt env w x B FF O (kids ++ d) sq m' := by
  obtain ⟨d, xs, h1, h2⟩ := hs.call he hn hr hne h hl hx
  have : xs = [] := List.length_eq_zero_iff.1 h2
  subst this
  exact ⟨d, h1⟩

theorem BlockAt.set (hs : BlockAt env w x B (fr :: F) O kids sq m) (hx : Mach.exec env (setT (some i)) m = .ok m') :
    BlockAt env w x B (fr.set i (some m.self) :: F) O kids sq m' ∧ i < fr.length := by
  have hx := exec_one hx
  simp only [Mach.step, Mach.setVar] at hx
  rw [hs.frames] at hx
  simp only at hx
  split at hx
  · rename_i hi
    cases hx
    exact ⟨⟨hs.blocks, rfl, hs.ops, ⟨hs.ready.clean, hs.ready.errs⟩, hs.fine.same rfl rfl⟩, hi⟩
  · cases hx

theorem BlockAt.push {o : Op} (hs : BlockAt env w x B FF O kids sq m)
    (hx : Mach.exec env [.act (.opPush o) p] m = .ok m') : BlockAt env w x B FF (o :: O) kids sq m' := by
  have hx := exec_one hx
  simp only [Mach.step, Mach.act] at hx
  cases hx
  exact ⟨hs.blocks, hs.frames, by simp [hs.ops], ⟨hs.ready.clean, hs.ready.errs⟩, hs.fine.same rfl rfl⟩

theorem BlockAt.seqAdds {is : List Nat} (hs : BlockAt env w x B FF O kids sq m) (hx : m.seqAdds is = .ok m') :
    ∃ sq', BlockAt env w x B FF O kids sq' m' := by
  induction is generalizing m sq with
  | nil => cases hx; exact ⟨sq, hs⟩
  | cons i is ih =>
    unfold Mach.seqAdds at hx
    obtain ⟨v, -, hx⟩ := bind_ok hx
    obtain ⟨m1, h1, hx⟩ := bind_ok hx
    unfold Mach.seqAdd at h1
    obtain ⟨s, t, y, hb⟩ := hs.blocks
    rw [hb] at h1
    simp only at h1
    split at h1
    · cases h1
    · rename_i v r
      cases h1
      refine ih (m := { m with blocks := ⟨s, t, x, y, sq ++ [r], kids⟩ :: B }) (sq := sq ++ [r])
        ⟨⟨s, t, y, rfl⟩, hs.frames, hs.ops, ⟨hs.ready.clean, hs.ready.errs⟩, ?_⟩ hx
      refine ⟨fun c hc => ?_, hs.fine.prev⟩
      rcases List.mem_cons.1 hc with rfl | hc
      · exact hs.fine.blocks ⟨s, t, x, y, sq, kids⟩ (by rw [hb]; exact List.mem_cons_self)
      · exact hs.fine.blocks _ (by rw [hb]; exact List.mem_cons_of_mem _ hc)

theorem BlockAt.seqAdd {a : Ref} (hs : BlockAt env w x B (fr :: F) O kids sq m) (hv : fr[i]? = some (some (some a)))
    (hx : Mach.exec env [.act (.seqAdd [i]) p] m = .ok m') :
    BlockAt env w x B (fr :: F) O kids (sq ++ [a]) m' := by
  have hx := exec_one hx
  simp only [Mach.step, Mach.act] at hx
  unfold Mach.seqAdds at hx
  obtain ⟨v, h0, hx⟩ := bind_ok hx
  obtain ⟨m1, h1, hx⟩ := bind_ok hx
  cases hx
  unfold Mach.getVar at h0
  rw [hs.frames] at h0
  simp only [hv] at h0
  cases h0
  unfold Mach.seqAdd at h1
  obtain ⟨s, t, y, hb⟩ := hs.blocks
  rw [hb] at h1
  simp only at h1
  cases h1
  refine ⟨⟨s, t, y, rfl⟩, hs.frames, hs.ops, ⟨hs.ready.clean, hs.ready.errs⟩, ?_⟩
  refine ⟨fun c hc => ?_, hs.fine.prev⟩
  rcases List.mem_cons.1 hc with rfl | hc
  · exact hs.fine.blocks ⟨s, t, x, y, sq, kids⟩ (by rw [hb]; exact List.mem_cons_self)
  · exact hs.fine.blocks _ (by rw [hb]; exact List.mem_cons_of_mem _ hc)

/-! ## Between an operand and the end of its operator -/

/-- Calls, and additions to the sequence, that leave variable 0 alone. -/
def midE : E → Bool
  | .eps => true
  | .nt r v => callOk r 0 && r != .r__expression && v != some 0
  | .act (.seqAdd _) => true
  | .pred (.op _) | .pred .precChk => true
  | .seq a b | .alt a b => midE a && midE b
  | .star a => midE a
  | _ => false

/-- What such a part does. -/
structure Mid (env : Env) (w : List UInt8) (x : Pos) (B : List Block) (fr : List (Option (Option Ref)))
    (F : List (List (Option (Option Ref)))) (O : List Op) (kids : List Node) (m : Mach) : Prop where
  ex : ∃ d sq fr', BlockAt env w x B (fr' :: F) O (kids ++ d) sq m ∧ fr'[0]? = fr[0]? ∧ fr'.length = fr.length

theorem Mid.refl (hs : BlockAt env w x B (fr :: F) O kids sq m) : Mid env w x B fr F O kids m :=
  ⟨[], sq, fr, by simpa using hs, rfl, rfl⟩

theorem mid_ok (he : EnvOk env) (hn : NodesOk env w n) : ∀ (e : E), midE e = true →
    ∀ {p q p' ts q' m m'}, SkN w n e p q (.ok p' ts q') → p' ≤ env.buf.length →
      Mid env w x B fr F O kids m → Mach.exec env ts m = .ok m' → Mid env w x B fr F O kids m' := by
  intro e
  induction e with
  | eps => intro _ p q p' ts q' m m' h _ hs hx; cases h; cases hx; exact hs
  | nt r v =>
    intro hm p q p' ts q' m m' h hl hs hx
    simp only [midE, Bool.and_eq_true, bne_iff_ne, ne_eq] at hm
    obtain ⟨us, rfl, h'⟩ := h.nt_set
    obtain ⟨m1, hx1, hx2⟩ := exec_app hx
    obtain ⟨d, sq, fr', hs, h0, hlen⟩ := hs
    obtain ⟨d', h1⟩ := hs.call0 he hn hm.1.1 hm.1.2 h' hl hx1
    cases v with
    | none =>
      cases hx2
      exact ⟨d ++ d', sq, fr', by simpa using h1, h0, hlen⟩
    | some i =>
      obtain ⟨h2, hi⟩ := h1.set hx2
      refine ⟨d ++ d', sq, _, by simpa using h2, ?_, by simpa using hlen⟩
      have : i ≠ 0 := fun h => hm.2 (by rw [h])
      rw [List.getElem?_set_ne this, h0]
  | act a =>
    intro hm p q p' ts q' m m' h hl hs hx
    obtain ⟨rfl, rfl, -⟩ := h.act'
    unfold midE at hm
    split at hm <;> try (rename_i heq; cases heq; done)
    · rename_i is heq
      cases heq
      obtain ⟨d, sq, fr', hs, h0, hlen⟩ := hs
      obtain ⟨sq', h1⟩ := hs.seqAdds (exec_one hx)
      exact ⟨d, sq', fr', h1, h0, hlen⟩
    · cases hm
  | pred a =>
    intro hm p q p' ts q' m m' h hl hs hx
    obtain ⟨rfl, rfl, -⟩ := h.pred
    unfold midE at hm
    split at hm <;> try (rename_i heq; cases heq; done)
    · rename_i is heq
      cases heq
      cases hx; exact hs
    · rename_i heq
      cases heq
      cases hx; exact hs
    · cases hm
  | seq a b iha ihb =>
    intro hm p q p' ts q' m m' h hl hs hx
    simp only [midE, Bool.and_eq_true] at hm
    obtain ⟨p1, us, q1, vs, h1, h2, rfl⟩ := h.seq
    obtain ⟨m1, hx1, hx2⟩ := exec_app hx
    have hle := h2.le
    exact ihb hm.2 h2 hl (iha hm.1 h1 (by omega) hs hx1) hx2
  | alt a b iha ihb =>
    intro hm p q p' ts q' m m' h hl hs hx
    simp only [midE, Bool.and_eq_true] at hm
    rcases h.alt with h | ⟨q1, -, h⟩
    · exact iha hm.1 h hl hs hx
    · exact ihb hm.2 h hl hs hx
  | star a iha =>
    intro hm p q p' ts q' m m' h hl hs hx
    have key := SkN.star (w := w) (n := n) (a := a)
      (P := fun p q p' ts q' => p ≤ p' ∧ (p' ≤ env.buf.length → ∀ m m', Mid env w x B fr F O kids m →
        Mach.exec env ts m = .ok m' → Mid env w x B fr F O kids m')) ?_ ?_ h
    · exact key.2 hl m m' hs hx
    · intro p q p1 us q1 p2 vs q2 ha ih
      refine ⟨Nat.le_trans ha.le ih.1, fun hl m m' hs hx => ?_⟩
      obtain ⟨m1, hx1, hx2⟩ := exec_app hx
      exact ih.2 hl m1 m' (iha hm ha (Nat.le_trans ih.1 hl) hs hx1) hx2
    · intro p q q1 _
      refine ⟨Nat.le_refl _, fun _ m m' hs hx => ?_⟩
      cases hx; exact hs
  | _ => intro hm; cases hm

/-! ## The end of an operator -/

/-- `block_replace` and a builder for variable 0. -/
theorem close_inv {c : Ctor} {args : List (Option Nat)}
    (h : SkN w n (.seq (.nt .r__block_replace_ none) (.act (.build (.var 0) c args))) p q (.ok p' ts q')) :
    p' = p ∧ q' = q ∧ ts = [.act (.build (.var 0) c args) p, .act .blockReplace p] := by
  obtain ⟨p1, us, q1, vs, h1, h2, rfl⟩ := h.seq
  obtain ⟨rfl, rfl, rfl⟩ := h2.act'
  obtain ⟨k, us', -, h3, rfl⟩ := h1.nt
  change SkN w k (.pred .blockReplace) _ _ _ at h3
  obtain ⟨rfl, rfl, hq⟩ := h3.pred
  cases hq
  exact ⟨rfl, rfl, rfl⟩

theorem getArgs_frames {as : List (Option Nat)} {m1 m2 : Mach} (h : m1.frames = m2.frames) :
    m1.getArgs as = m2.getArgs as := by
  induction as with
  | nil => rfl
  | cons a as ih =>
    cases a with
    | none => simp only [Mach.getArgs, ih]
    | some i => simp only [Mach.getArgs, ih, Mach.getVar, h]

/-- What the end of an operator does: a node for the block, and variable 0 holds it. -/
theorem BlockAt.close {c : Ctor} {args : List (Option Nat)} (hc : c.terminal = none)
    (hs : BlockAt env w x B (fr :: F) O kids sq m)
    (hx : Mach.exec env [.act (.build (.var 0) c args) p, .act .blockReplace p] m = .ok m') :
    ∃ N y vs O' blk, Node.ctor N = c ∧ N.range = ⟨x, y⟩ ∧ Located env y p ∧ N.children = kids ∧
      m.getArgs args = .ok vs ∧ N.args = vs ∧ blk.seq = sq ∧ Mach.takeOps c blk O = .ok (N.ops, O') ∧
      N.seq = (if c.checks.2 = .none then [] else sq) ∧
      (OperatorOk w env.off.offset N →
        BlockAt env w x B (fr.set 0 (some (some N.ref)) :: F) O' [N] [] m') := by
  obtain ⟨m1, h1, h2⟩ := exec_cons hx
  have h1 := exec_one h1
  simp only [Mach.step, Mach.act] at h1 h2
  have hf1 : Fine env w m1 := act_leafy (a := .blockReplace) (p := p) fine_lenient rfl h1 hs.fine
  simp only [Mach.blockReplace] at h1
  obtain ⟨⟨c', cs⟩, hp, h1⟩ := bind_ok h1
  cases h1
  obtain ⟨b, b', bs, y, e1, e2, rfl, rfl, -⟩ := blockPop_inv hp
  obtain ⟨s, t, y', hb⟩ := hs.blocks
  rw [hb] at e1
  cases e1
  obtain ⟨vs, hv, h2⟩ := bind_ok h2
  obtain ⟨X, hX, h2⟩ := bind_ok h2
  obtain ⟨k, b0, bs0, N, g1, g2, g3, g4, g5, g6, g7, g8, -⟩ := build_full hX
  cases g1
  cases g2
  obtain ⟨g8, g9, g10⟩ := g8 hc
  refine ⟨N, y, vs, X.1.ops, _, g3, g5, e2, g6, ?_, g8, rfl, by rw [← hs.ops]; exact g9, g10, fun hN => ?_⟩
  · rw [← hv]; exact getArgs_frames rfl
  · have hX1 : Fine env w X.1 := by
      rw [g7]
      refine ⟨fun c hc => ?_, by simp⟩
      rcases List.mem_cons.1 hc with rfl | hc
      · intro z hz
        simp only [List.nil_append, List.mem_singleton] at hz
        subst hz
        refine .mk hN fun c hc => ?_
        rw [g6] at hc
        exact hf1.prev _ rfl c hc
      · exact hf1.blocks c (List.mem_cons_of_mem _ hc)
    have h2 : X.1.setVar 0 (some X.2) = .ok m' := h2
    have hfr : X.1.frames = fr :: F := by rw [g7]; exact hs.frames
    unfold Mach.setVar at h2
    rw [hfr] at h2
    simp only at h2
    split at h2
    · cases h2
      refine ⟨?_, by rw [g4], rfl, ⟨?_, ?_⟩, hX1.same rfl rfl⟩
      · rw [g7]; exact ⟨_, _, _, rfl⟩
      · rw [g7]; intro b hb; cases hb
      · rw [g7]; exact hs.ready.errs
    · cases h2

end
end Verif.Cypher
