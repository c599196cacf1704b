import Verif.Cypher.OpStep
/-!
# Operators: the loop

One round of the loop of `_expression` (parser.leg:420-450), and any number of them.
-/
namespace Verif.Cypher
open Verif.Peg Verif.Ops
open Verif.Quick (Blank)

section
variable {w : List UInt8} {n : Nat} {e t : E} {p p1 p' j j' L : Nat} {q q' : QState} {res : SkRes}
  {ts : List (Peg.Thunk Act)} {env : Env} {m m' : Mach} {op : Option Op} {ps : List Nat}

/-! ## Single characters -/

theorem SkN.chr {c : UInt8} (h : SkN w n (.chr c) p q (.ok p' ts q')) : w[p]? = some c ∧ p' = p + 1 := by
  unfold Expr.chr at h
  cases h with
  | one_ok h1 h2 =>
    rw [Verif.Peg.single_mem] at h2
    have h2 := of_decide_eq_true h2
    subst h2
    exact ⟨h1, rfl⟩

theorem SkN.sign {D : Rule} {c : UInt8} {x : Pred} (hD : (grammar D).body = .onfail (.chr c) x) {v : Option Nat}
    (h : SkN w n (.nt D v) p q (.ok p' ts q')) : w[p]? = some c ∧ p' = p + 1 := by
  obtain ⟨k, us, -, h1, -⟩ := h.nt
  rw [hD] at h1
  exact h1.onfail.chr

theorem symbol_one {o : Op} {c : UInt8} (hs : (words o).map bytes = [[upper c]]) (h : w[p]? = some c) :
    Symbol o (w.extract p (p + 1)) := by
  have : w.extract p (p + 1) = [c] := by
    rw [List.extract_eq_take_drop, Nat.add_sub_cancel_left]
    obtain ⟨hp, h⟩ := List.getElem?_eq_some_iff.1 h
    rw [List.drop_eq_getElem_cons hp, h]
    rfl
  rw [Symbol, hs, this]
  exact .last rfl

theorem SkN.chk {b : E} (h : SkN w n (.seq (.pred .precChk) b) p q (.ok p' ts q')) :
    ∃ o, q.1 = some o ∧ lastPrec q.2 ≤ o.prec ∧ SkN w n b p q (.ok p' ts q') := by
  obtain ⟨p1, us, q1, vs, h1, h2, rfl⟩ := h.seq
  obtain ⟨rfl, rfl, hq⟩ := h1.pred
  replace h := hq
  unfold qpred at h
  simp only at h
  split at h
  · cases h
  · rename_i o ho
    simp only [Option.some.injEq, Prod.mk.injEq, decide_eq_true_eq] at h
    obtain ⟨h3, rfl⟩ := h
    exact ⟨o, ho, h3, by simpa [recT] using h2⟩

/-! ## One round -/

/-- An operand that has been read up to `p` at level `L`. -/
structure Begun (w : List UInt8) (L : Nat) (t : Tree) (p : Nat) : Prop where
  good : t.Good
  lefts : ∀ y ∈ t.lefts, L ≤ y.prec
  rights : ∀ y ∈ t.rights, Halt w p y.next

theorem Begun.free {t : Tree} {o : Op} (h : Begun w L t p) (ho : ∀ M, M ≤ o.prec → ¬ Halt w p M) :
    ∀ x ∈ t.rights, ¬ Takes x o :=
  fun x hx ht => ho _ ((takes_iff _ _).1 ht) (h.rights x hx)

/-- The chain of comparisons, if it is one, is complete. -/
def ChainDone (w : List UInt8) (L : Nat) (t : Tree) (p : Nat) : Prop := t.isChain = true → Over w p L

/-- What a round makes of the operand. -/
def Goes (env : Env) (w : List UInt8) (L j j' : Nat) (ts : List (Peg.Thunk Act)) (t : Tree) : Prop :=
  ∃ t', Begun w L t' j' ∧ ChainDone w L t' j' ∧ ∀ {x B F O i m m'}, Located env x i → Lp env w x B F O t i j m →
    Mach.exec env ts m = .ok m' → Lp env w x B F O t' i j' m'

theorem suf_goes (he : EnvOk env) (hn : NodesOk env w n) {c : Ctor} {o : Op} {ch : UInt8} {t : Tree}
    (hc : sufE e = some c) (ho : Suffix o c) (hs : (words o).map bytes = [[upper ch]]) (hch : w[j]? = some ch)
    (hj : j < j') (hL : L ≤ o.prec) (h : SkN w n e j q (.ok j' ts q')) (hl : j' ≤ env.buf.length)
    (hstop : ∀ M, M ≤ o.prec → ¬ Halt w j M) (ht : Begun w L t j) : Goes env w L j j' ts t := by
  have hg : (Tree.suf o t).Good := ⟨ht.good, ht.free hstop⟩
  refine ⟨.suf o t, ⟨hg, ?_, fun y hy => by cases hy⟩, (fun h => by cases h), ?_⟩
  · intro y hy
    rcases List.mem_cons.1 hy with rfl | hy
    · exact hL
    · exact ht.lefts y hy
  · intro x B F O i m m' hx hlp hex
    exact suf_step he hn hc ho h hl (symbol_one hs hch) hj hg hx hlp hex

/-- A suffix that begins with a character of its own. -/
theorem sign_goes (he : EnvOk env) (hn : NodesOk env w n) {c : Ctor} {o : Op} {ch : UInt8} {t : Tree} {D : Rule}
    {b : E} {x : Pred} (hD : (grammar D).body = .onfail (.chr ch) x) (hlev : levelE (.nt D none) = true)
    (hc : sufE (.seq (.nt D none) (.seq (.pred (.op o)) (.seq (.pred .precChk) b))) = some c) (ho : Suffix o c)
    (hs : (words o).map bytes = [[upper ch]])
    (h : SkN w n (.seq (.nt D none) (.seq (.pred (.op o)) (.seq (.pred .precChk) b))) j (op, L :: ps) (.ok j' ts q'))
    (hl : j' ≤ env.buf.length) (hstop : ∀ M, M ≤ o.prec → ¬ Halt w j M) (ht : Begun w L t j) :
    Goes env w L j j' ts t := by
  obtain ⟨p1, us, q1, vs, h1, h2, rfl⟩ := id h.seq
  obtain ⟨hch, rfl⟩ := h1.sign hD
  have hq1 := h1.toSk.level hlev
  obtain ⟨p2, us2, q2, vs2, h3, h4, rfl⟩ := h2.seq
  obtain ⟨rfl, -, hq⟩ := h3.pred
  simp only [qpred, Option.some.injEq, Prod.mk.injEq, true_and] at hq
  obtain ⟨o', e1, e2, h5⟩ := h4.chk
  subst hq
  cases e1
  simp only [SkRes.q] at hq1
  rw [hq1] at e2
  have := h2.le
  exact suf_goes he hn hc ho hs hch (by omega) e2 h hl hstop ht

theorem label_goes (he : EnvOk env) (hn : NodesOk env w n) {t : Tree}
    (h : SkN w n altLabel j (op, L :: ps) (.ok j' ts q')) (hl : j' ≤ env.buf.length) (ht : Begun w L t j) :
    Goes env w L j j' ts t := by
  obtain ⟨p1, us, q1, vs, h1, h2, rfl⟩ := id h.seq
  obtain ⟨p2, us2, q2, vs2, h3, h4, rfl⟩ := SkN.seq (b := .star labelStep) h1
  have hstop : ∀ M, M ≤ Op.label.prec → ¬ Halt w j M := fun M hM => stop_label h3.toSk hM
  have g1 := h4.le
  have g2 := h2.le
  obtain ⟨p5, us5, q5, vs5, h5, h6, rfl⟩ := h3.seq
  obtain ⟨rfl, -, hq⟩ := h5.pred
  simp only [qpred, Option.some.injEq, Prod.mk.injEq, true_and] at hq
  obtain ⟨o', e1, e2, h7⟩ := h6.chk
  subst hq
  cases e1
  obtain ⟨p7, us7, q7, vs7, h8, h9, rfl⟩ := h7.seq
  obtain ⟨rfl, -, -⟩ := h9.act'
  obtain ⟨k, us8, -, h10, -⟩ := h8.nt
  change SkN w k r_label _ _ _ at h10
  unfold r_label at h10
  obtain ⟨p8, us8, q8, vs8, h11, h12, rfl⟩ := h10.seq
  obtain ⟨k', _, -, h11, -⟩ := h11.nt
  change SkN w k' (.pred .blockStart) _ _ _ at h11
  obtain ⟨rfl, -, -⟩ := h11.pred
  obtain ⟨p9, us9, q9, vs9, h13, h14, rfl⟩ := h12.seq
  obtain ⟨rfl, -, -⟩ := h13.act'
  obtain ⟨p10, us10, q10, vs10, h15, h16, rfl⟩ := h14.seq
  obtain ⟨p11, us11, q11, vs11, h17, h18, rfl⟩ := h15.onfail.seq
  obtain ⟨hch, rfl⟩ := h17.chr
  have g3 := h16.le
  have g4 := h18.le
  exact suf_goes (c := .labelsOperator) (o := .label) (ch := 58) he hn (by decide +kernel) rfl rfl hch (by omega) e2 h hl hstop ht

theorem right_level {r : Rule} {us : List (Peg.Thunk Act)} {q1 : QState} {o : Op}
    (h1 : SkN w n (.nt r none) j (op, L :: ps) (.ok p1 us q1)) (hlev : levelE (.nt r none) = true)
    (h2 : lastPrec q1.2 ≤ o.prec) : L ≤ o.prec := by
  have hq1 := h1.toSk.level hlev
  simp only [SkRes.q] at hq1
  rw [hq1] at h2
  exact h2

theorem infix_goes (he : EnvOk env) (hk : ExprsOk env w n) {t : Tree}
    (h : SkN w n altInfix j (op, L :: ps) (.ok j' ts q')) (hl : j' ≤ env.buf.length) (ht : Begun w L t j) :
    Goes env w L j j' ts t := by
  obtain ⟨o, p0, us0, q0, vs0, g1, g2, -, hstop⟩ := stop_infix h.toSk
  obtain ⟨p1, us, q1, vs, h1, h2, rfl⟩ := h.seq
  cases h1.toSk.det g1
  obtain ⟨o', e1, e2, h3⟩ := h2.chk
  rw [g2] at e1; cases e1
  obtain ⟨p2, us2, q2, vs2, h4, h5, rfl⟩ := h3.seq
  obtain ⟨p3, us3, q3, vs3, h6, h7, rfl⟩ := h5.seq
  have hle := h7.le
  obtain ⟨t', hr⟩ := right_ok he hk rfl h1 g2 h4 h6 (by omega)
  have hp : j' = p3 := (close_inv h7).1
  subst hp
  have hg : (Tree.bin o t t').Good := ⟨ht.good, hr.good, ht.free hstop, hr.lefts⟩
  refine ⟨.bin o t t', ⟨hg, ?_, hr.rights⟩, (fun h => by cases h), ?_⟩
  · intro y hy
    rcases List.mem_cons.1 hy with rfl | hy
    · exact right_level h1 (by decide +kernel) e2
    · exact ht.lefts y hy
  · intro x B F O i m m' hx hlp hex
    exact infix_step hr h7 hg hx hlp (by simpa using hex)

theorem post_goes (he : EnvOk env) (hn : NodesOk env w n) {t : Tree}
    (h : SkN w n altPost j (op, L :: ps) (.ok j' ts q')) (hl : j' ≤ env.buf.length) (ht : Begun w L t j) :
    Goes env w L j j' ts t := by
  obtain ⟨o, p0, us0, q0, vs0, g1, g2, -, hstop⟩ := stop_post h.toSk
  obtain ⟨p1, us, q1, vs, h1, h2, rfl⟩ := h.seq
  cases h1.toSk.det g1
  obtain ⟨o', e1, e2, h3⟩ := h2.chk
  rw [g2] at e1; cases e1
  have hg : (Tree.post o t).Good := ⟨ht.good, ht.free hstop⟩
  refine ⟨.post o t, ⟨hg, ?_, fun y hy => by cases hy⟩, (fun h => by cases h), ?_⟩
  · intro y hy
    rcases List.mem_cons.1 hy with rfl | hy
    · exact right_level h1 (by decide +kernel) e2
    · exact ht.lefts y hy
  · intro x B F O i m m' hx hlp hex
    exact post_step he hn h1 g2 h3 hl hg hx hlp hex

/-! ## Chains -/

/-- One comparison. -/
theorem cmp_one (he : EnvOk env) (hk : ExprsOk env w n) {t : Tree}
    (h : SkN w n cmpStep j (op, L :: ps) (.ok j' ts q')) (hl : j' ≤ env.buf.length) (ht : Begun w L t j) :
    ∃ o t' us k, ts = [.act (.seqAdd [2]) k] ++ us ∧ RightOk env w 2 j j' o t' us ∧ L ≤ o.prec ∧
      (∀ x ∈ t.rights, ¬ Takes x o) ∧ ¬ Over w j L := by
  obtain ⟨o, p0, us0, q0, vs0, g1, g2, -, hstop, hover⟩ := stop_cmp h.toSk
  obtain ⟨p1, us, q1, vs, h1, h2, rfl⟩ := h.seq
  cases h1.toSk.det g1
  obtain ⟨o', e1, e2, h3⟩ := h2.chk
  rw [g2] at e1; cases e1
  obtain ⟨p2, us2, q2, vs2, h4, h5, rfl⟩ := h3.seq
  obtain ⟨p3, us3, q3, vs3, h6, h7, rfl⟩ := h5.seq
  obtain ⟨hp, rfl, -⟩ := h7.act'
  subst hp
  obtain ⟨t', hr⟩ := right_ok he hk rfl h1 g2 h4 h6 hl
  have hL := right_level h1 (by decide +kernel) e2
  exact ⟨o, t', _, j', by simp only [List.append_assoc], hr, hL, ht.free hstop, hover L hL⟩

theorem cmp_goes (he : EnvOk env) (hk : ExprsOk env w n) {t : Tree}
    (h : SkN w n altCmp j (op, L :: ps) (.ok j' ts q')) (hl : j' ≤ env.buf.length) (ht : Begun w L t j)
    (hw : ChainDone w L t j) :
    Goes env w L j j' ts t := by
  obtain ⟨p1, us, q1, vs, h1, h2, rfl⟩ := h.seq
  obtain ⟨rfl, rfl, rfl⟩ := h1.act'
  obtain ⟨p2, us2, q2, vs2, h3, h4, rfl⟩ := h2.seq
  obtain ⟨p3, us3, q3, vs3, h5, h6, rfl⟩ := SkN.seq (b := .star cmpStep) h3
  have hle4 := h4.le
  have hle6 := h6.le
  obtain ⟨o, t', us', k, rfl, hr, hL, hfree, hover⟩ := cmp_one he hk h5 (by omega) ht
  have hnc : t.isChain = false := by
    cases hc : t.isChain
    · rfl
    · exact absurd (hw hc) hover
  have ht1 : Begun w L (.cmp o t t') p3 := by
    refine ⟨⟨hnc, ht.good, hr.good, hfree, hr.lefts⟩, ?_, hr.rights⟩
    intro y hy
    rcases List.mem_cons.1 hy with rfl | hy
    · exact hL
    · exact ht.lefts y hy
  have hstar : ∀ ps', q3.2 = L :: ps' → p2 ≤ env.buf.length → ∀ t, Begun w L t p3 → t.isChain = true →
      ∃ t', Begun w L t' p2 ∧ ChainDone w L t' p2 ∧
      ∀ {x B F O i m m'}, Cp env w x B F O t i p3 m → Mach.exec env vs3 m = .ok m' →
        Cp env w x B F O t' i p2 m' := by
    refine SkN.star (P := fun j q j' ts _ => j ≤ j' ∧ ∀ ps', q.2 = L :: ps' → j' ≤ env.buf.length → ∀ t, Begun w L t j →
      t.isChain = true → ∃ t', Begun w L t' j' ∧ ChainDone w L t' j' ∧ ∀ {x B F O i m m'}, Cp env w x B F O t i j m → Mach.exec env ts m = .ok m' →
        Cp env w x B F O t' i j' m') ?_ ?_ h6 |>.2
    · intro j q j1 us q1 j' vs q' hs ⟨hj, ih⟩
      have hle := hs.le
      refine ⟨by omega, ?_⟩
      intro ps' hq hl t ht htc
      obtain ⟨qo, qs⟩ := q
      simp only at hq
      subst hq
      have hq1 := hs.toSk.level (by decide +kernel)
      obtain ⟨o, t', us', k, rfl, hr, hL, hfree, -⟩ := cmp_one he hk hs (by omega) ht
      have ht1 : Begun w L (.more o t t') j1 := by
        refine ⟨⟨htc, ht.good, hr.good, hfree, hr.lefts⟩, ?_, hr.rights⟩
        intro y hy
        rcases List.mem_cons.1 hy with rfl | hy
        · exact hL
        · exact ht.lefts y hy
      obtain ⟨t2, k1, kw, k2⟩ := ih ps' hq1 hl _ ht1 rfl
      refine ⟨t2, k1, kw, ?_⟩
      intro x B F O i m m' hc hx
      obtain ⟨m1, hx1, hx2⟩ := exec_app hx
      exact k2 (cmp_more hr hc hx1) hx2
    · intro j q q1 hs
      refine ⟨Nat.le_refl _, fun ps' hq _ t ht _ => ?_⟩
      obtain ⟨qo, qs⟩ := q
      simp only at hq
      subst hq
      exact ⟨t, ht, fun _ => ⟨_, _, _, hs.toSk⟩, fun hc hx => by cases hx; exact hc⟩
  have hq3 := h5.toSk.level (by decide +kernel)
  obtain ⟨t2, k1, kw, k2⟩ := hstar ps hq3 (by omega) _ ht1 rfl
  have hp : j' = p2 := (close_inv h4).1
  subst hp
  refine ⟨t2, k1, kw, ?_⟩
  intro x B F O i m m' hx hlp hex
  obtain ⟨m1, hx1, hx2⟩ := exec_app hex
  obtain ⟨m2, hx2, hx3⟩ := exec_app hx2
  obtain ⟨m3, hx4, hx5⟩ := exec_app hx2
  refine cmp_end h4 k1.good hx (k2 (cmp_first (p := k) (p1 := p1) hr hlp ?_) hx5) hx3
  rw [← List.append_assoc, exec_append, hx1]
  exact hx4

/-! ## Rounds -/

theorem loop_goes (he : EnvOk env) (hk : ExprsOk env w n) {t : Tree}
    (h : SkN w n loop j (op, L :: ps) (.ok j' ts q')) (hl : j' ≤ env.buf.length) (ht : Begun w L t j)
    (hw : ChainDone w L t j) :
    Goes env w L j j' ts t := by
  have next : ∀ {a b : E} {op : Option Op}, levelE a = true →
      SkN w n (.alt a b) j (op, L :: ps) (.ok j' ts q') →
      SkN w n a j (op, L :: ps) (.ok j' ts q') ∨ ∃ op', SkN w n b j (op', L :: ps) (.ok j' ts q') := by
    intro a b op ha h
    rcases h.alt with h | ⟨⟨q1, q2⟩, h1, h2⟩
    · exact .inl h
    · have := h1.toSk.level ha
      simp only [SkRes.q] at this
      subst this
      exact .inr ⟨q1, h2⟩
  have hn : NodesOk env w n := hk.nodes
  rcases next (by decide +kernel) h with h | ⟨op, h⟩
  · exact sign_goes (o := .property) he hn rfl (by decide +kernel) (by decide +kernel) rfl rfl h hl
      (fun M hM => stop_dot h.toSk hM) ht
  rcases next (by decide +kernel) h with h | ⟨op, h⟩
  · exact infix_goes he hk h hl ht
  rcases next (by decide +kernel) h with h | ⟨op, h⟩
  · exact cmp_goes he hk h hl ht hw
  rcases next (by decide +kernel) h with h | ⟨op, h⟩
  · exact post_goes he hn h hl ht
  rcases next (by decide +kernel) h with h | ⟨op, h⟩
  · exact sign_goes (o := .subscript) he hn rfl (by decide +kernel) (by decide +kernel) (.inl rfl) rfl h hl
      (fun M hM => stop_sub h.toSk hM) ht
  rcases next (by decide +kernel) h with h | ⟨op, h⟩
  · exact sign_goes (o := .subscript) he hn rfl (by decide +kernel) (by decide +kernel) (.inr rfl) rfl h hl
      (fun M hM => stop_slice h.toSk hM) ht
  rcases next (by decide +kernel) h with h | ⟨op, h⟩
  · exact sign_goes (o := .mapProjection) he hn rfl (by decide +kernel) (by decide +kernel) rfl rfl h hl
      (fun M hM => stop_map h.toSk hM) ht
  · exact label_goes he hn h hl ht

end
end Verif.Cypher
