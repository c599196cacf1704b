import Verif.Cypher.OpAtom
/-!
# Operators: the steps of the loop

What each alternative of the loop of `_expression` (parser.leg:420-450) makes of the operand before it.
-/
namespace Verif.Cypher
open Verif.Peg Verif.Ops
open Verif.Quick (Blank)

section
variable {w : List UInt8} {n : Nat} {e t : E} {p p1 p' : Nat} {q q' : QState} {res : SkRes}
  {ts : List (Peg.Thunk Act)} {env : Env} {m m' : Mach} {b : Block} {bs : List Block}
  {x : Pos} {B : List Block} {FF F : List (List (Option (Option Ref)))}
  {fr : List (Option (Option Ref))} {O : List Op} {kids : List Node} {sq : List Ref} {i k : Nat} {r : Rule}

/-! ## Blanks -/

/-- After blanks there are none. -/
theorem ws_twice {us : List (Peg.Thunk Act)} {q1 q2 : QState}
    (h : SkN w n (.nt .r_ws none) p q (.ok p1 ts q1)) (h' : SkN w n (.nt .r_ws none) p1 q' (.ok p' us q2)) :
    p' = p1 := by
  obtain ⟨k, us1, hk, h1, -⟩ := h.nt
  obtain ⟨k', us2, hk', h2, -⟩ := h'.nt
  have hstuck : ∃ q1 q2, Sk w (.alt (.nt .r_WS none) (.nt .r_comment none)) p1 q1 (.no q2) := by
    refine SkN.star (P := fun _ _ p1 _ _ => ∃ q1 q2, Sk w (.alt (.nt .r_WS none) (.nt .r_comment none)) p1 q1 (.no q2))
      ?_ ?_ h1
    · intro _ _ _ _ _ _ _ _ _ ih; exact ih
    · intro _ _ _ h; exact ⟨_, _, h.toSk⟩
  obtain ⟨q3, q4, hs⟩ := hstuck
  change SkN w k' (.star (.alt (.nt .r_WS none) (.nt .r_comment none))) _ _ _ at h2
  cases h2 with
  | star_end _ => rfl
  | star_more h3 _ => exact (no_fail h3.toSk (v := false) (by decide +kernel) (.none _ _) hs).elim

/-! ## Tokens -/

def tokCalls (r : Rule) : Bool := match (grammar r).body with
  | .seq b (.nt .r_ws none) => (ops b).all fun x => callOk x.1 0 && x.1 != .r__expression
  | _ => false

theorem tok_calls : ∀ r, isTok r = true → tokCalls r = true := by
  have : ∀ r ∈ Rule.all, isTok r = true → tokCalls r = true := by decide +kernel
  exact fun r => this r (Rule.mem_all r)

/-- A rule for an operator. -/
theorem tok_step (he : EnvOk env) (hn : NodesOk env w n) (hr : isTok r = true)
    (h : SkN w n (.nt r none) p q (.ok p' ts q')) (hl : p' ≤ env.buf.length) :
    ∃ a o q2 us, p ≤ a ∧ a ≤ p' ∧ Symbol o (w.extract p a) ∧ Blank (w.extract a p') ∧ q'.1 = some o ∧
      SkN w n (.nt .r_ws none) a q2 (.ok p' us q2) ∧
      ∀ {x B FF O kids sq m m'}, BlockAt env w x B FF O kids sq m → Mach.exec env ts m = .ok m' →
        ∃ d, BlockAt env w x B FF (o :: O) (kids ++ d) sq m' := by
  obtain ⟨a, b, o, k, q1, vs, q2, us, h1, h2, h3, h4, h5, h6, h7, h8, h9, rfl⟩ := tok_inv hr h
  refine ⟨a, o, q2, us, h3, h4, h5, h6, h7, h9, ?_⟩
  intro x B FF O kids sq m m' hs hx
  have hc := tok_calls r hr
  unfold tokCalls at hc
  rw [h1] at hc
  simp only at hc
  have hc := List.all_eq_true.1 hc _ h2
  simp only [Bool.and_eq_true, bne_iff_ne, ne_eq] at hc
  obtain ⟨m2, hx, hx3⟩ := exec_app hx
  obtain ⟨m1, hx1, hx2⟩ := exec_app hx
  obtain ⟨d, s1⟩ := hs.call0 he hn hc.1 hc.2 h8 (by omega) hx1
  have s2 := s1.push hx2
  obtain ⟨d', s3⟩ := s2.call0 he hn (by decide +kernel) (by decide) h9 hl hx3
  exact ⟨d ++ d', by simpa using s3⟩

/-! ## Operands -/

theorem BlockAt.yield {t : Tree} (hy : Yields env w t p p' ts) (hs : BlockAt env w x B FF O kids sq m)
    (hx : Mach.exec env ts m = .ok m') :
    ∃ d N, BlockAt env w x B FF O (kids ++ d) sq m' ∧ N ∈ d ∧ m'.self = some (Node.ref N) ∧
      Is w env.off.offset N t p p' := by
  obtain ⟨s, t, y, hb⟩ := hs.blocks
  obtain ⟨d, N, h1, h2, h3, h4, h5, h6, h7, h8⟩ := hy _ _ _ _ hb hs.ready hs.fine hx
  exact ⟨d, N, ⟨⟨s, t, y, h1⟩, h2.trans hs.frames, h3.trans hs.ops, h4, h5⟩, h6, h7, h8⟩

/-- An expression that was read at level `L`. -/
def ExprOk (env : Env) (w : List UInt8) (L p p' : Nat) (ts : List (Peg.Thunk Act)) : Prop :=
  ∃ t : Tree, t.Good ∧ (∀ y ∈ t.lefts, L ≤ y.prec) ∧ (∀ y ∈ t.rights, Halt w p' y.next) ∧ Halt w p' L ∧
    Yields env w t p p' ts

/-- Expressions that begin with an operand or a prefix operator. -/
def OperandOk (env : Env) (w : List UInt8) (p p' : Nat) (ts : List (Peg.Thunk Act)) : Prop :=
  ∃ t : Tree, t.Good ∧ t.lefts = [] ∧ (∀ y ∈ t.rights, Halt w p' y.next) ∧ Yields env w t p p' ts

/-- Operands in parentheses or without operators. -/
def ClosedOk (env : Env) (w : List UInt8) (p p' : Nat) (ts : List (Peg.Thunk Act)) : Prop :=
  ∃ t : Tree, t.Good ∧ t.lefts = [] ∧ t.rights = [] ∧ Yields env w t p p' ts

/-- What is known of the rules of expressions up to some height. -/
structure ExprsOk (env : Env) (w : List UInt8) (n : Nat) : Prop where
  nodes : NodesOk env w n
  expr : ∀ {L ps op p p' ts q'}, SkN w n (.nt .r__expression none) p (op, L :: ps) (.ok p' ts q') →
    p' ≤ env.buf.length → ExprOk env w L p p' ts
  prec : ∀ {o ps p p' ts q'}, SkN w n (.nt .r__prec_expression none) p (some o, ps) (.ok p' ts q') →
    p' ≤ env.buf.length → ExprOk env w o.next p p' ts
  top : ∀ {p q p' ts q'}, SkN w n (.nt .r_expression none) p q (.ok p' ts q') →
    p' ≤ env.buf.length → ExprOk env w 0 p p' ts
  operand : ∀ {p q p' ts q'}, SkN w n (.nt .r__atom none) p q (.ok p' ts q') →
    p' ≤ env.buf.length → OperandOk env w p p' ts
  closed : ∀ {p q p' ts q'}, SkN w n (.nt .r_atom none) p q (.ok p' ts q') →
    p' ≤ env.buf.length → ClosedOk env w p p' ts

/-- An operator and the operand on its right, which is put in variable `i`. -/
structure RightOk (env : Env) (w : List UInt8) (i : Nat) (p p' : Nat) (o : Op) (t : Tree)
    (ts : List (Peg.Thunk Act)) : Prop where
  good : t.Good
  lefts : ∀ y ∈ t.lefts, Takes o y
  rights : ∀ y ∈ (o :: t.rights), Halt w p' y.next
  run : ∃ a d, p ≤ a ∧ a ≤ d ∧ Symbol o (w.extract p a) ∧ Blank (w.extract a d) ∧
    ∀ {x B fr F O kids sq m m'}, BlockAt env w x B (fr :: F) O kids sq m → Mach.exec env ts m = .ok m' →
      ∃ d' c, BlockAt env w x B (fr.set i (some (some (Node.ref c))) :: F) (o :: O) (kids ++ d') sq m' ∧ i < fr.length ∧
        c ∈ d' ∧ Is w env.off.offset c t d p'

theorem right_ok (he : EnvOk env) (hk : ExprsOk env w n) {o : Op} {us vs us' : List (Peg.Thunk Act)} {q1 q2 q3 : QState}
    {p2 : Nat}
    (hr : isTok r = true) (h1 : SkN w n (.nt r none) p q (.ok p1 us q1)) (ho : q1.1 = some o)
    (h2 : SkN w n (.nt .r_ws none) p1 q1 (.ok p2 vs q2))
    (h3 : SkN w n (.nt .r__prec_expression (some i)) p2 q2 (.ok p' us' q3)) (hl : p' ≤ env.buf.length) :
    ∃ t, RightOk env w i p p' o t (us' ++ (vs ++ us)) := by
  have hle3 := h3.le
  have hle2 := h2.le
  obtain ⟨a, o', q4, us4, g1, g2, g3, g4, g5, g6, g7⟩ := tok_step he hk.nodes hr h1 (by omega)
  rw [ho] at g5; cases g5
  cases ws_twice g6 h2
  have hq : q2 = q1 := h2.toSk.still rfl
  subst hq
  obtain ⟨us5, rfl, h3'⟩ := h3.nt_set
  obtain ⟨qo, qs⟩ := q2
  simp only at ho
  subst ho
  obtain ⟨t, k1, k2, k3, k4, k5⟩ := hk.prec h3' hl
  refine ⟨t, k1, fun y hy => (takes_iff _ _).2 (k2 y hy), ?_, a, p1, g1, g2, g3, g4, ?_⟩
  · intro y hy
    rcases List.mem_cons.1 hy with rfl | hy
    · exact k4
    · exact k3 y hy
  · intro x B fr F O kids sq m m' hs hx
    obtain ⟨m2, hx, hx3⟩ := exec_app hx
    obtain ⟨m1, hx1, hx2⟩ := exec_app hx
    obtain ⟨m3, hx3, hx4⟩ := exec_app hx3
    obtain ⟨d1, s1⟩ := g7 hs hx1
    obtain ⟨d2, s2⟩ := s1.call0 he hk.nodes (by decide +kernel) (by decide) h2 (by omega) hx2
    obtain ⟨d3, c, s3, e1, e2, e3⟩ := s2.yield k5 hx3
    obtain ⟨s4, hi⟩ := s3.set hx4
    rw [e2] at s4
    exact ⟨d1 ++ d2 ++ d3, c, by simpa using s4, hi, by simp [e1], e3⟩

/-! ## The loop -/

/-- The machine in the loop: variable 0 holds the operand `t`, and the block holds its node. -/
def Lp (env : Env) (w : List UInt8) (x : Pos) (B : List Block) (F : List (List (Option (Option Ref))))
    (O : List Op) (t : Tree) (i j : Nat) (m : Mach) : Prop :=
  ∃ fr kids c, BlockAt env w x B (fr :: F) O kids [] m ∧ fr[0]? = some (some (some (Node.ref c))) ∧ c ∈ kids ∧
    Is w env.off.offset c t i j

theorem set_zero {fr : List (Option (Option Ref))} {u v : Option (Option Ref)} (h : fr[0]? = some u) :
    (fr.set 0 v)[0]? = some v := by
  cases fr with
  | nil => cases h
  | cons a l => rfl

theorem BlockAt.lp {t : Tree} {j : Nat} {N : Node} {u : Option (Option Ref)} (hf : fr[0]? = some u)
    (hs : BlockAt env w x B (fr.set 0 (some (some (Node.ref N))) :: F) O [N] [] m)
    (hi : Is w env.off.offset N t i j) : Lp env w x B F O t i j m :=
  ⟨_, _, N, hs, set_zero hf, by simp, hi⟩

theorem args_one {r0 : Option Ref} {vs : List (Option Ref)} (hf : m.frames = fr :: F) (h0 : fr[0]? = some (some r0))
    {as : List (Option Nat)} (h : m.getArgs (some 0 :: as) = .ok vs) : ∃ vs', vs = r0 :: vs' ∧ m.getArgs as = .ok vs' := by
  unfold Mach.getArgs at h
  obtain ⟨v, h1, h⟩ := bind_ok h
  obtain ⟨vs', h2, h⟩ := bind_ok h
  cases h
  unfold Mach.getVar at h1
  rw [hf] at h1
  simp only [h0] at h1
  cases h1
  exact ⟨vs', rfl, h2⟩

theorem args_two {r0 : Option Ref} {vs : List (Option Ref)} (hf : m.frames = fr :: F) (h0 : fr[i]? = some (some r0))
    (h : m.getArgs [some i] = .ok vs) : vs = [r0] := by
  unfold Mach.getArgs at h
  obtain ⟨v, h1, h⟩ := bind_ok h
  obtain ⟨vs', h2, h⟩ := bind_ok h
  cases h
  unfold Mach.getVar at h1
  rw [hf] at h1
  simp only [h0] at h1
  cases h1
  cases h2
  rfl

theorem covers_of {N : Node} {y : Pos} {j : Nat} (h : N.range = ⟨x, y⟩) (hx : Located env x i)
    (hy : Located env y j) : Covers env.off.offset N i j := by
  rw [Covers, h]
  exact ⟨by rw [hx.offset]; exact Nat.add_comm _ _, by rw [hy.offset]; exact Nat.add_comm _ _⟩

/-! ### What follows an operand directly -/

/-- The end of such an alternative. -/
def sufE : E → Option Ctor
  | .seq a b => match a, b with
    | .nt .r__block_replace_ none, .act (.build (.var 0) c (some 0 :: _)) =>
      if c.terminal = none then some c else none
    | a, b => if midE a then sufE b else none
  | _ => none

theorem suf_run (he : EnvOk env) (hn : NodesOk env w n) {c0 : Node} : ∀ (e : E) {p q ts q' m c},
    sufE e = some c → SkN w n e p q (.ok p' ts q') → p' ≤ env.buf.length →
      Mid env w x B fr F O kids m → fr[0]? = some (some (some c0.ref)) → Mach.exec env ts m = .ok m' →
      ∃ (N : Node) (y : Pos) (d : List Node) (fr' : List (Option (Option Ref))) (O' : List Op) (blk : Block), N.ctor = c ∧ N.range = ⟨x, y⟩ ∧ Located env y p' ∧ N.children = kids ++ d ∧
        N.args.head? = some (some c0.ref) ∧ Mach.takeOps c blk O = .ok (N.ops, O') ∧
        fr'[0]? = some (some (some c0.ref)) ∧
        (OperatorOk w env.off.offset N →
          BlockAt env w x B (fr'.set 0 (some (some N.ref)) :: F) O' [N] [] m') := by
  intro e
  induction e with
  | seq a b _ ihb =>
    intro p q ts q' m c hc h hl hm hf hx
    unfold sufE at hc
    split at hc
    · rename_i c' as
      split at hc
      · rename_i ht
        cases hc
        obtain ⟨rfl, rfl, rfl⟩ := close_inv h
        obtain ⟨d, sq, fr', hs, e1, e2⟩ := hm.ex
        obtain ⟨N, y, vs, O', blk, k1, k2, k3, k4, k5, k6, -, k7, -, k8⟩ := hs.close ht hx
        obtain ⟨vs', rfl, -⟩ := args_one hs.frames (e1.trans hf) k5
        exact ⟨N, y, d, fr', O', blk, k1, k2, k3, k4, by rw [k6]; rfl, k7, e1.trans hf, k8⟩
      · cases hc
    · split at hc
      · rename_i hmid
        obtain ⟨p1, us, q1, vs, h1, h2, rfl⟩ := h.seq
        obtain ⟨m1, hx1, hx2⟩ := exec_app hx
        have := h2.le
        exact ihb hc h2 hl (mid_ok he hn a hmid h1 (by omega) hm hx1) hf hx2
      · cases hc
  | _ => intro p q ts q' m c hc; cases hc

/-- `.name`, `[..]`, `{..}` or `:label` after an operand. -/
theorem suf_step (he : EnvOk env) (hn : NodesOk env w n) {c : Ctor} {o : Op} {j j' : Nat} {t : Tree}
    (hc : sufE e = some c) (ho : Suffix o c) (h : SkN w n e j q (.ok j' ts q')) (hl : j' ≤ env.buf.length)
    (hsym : Symbol o (w.extract j (j + 1))) (hj : j < j') (hg : (Tree.suf o t).Good) (hx : Located env x i)
    (hlp : Lp env w x B F O t i j m) (hex : Mach.exec env ts m = .ok m') :
    Lp env w x B F O (.suf o t) i j' m' := by
  obtain ⟨fr, kids, c0, hs, h0, hc0, his⟩ := hlp
  obtain ⟨N, y, d, fr', O', blk, k1, k2, k3, k4, k5, k6, k7, k8⟩ :=
    suf_run he hn e hc h hl (.refl hs) h0 hex
  have hO : O' = O := by
    have : ∀ c, Suffix o c → ∀ blk, Mach.takeOps c blk O = .ok ([], O) := by
      intro c hc blk
      unfold Suffix at hc
      split at hc
      · rw [hc]; rfl
      · rcases hc with rfl | rfl <;> rfl
      · rw [hc]; rfl
      · rw [hc]; rfl
      · cases hc
    have k6 := (Except.ok.inj (k6.symm.trans (this c ho blk)))
    exact (Prod.mk.inj k6).2
  subst hO
  have hN : Is w env.off.offset N (.suf o t) i j' :=
    .suf his (by rw [k4]; simp [hc0]) hsym hj (by rw [k1]; exact ho) k5 (covers_of k2 hx k3)
  exact (k8 fun _ => ⟨_, _, _, hN, hg⟩).lp k7 hN

/-! ### Operators after an operand -/

theorem post_step (he : EnvOk env) (hn : NodesOk env w n) {o : Op} {j j' : Nat} {t : Tree}
    {us vs : List (Peg.Thunk Act)} {q1 : QState}
    (h1 : SkN w n (.nt .r_POSTFIX_OP none) j q (.ok p1 us q1)) (ho : q1.1 = some o)
    (h2 : SkN w n postTail p1 q1 (.ok j' vs q')) (hl : j' ≤ env.buf.length) (hg : (Tree.post o t).Good)
    (hx : Located env x i) (hlp : Lp env w x B F O t i j m) (hex : Mach.exec env (vs ++ us) m = .ok m') :
    Lp env w x B F O (.post o t) i j' m' := by
  obtain ⟨fr, kids, c0, hs, h0, hc0, his⟩ := hlp
  have hle := h2.le
  obtain ⟨a, o', q4, us4, g1, g2, g3, g4, g5, g6, g7⟩ := tok_step he hn rfl h1 (by omega)
  rw [ho] at g5; cases g5
  obtain ⟨m1, hx1, hx2⟩ := exec_app hex
  obtain ⟨d, s1⟩ := g7 hs hx1
  obtain ⟨rfl, rfl, rfl⟩ := close_inv h2
  obtain ⟨N, y, vs, O', blk, k1, k2, k3, k4, k5, k6, -, k7, -, k8⟩ := s1.close rfl hx2
  cases args_two s1.frames h0 k5
  simp only [Mach.takeOps, Except.ok.injEq, Prod.mk.injEq] at k7
  obtain ⟨k7, rfl⟩ := k7
  have hN : Is w env.off.offset N (.post o t) i j' :=
    .post his (by rw [k4]; simp [hc0]) g3 g4 g1 g2 k1 k7.symm k6 (covers_of k2 hx k3)
  exact (k8 fun _ => ⟨_, _, _, hN, hg⟩).lp h0 hN

theorem infix_step {o : Op} {j p2 j' : Nat} {t t' : Tree} {us vs : List (Peg.Thunk Act)}
    (hr : RightOk env w 2 j j' o t' us)
    (h2 : SkN w n (.seq (.nt .r__block_replace_ none) (.act (.build (.var 0) .binaryOperator [some 0, some 2])))
      j' q (.ok p2 vs q')) (hg : (Tree.bin o t t').Good)
    (hx : Located env x i) (hlp : Lp env w x B F O t i j m) (hex : Mach.exec env (vs ++ us) m = .ok m') :
    Lp env w x B F O (.bin o t t') i p2 m' := by
  obtain ⟨fr, kids, c0, hs, h0, hc0, his⟩ := hlp
  obtain ⟨a, d, g1, g2, g3, g4, g5⟩ := hr.run
  obtain ⟨m1, hx1, hx2⟩ := exec_app hex
  obtain ⟨d', c, s1, hi, e1, e2⟩ := g5 hs hx1
  obtain ⟨rfl, rfl, rfl⟩ := close_inv h2
  obtain ⟨N, y, vs, O', blk, k1, k2, k3, k4, k5, k6, -, k7, -, k8⟩ := s1.close rfl hx2
  have h0' : (fr.set 2 (some (some c.ref)))[0]? = some (some (some c0.ref)) := by
    rw [List.getElem?_set_ne (by decide)]; exact h0
  obtain ⟨vs', rfl, k5'⟩ := args_one s1.frames h0' k5
  cases args_two s1.frames (List.getElem?_set_self hi) k5'
  simp only [Mach.takeOps, Except.ok.injEq, Prod.mk.injEq] at k7
  obtain ⟨k7, rfl⟩ := k7
  have hN : Is w env.off.offset N (.bin o t t') i p2 :=
    .bin his (by rw [k4]; simp [hc0]) g3 g4 g1 g2 e2 (by rw [k4]; simp [e1]) k1 k7.symm k6 (covers_of k2 hx k3)
  exact (k8 fun _ => ⟨_, _, _, hN, hg⟩).lp h0' hN

/-! ### Chains of comparisons -/

/-- The machine in a chain. -/
def Cp (env : Env) (w : List UInt8) (x : Pos) (B : List Block) (F : List (List (Option (Option Ref))))
    (O : List Op) (t : Tree) (i j : Nat) (m : Mach) : Prop :=
  ∃ fr kids cs os u, BlockAt env w x B (fr :: F) (os.reverse ++ O) kids (cs.map Node.ref) m ∧ fr[0]? = some u ∧
    (∀ c ∈ cs, c ∈ kids) ∧ cs.length = os.length + 1 ∧ os ≠ [] ∧ Chain w env.off.offset cs os t i j

theorem cmp_first {o : Op} {j j' : Nat} {t t' : Tree} {us : List (Peg.Thunk Act)}
    (hr : RightOk env w 2 j j' o t' us) (hlp : Lp env w x B F O t i j m)
    (hex : Mach.exec env ([.act (.seqAdd [2]) p] ++ (us ++ [.act (.seqAdd [0]) p1])) m = .ok m') :
    Cp env w x B F O (.cmp o t t') i j' m' := by
  obtain ⟨fr, kids, c0, hs, h0, hc0, his⟩ := hlp
  obtain ⟨a, d, g1, g2, g3, g4, g5⟩ := hr.run
  obtain ⟨m2, hex, hx3⟩ := exec_app hex
  obtain ⟨m1, hx1, hx2⟩ := exec_app hex
  have s0 := hs.seqAdd h0 hx1
  obtain ⟨d', c, s1, hi, e1, e2⟩ := g5 s0 hx2
  have s2 := s1.seqAdd (List.getElem?_set_self hi) hx3
  refine ⟨_, _, [c0, c], [o], some (some c0.ref), s2, ?_, ?_, rfl, by simp, .cmp his g3 g4 g1 g2 e2⟩
  · rw [List.getElem?_set_ne (by decide)]; exact h0
  · intro k hk
    rcases List.mem_cons.1 hk with rfl | hk
    · simp [hc0]
    · rw [List.mem_singleton] at hk
      subst hk
      simp [e1]

theorem cmp_more {o : Op} {j j' : Nat} {t t' : Tree} {us : List (Peg.Thunk Act)}
    (hr : RightOk env w 2 j j' o t' us) (hlp : Cp env w x B F O t i j m)
    (hex : Mach.exec env ([.act (.seqAdd [2]) p] ++ us) m = .ok m') :
    Cp env w x B F O (.more o t t') i j' m' := by
  obtain ⟨fr, kids, cs, os, u, hs, h0, hc0, hlen, hne, hch⟩ := hlp
  obtain ⟨a, d, g1, g2, g3, g4, g5⟩ := hr.run
  obtain ⟨m1, hx1, hx2⟩ := exec_app hex
  obtain ⟨d', c, s1, hi, e1, e2⟩ := g5 hs hx1
  have s2 := s1.seqAdd (List.getElem?_set_self hi) hx2
  refine ⟨_, _, cs ++ [c], os ++ [o], u, by simpa using s2, ?_, ?_, by simp [hlen], by simp,
    .more hch g3 g4 g1 g2 e2⟩
  · rw [List.getElem?_set_ne (by decide)]; exact h0
  · intro k hk
    rcases List.mem_append.1 hk with hk | hk
    · simp [hc0 k hk]
    · rw [List.mem_singleton] at hk
      subst hk
      simp [e1]

theorem cmp_end {j j' : Nat} {t : Tree} (h : SkN w n cmpEnd j q (.ok j' ts q')) (hg : t.Good)
    (hx : Located env x i) (hlp : Cp env w x B F O t i j m) (hex : Mach.exec env ts m = .ok m') :
    Lp env w x B F O t i j' m' := by
  obtain ⟨fr, kids, cs, os, u, hs, h0, hc0, hlen, hne, hch⟩ := hlp
  obtain ⟨rfl, rfl, rfl⟩ := close_inv h
  obtain ⟨N, y, vs, O', blk, k1, k2, k3, k4, k5, k6, ks, k7, kq, k8⟩ := hs.close rfl hex
  have hl : blk.seq.length - 1 = os.reverse.length := by rw [ks]; simp [hlen]
  simp only [Mach.takeOps] at k7
  split at k7
  · simp only [hl, List.take_left, List.drop_left, Except.ok.injEq, Prod.mk.injEq, List.reverse_reverse] at k7
    obtain ⟨k7, rfl⟩ := k7
    have hq : N.seq = cs.map Node.ref := by rw [kq]; rfl
    have hN : Is w env.off.offset N t i j' :=
      .chain (cs := cs) (by rw [← k7]; exact hch) (by rw [k4]; exact hc0) k1 hq (covers_of k2 hx k3)
    exact (k8 fun _ => ⟨_, _, _, hN, hg⟩).lp h0 hN
  · cases k7

end
end Verif.Cypher
