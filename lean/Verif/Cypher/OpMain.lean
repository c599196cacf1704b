import Verif.Cypher.OpLoop
/-!
# Operators: expressions

Every rule for expressions yields a node for an operator expression that is built as precedence and
associativity ask (parser.leg:413-492).
-/
namespace Verif.Cypher
open Verif.Peg Verif.Ops
open Verif.Quick (Blank)

section
variable {w : List UInt8} {n : Nat} {e t : E} {p p1 p' j j' L : Nat} {q q' : QState} {res : SkRes}
  {ts us : List (Peg.Thunk Act)} {env : Env} {m m' : Mach} {op : Option Op} {ps : List Nat}
  {x : Pos} {B : List Block} {FF F : List (List (Option (Option Ref)))}
  {fr : List (Option (Option Ref))} {O : List Op} {kids : List Node} {sq : List Ref} {i k : Nat} {r : Rule}

/-! ## The machine -/

theorem BlockAt.enter (hs : BlockAt env w x B FF O kids sq m) (hx : Mach.exec env (enterT (k + 1)) m = .ok m') :
    BlockAt env w x B (List.replicate (k + 1) none :: FF) O kids sq m' := by
  have := enter_same hx
  subst this
  exact ⟨hs.blocks, by simp [hs.frames], hs.ops, ⟨hs.ready.clean, hs.ready.errs⟩, hs.fine.same rfl rfl⟩

theorem BlockAt.leave (hs : BlockAt env w x B (fr :: F) O kids sq m) (hx : Mach.exec env (leaveT (k + 1)) m = .ok m') :
    BlockAt env w x B F O kids sq m' ∧ m'.self = m.self := by
  have hx : Mach.exec env [.pop (k + 1)] m = .ok m' := hx
  have hx := exec_one hx
  simp only [Mach.step] at hx
  rw [hs.frames] at hx
  cases hx
  exact ⟨⟨hs.blocks, rfl, hs.ops, ⟨hs.ready.clean, hs.ready.errs⟩, hs.fine.same rfl rfl⟩, rfl⟩

theorem BlockAt.copy {a : Option Ref} (hs : BlockAt env w x B (fr :: F) O kids sq m) (hv : fr[i]? = some (some a))
    (hx : Mach.exec env [.act (.copy i) p] m = .ok m') : BlockAt env w x B (fr :: F) O kids sq m' ∧ m'.self = a := by
  have hx := exec_one hx
  simp only [Mach.step, Mach.act, Mach.getVar] at hx
  rw [hs.frames] at hx
  simp only [hv] at hx
  cases hx
  exact ⟨⟨hs.blocks, rfl, hs.ops, ⟨hs.ready.clean, hs.ready.errs⟩, hs.fine.same rfl rfl⟩, rfl⟩

theorem BlockAt.start (hs : BlockAt env w x B FF O kids sq m) (hx : Mach.exec env [.act .blockStart p] m = .ok m') :
    ∃ x' s t y, Located env x' p ∧ BlockAt env w x' (⟨s, t, x, y, sq, kids⟩ :: B) FF O [] [] m' := by
  have hx := exec_one hx
  simp only [Mach.step] at hx
  have hf := act_leafy fine_lenient rfl hx hs.fine
  simp only [Mach.act] at hx
  obtain ⟨x', hx', rfl⟩ := blockStart_inv hx
  obtain ⟨s, t, y, hb⟩ := hs.blocks
  exact ⟨x', s, t, y, hx', ⟨p, p, x', by rw [hb]⟩, hs.frames, hs.ops,
    ⟨(by intro b hb; cases hb), hs.ready.errs⟩, hf⟩

theorem BlockAt.merge {x' y : Pos} {s s' : Nat} {sq' : List Ref} {kids' : List Node}
    (hs : BlockAt env w x' (⟨s, s', x, y, sq, kids⟩ :: B) FF O kids' sq' m) (hk : kids' ≠ [])
    (hx : Mach.exec env [.act .blockMerge p] m = .ok m') : BlockAt env w x B FF O (kids ++ kids') sq m' := by
  have hx := exec_one hx
  simp only [Mach.step] at hx
  have hf := act_leafy fine_lenient rfl hx hs.fine
  simp only [Mach.act, Mach.blockMerge] at hx
  obtain ⟨⟨c, cs⟩, hp, hx⟩ := bind_ok hx
  obtain ⟨k, k', ks, z, e1, e2, rfl, rfl, -⟩ := blockPop_inv hp
  obtain ⟨s1, t1, y1, hb⟩ := hs.blocks
  rw [hb] at e1
  cases e1
  simp only [hk, if_false] at hx
  cases hx
  refine ⟨⟨_, _, _, rfl⟩, hs.frames, hs.ops, ⟨?_, hs.ready.errs⟩, hf⟩
  intro b hb
  cases hb
  rfl

/-- The block is closed and a node is built of it. -/
theorem BlockAt.done {x' y : Pos} {s s' : Nat} {sq' : List Ref} {kids' : List Node} {c : Ctor}
    {args : List (Option Nat)} (hc : c.terminal = none)
    (hs : BlockAt env w x' (⟨s, s', x, y, sq, kids⟩ :: B) FF O kids' sq' m)
    (hx : Mach.exec env [.act (.build .self c args) p, .act .blockEnd p] m = .ok m') :
    ∃ N z vs O' blk, Node.ctor N = c ∧ N.range = ⟨x', z⟩ ∧ Located env z p ∧ N.children = kids' ∧
      m.getArgs args = .ok vs ∧ N.args = vs ∧ Mach.takeOps c blk O = .ok (N.ops, O') ∧
      m'.self = some N.ref ∧
      (OperatorOk w env.off.offset N → BlockAt env w x B FF O' (kids ++ [N]) sq m') := by
  obtain ⟨m1, h1, h2⟩ := exec_cons hx
  have h1 := exec_one h1
  simp only [Mach.step, Mach.act] at h1 h2
  have hf1 : Fine env w m1 := act_leafy (a := .blockEnd) (p := p) fine_lenient rfl h1 hs.fine
  simp only [Mach.blockEnd] at h1
  obtain ⟨⟨c', cs⟩, hp, h1⟩ := bind_ok h1
  cases h1
  obtain ⟨b, b', bs, z, e1, e2, rfl, rfl, -⟩ := blockPop_inv hp
  obtain ⟨s1, t1, y1, hb⟩ := hs.blocks
  rw [hb] at e1
  cases e1
  obtain ⟨vs, hv, h2⟩ := bind_ok h2
  obtain ⟨X, hX, h2⟩ := bind_ok h2
  obtain ⟨k, b0, bs0, N, g1, g2, g3, g4, g5, g6, g7, g8, -⟩ := build_full hX
  cases g1
  cases g2
  obtain ⟨g8, g9, g10⟩ := g8 hc
  have h2 : (.ok { X.1 with self := some X.2 } : Except Crash Mach) = .ok m' := h2
  cases h2
  refine ⟨N, z, vs, X.1.ops, _, g3, g5, e2, g6, ?_, g8, by rw [← hs.ops]; exact g9, by rw [g4], fun hN => ?_⟩
  · rw [← hv]; exact getArgs_frames rfl
  · have hX1 : Fine env w X.1 := by
      rw [g7]
      refine ⟨fun c hc => ?_, by simp⟩
      rcases List.mem_cons.1 hc with rfl | hc
      · intro v hv
        rcases List.mem_append.1 hv with hv | hv
        · exact hf1.blocks _ List.mem_cons_self v hv
        · rw [List.mem_singleton] at hv
          subst hv
          refine .mk hN fun c hc => ?_
          rw [g6] at hc
          exact hf1.prev _ rfl c hc
      · exact hf1.blocks c (List.mem_cons_of_mem _ hc)
    refine ⟨?_, by rw [g7]; exact hs.frames, rfl, ⟨?_, ?_⟩, hX1.same rfl rfl⟩
    · rw [g7]; exact ⟨_, _, _, rfl⟩
    · rw [g7]; intro b hb; cases hb
    · rw [g7]; exact hs.ready.errs

/-- What is recorded inside a rule for an expression that has variables. -/
def Inner (env : Env) (w : List UInt8) (k : Nat) (t : Tree) (p p' : Nat) (us : List (Peg.Thunk Act)) : Prop :=
  ∀ x B F O kids sq m m', BlockAt env w x B (List.replicate (k + 1) none :: F) O kids sq m →
    Mach.exec env us m = .ok m' → ∃ d N fr, BlockAt env w x B (fr :: F) O (kids ++ d) sq m' ∧ N ∈ d ∧
      m'.self = some (Node.ref N) ∧ Is w env.off.offset N t p p'

theorem Inner.yields {t : Tree} (he : EnvOk env) (hr : callOk r 0 = true) (hv : (grammar r).nvars = k + 1)
    (h : SkN w n (.nt r none) p q (.ok p' ts q')) (hl : p' ≤ env.buf.length)
    (hts : ts = setT none ++ (leaveT (grammar r).nvars ++ (us ++ enterT (grammar r).nvars)))
    (H : Inner env w k t p p' us) : Yields env w t p p' ts := by
  intro m m' b bs hb hm hf hx
  obtain ⟨⟨d', xs, hc⟩, -⟩ := call_at hr h he hl hb hm hx
  have : xs = [] := List.length_eq_zero_iff.1 hc.len
  subst this
  rw [hts, hv] at hx
  obtain ⟨m3, hx, hx4⟩ := exec_app hx
  obtain ⟨m2, hx, hx3⟩ := exec_app hx
  obtain ⟨m1, hx1, hx2⟩ := exec_app hx
  cases hx4
  have s0 : BlockAt env w b.rstart bs m.frames m.ops b.children b.seq m :=
    ⟨⟨b.start, b.stop, b.rstop, hb⟩, rfl, rfl, hm, hf⟩
  obtain ⟨d, N, fr, s2, h1, h2, h3⟩ := H _ _ _ _ _ _ _ _ (s0.enter hx1) hx2
  obtain ⟨s3, h4⟩ := s2.leave hx3
  obtain ⟨s, t', y, hb'⟩ := s3.blocks
  have heq := hc.blocks
  rw [hb'] at heq
  simp only [List.cons.injEq, Block.mk.injEq, and_true] at heq
  have hd : d = d' := List.append_cancel_left heq.2.2.2.2.2
  subst hd
  exact ⟨d, N, hc.blocks, hc.frames, hc.ops, hc.ready, s3.fine, h1, h4.trans h2, h3⟩

theorem Yields.inner {t : Tree} (h : Yields env w t p p' us) : Inner env w k t p p' us := by
  intro x B F O kids sq m m' hs hx
  obtain ⟨d, N, h1, h2, h3, h4⟩ := hs.yield h hx
  exact ⟨d, N, _, h1, h2, h3, h4⟩

/-! ## Levels -/

theorem top_ok (he : EnvOk env) (hk : ∀ k, k < n → ExprsOk env w k)
    (h : SkN w n (.nt .r_expression none) p q (.ok p' ts q')) (hl : p' ≤ env.buf.length) :
    ExprOk env w 0 p p' ts := by
  obtain ⟨k, us, hlt, h1, hts⟩ := h.nt
  change SkN w k r_expression _ _ _ at h1
  unfold r_expression at h1
  obtain ⟨p1, us1, q1, vs1, h2, h3, rfl⟩ := h1.seq
  obtain ⟨rfl, rfl, hq⟩ := h2.pred
  simp only [qpred, Option.some.injEq, Prod.mk.injEq, true_and] at hq
  subst hq
  obtain ⟨p2, us2, q2, vs2, h4, h5, rfl⟩ := h3.seq
  obtain ⟨p3, us3, q3, vs3, h6, h7, rfl⟩ := h5.seq
  obtain ⟨rfl, rfl, -⟩ := h6.pred
  obtain ⟨rfl, rfl, -⟩ := h7.act'
  obtain ⟨us4, rfl, h8⟩ := h4.onfail.nt_set
  obtain ⟨t, k1, k2, k3, k4, k5⟩ := (hk k hlt).expr h8 hl
  refine ⟨t, k1, k2, k3, k4, Inner.yields he (by decide +kernel) rfl h hl hts ?_⟩
  intro x B F O kids sq m m' hs hx
  obtain ⟨m1, hx1, hx⟩ := exec_app hx
  cases hx1
  obtain ⟨m3, hx2, hx⟩ := exec_app hx
  obtain ⟨m2, hx1, hx2⟩ := exec_app hx2
  obtain ⟨m4, hx3, hx4⟩ := exec_app hx
  cases hx3
  obtain ⟨d, N, s1, e1, e2, e3⟩ := hs.yield k5 hx1
  obtain ⟨s2, -⟩ := s1.set hx2
  rw [e2] at s2
  obtain ⟨s3, e4⟩ := s2.copy rfl hx4
  exact ⟨d, N, _, s3, e1, e4, e3⟩

theorem prec_ok (he : EnvOk env) (hk : ∀ k, k < n → ExprsOk env w k)
    (h : SkN w n (.nt .r__prec_expression none) p q (.ok p' ts q')) (hl : p' ≤ env.buf.length) :
    ∃ o, q.1 = some o ∧ ExprOk env w o.next p p' ts := by
  obtain ⟨k, us, hlt, h1, hts⟩ := h.nt
  change SkN w k r__prec_expression _ _ _ at h1
  unfold r__prec_expression at h1
  obtain ⟨p1, us1, q1, vs1, h2, h3, rfl⟩ := h1.seq
  obtain ⟨rfl, rfl, hq⟩ := h2.pred
  unfold qpred at hq
  simp only at hq
  split at hq
  · cases hq
  rename_i o ho
  simp only [Option.some.injEq, Prod.mk.injEq, true_and] at hq
  subst hq
  refine ⟨o, ho, ?_⟩
  obtain ⟨p2, us2, q2, vs2, h4, h5, rfl⟩ := h3.seq
  obtain ⟨p3, us3, q3, vs3, h6, h7, rfl⟩ := h5.seq
  obtain ⟨rfl, rfl, -⟩ := h6.pred
  obtain ⟨rfl, rfl, -⟩ := h7.act'
  obtain ⟨us4, rfl, h8⟩ := h4.onfail.nt_set
  obtain ⟨t, k1, k2, k3, k4, k5⟩ := (hk k hlt).expr h8 hl
  refine ⟨t, k1, k2, k3, k4, Inner.yields he (by decide +kernel) rfl h hl hts ?_⟩
  intro x B F O kids sq m m' hs hx
  obtain ⟨m1, hx1, hx⟩ := exec_app hx
  cases hx1
  obtain ⟨m3, hx2, hx⟩ := exec_app hx
  obtain ⟨m2, hx1, hx2⟩ := exec_app hx2
  obtain ⟨m4, hx3, hx4⟩ := exec_app hx
  cases hx3
  obtain ⟨d, N, s1, e1, e2, e3⟩ := hs.yield k5 hx1
  obtain ⟨s2, -⟩ := s1.set hx2
  rw [e2] at s2
  obtain ⟨s3, e4⟩ := s2.copy rfl hx4
  exact ⟨d, N, _, s3, e1, e4, e3⟩

/-! ## Operands -/

theorem chain_atom {off : Nat} {cs : List Node} {os : List Op} : ¬ Chain w off cs os .atom p p' := by
  intro h; cases h

theorem atom_longer {off : Nat} {N : Node} (h : Is w off N .atom p p1) (hle : p1 ≤ p') : Is w off N .atom p p' := by
  cases h with
  | atom h1 h2 h3 h4 => exact .atom h1 h2 h3 (by omega)
  | chain h => exact (chain_atom h).elim

theorem path_ok (he : EnvOk env) (hk : ∀ k, k < n → ExprsOk env w k)
    (h : SkN w n (.nt .r_pattern_expression none) p q (.ok p' ts q')) (hl : p' ≤ env.buf.length) :
    Yields env w .atom p p' ts := by
  obtain ⟨k, us, hlt, h1, hts⟩ := h.nt
  refine Inner.yields he (by decide +kernel) rfl h hl hts ?_
  have hn : NodesOk env w k := (hk k hlt).nodes
  have key : ∀ {r : Rule} {q q'}, r ∈ atoms →
      SkN w k (.seq (.nt r (some 0)) (.seq (.nt .r_ws none) (.act (.copy 0)))) p q (.ok p' us q') →
      Inner env w 0 .atom p p' us := by
    intro r q q' hr h
    obtain ⟨p1, us1, q1, vs1, h2, h3, rfl⟩ := h.seq
    obtain ⟨p2, us2, q2, vs2, h4, h5, rfl⟩ := h3.seq
    obtain ⟨rfl, rfl, -⟩ := h5.act'
    obtain ⟨us4, rfl, h8⟩ := h2.nt_set
    have hle := h4.le
    intro x B F O kids sq m m' hs hx
    obtain ⟨m2, hx1, hx⟩ := exec_app hx
    obtain ⟨m1, hx1, hx2⟩ := exec_app hx1
    obtain ⟨m3, hx3, hx4⟩ := exec_app hx
    obtain ⟨d, N, s1, e1, e2, e3⟩ := hs.yield (atom_yields he hn hr h8 (by omega)) hx1
    obtain ⟨s2, -⟩ := s1.set hx2
    rw [e2] at s2
    obtain ⟨d', s3⟩ := s2.call0 he hn (by decide +kernel) (by decide) h4 hl hx3
    obtain ⟨s4, e4⟩ := s3.copy rfl hx4
    exact ⟨d ++ d', N, _, by simpa using s4, by simp [e1], e4, atom_longer e3 hle⟩
  change SkN w k r_pattern_expression _ _ _ at h1
  rcases h1.alt with h1 | ⟨q1, -, h1⟩
  · exact key (by decide) h1
  · exact key (by decide) h1

/-- The alternatives of an expression. -/
def altsE : E → List E
  | .alt a b => altsE a ++ altsE b
  | e => [e]

theorem alts_ok : ∀ (e : E) {q}, SkN w n e p q (.ok p' ts q') →
    ∃ e' ∈ altsE e, ∃ q, SkN w n e' p q (.ok p' ts q') := by
  intro e
  induction e with
  | alt a b iha ihb =>
    intro q h
    rcases h.alt with h | ⟨q1, -, h⟩
    · obtain ⟨e', h1, h2⟩ := iha h
      exact ⟨e', by simp [altsE, h1], h2⟩
    · obtain ⟨e', h1, h2⟩ := ihb h
      exact ⟨e', by simp [altsE, h1], h2⟩
  | _ => intro q h; exact ⟨_, by simp [altsE], q, h⟩

def parenE : E :=
  .seq (.nt .r_LEFT_PAREN none) (.seq (.nt .r_ws none) (.seq (.nt .r_expression (some 0))
    (.seq (.nt .r_RIGHT_PAREN none) (.seq (.nt .r_ws none) (.act (.copy 0))))))

theorem atom_alts : ∀ e ∈ altsE (grammar .r_atom).body, (∃ r, r ∈ atoms ∧ e = .nt r none) ∨
    e = .nt .r_pattern_expression none ∨ e = parenE := by
  change ∀ e ∈ altsE r_atom, _
  intro e he
  simp only [r_atom, altsE, List.mem_append, List.mem_singleton] at he
  rcases he with rfl | rfl | rfl | rfl | rfl | rfl | rfl | rfl | rfl | rfl | rfl | rfl | rfl | rfl | rfl | rfl |
    rfl | rfl | rfl | rfl | rfl | rfl | rfl
  all_goals first
    | exact .inl ⟨_, by decide, rfl⟩
    | exact .inr (.inl rfl)
    | exact .inr (.inr rfl)

theorem closed_ok (he : EnvOk env) (hk : ∀ k, k < n → ExprsOk env w k)
    (h : SkN w n (.nt .r_atom none) p q (.ok p' ts q')) (hl : p' ≤ env.buf.length) :
    ClosedOk env w p p' ts := by
  obtain ⟨k, us, hlt, h1, hts⟩ := h.nt
  have hn : NodesOk env w k := (hk k hlt).nodes
  obtain ⟨e, he', q1, h2⟩ := alts_ok _ h1
  rcases atom_alts e he' with ⟨r, hr, rfl⟩ | rfl | rfl
  · exact ⟨.atom, trivial, rfl, rfl,
      Inner.yields he (by decide +kernel) rfl h hl hts (atom_yields he hn hr h2 hl).inner⟩
  · exact ⟨.atom, trivial, rfl, rfl, Inner.yields he (by decide +kernel) rfl h hl hts
      (path_ok he (fun j hj => hk j (by omega)) h2 hl).inner⟩
  · obtain ⟨a1, us1, q1, vs1, h3, h4, rfl⟩ := h2.seq
    obtain ⟨a2, us2, q2, vs2, h5, h6, rfl⟩ := h4.seq
    obtain ⟨a3, us3, q3, vs3, h7, h8, rfl⟩ := h6.seq
    obtain ⟨a4, us4, q4, vs4, h9, h10, rfl⟩ := h8.seq
    obtain ⟨a5, us5, q5, vs5, h11, h12, rfl⟩ := h10.seq
    obtain ⟨rfl, rfl, -⟩ := h12.act'
    obtain ⟨us6, rfl, h13⟩ := h7.nt_set
    obtain ⟨hc1, rfl⟩ := h3.sign rfl
    obtain ⟨hc2, rfl⟩ := h9.sign rfl
    have l1 := h5.le
    have l2 := h7.le
    have l3 := h11.le
    obtain ⟨t, k1, k2, k3, k4, k5⟩ := (hk k hlt).top h13 (by omega)
    refine ⟨.paren t, k1, rfl, rfl, Inner.yields he (by decide +kernel) rfl h hl hts ?_⟩
    intro x B F O kids sq m m' hs hx
    obtain ⟨m1, hx1, hx⟩ := exec_app hx
    obtain ⟨m2, hx2, hx⟩ := exec_app hx
    obtain ⟨m4, hx3, hx⟩ := exec_app hx
    obtain ⟨m3, hx3, hx4⟩ := exec_app hx3
    obtain ⟨m5, hx5, hx⟩ := exec_app hx
    obtain ⟨m6, hx6, hx7⟩ := exec_app hx
    obtain ⟨d1, s1⟩ := hs.call0 he hn (by decide +kernel) (by decide) h3 (by omega) hx1
    obtain ⟨d2, s2⟩ := s1.call0 he hn (by decide +kernel) (by decide) h5 (by omega) hx2
    obtain ⟨d3, N, s3, e1, e2, e3⟩ := s2.yield k5 hx3
    obtain ⟨s4, -⟩ := s3.set hx4
    rw [e2] at s4
    obtain ⟨d5, s5⟩ := s4.call0 he hn (by decide +kernel) (by decide) h9 (by omega) hx5
    obtain ⟨d6, s6⟩ := s5.call0 he hn (by decide +kernel) (by decide) h11 (by omega) hx6
    obtain ⟨s7, e4⟩ := s6.copy rfl hx7
    refine ⟨d1 ++ d2 ++ d3 ++ d5 ++ d6, N, _, by simpa using s7, by simp [e1], e4, ?_⟩
    exact .paren hc1 (ws_blank h5.toSk) (by omega) e3 hc2 (ws_blank h11.toSk) (by omega)

theorem operand_ok (he : EnvOk env) (hk : ∀ k, k < n → ExprsOk env w k)
    (h : SkN w n (.nt .r__atom none) p q (.ok p' ts q')) (hl : p' ≤ env.buf.length) :
    OperandOk env w p p' ts := by
  obtain ⟨k, us, hlt, h1, hts⟩ := h.nt
  have hn : NodesOk env w k := (hk k hlt).nodes
  change SkN w k r__atom _ _ _ at h1
  rcases h1.alt with h2 | ⟨q1, -, h2⟩
  · obtain ⟨a1, us1, q1, vs1, h3, h4, rfl⟩ := h2.seq
    obtain ⟨a2, us2, q2, vs2, h5, h6, rfl⟩ := h4.seq
    obtain ⟨a3, us3, q3, vs3, h7, h8, rfl⟩ := h6.seq
    obtain ⟨a4, us4, q4, vs4, h9, h10, rfl⟩ := h8.seq
    obtain ⟨a5, us5, q5, vs5, h11, h12, rfl⟩ := h10.seq
    obtain ⟨rfl, rfl, -⟩ := h12.act'
    obtain ⟨k1, us6, -, h13, rfl⟩ := h3.nt
    change SkN w k1 (.pred .blockStart) _ _ _ at h13
    obtain ⟨rfl, rfl, -⟩ := h13.pred
    obtain ⟨k2, us7, -, h14, rfl⟩ := h11.nt
    change SkN w k2 (.pred .blockEnd) _ _ _ at h14
    obtain ⟨hp, rfl, -⟩ := h14.pred
    subst hp
    have l1 := h7.le
    have l2 := h9.le
    obtain ⟨-, o, -, -, -, -, -, -, ho, -, -⟩ := tok_step he hn rfl h5 (by omega)
    obtain ⟨t, hr⟩ := right_ok he (hk k hlt) rfl h5 ho h7 h9 hl
    have hg : (Tree.pre o t).Good := ⟨hr.good, hr.lefts⟩
    refine ⟨.pre o t, hg, rfl, hr.rights, Inner.yields he (by decide +kernel) rfl h hl hts ?_⟩
    intro x B F O kids sq m m' hs hx
    obtain ⟨m1, hx1, hx⟩ := exec_app hx
    obtain ⟨x', s, s', y, hloc, s1⟩ := hs.start hx1
    obtain ⟨a, d, g1, g2, g3, g4, g5⟩ := hr.run
    have hx' : Mach.exec env ([.act (.build .self .unaryOperator [some 0]) p', .act .blockEnd p'] ++
        (us4 ++ (us3 ++ us2))) m1 = .ok m' := by
      simp only [List.append_assoc] at hx
      exact hx
    obtain ⟨m2, hx2, hx3⟩ := exec_app hx'
    obtain ⟨d', c, s2, hi, e1, e2⟩ := g5 s1 hx2
    obtain ⟨N, z, vs, O', blk, k1, k2, k3, k4, k5, k6, k7, k8, k9⟩ := s2.done rfl hx3
    cases args_two s2.frames (List.getElem?_set_self hi) k5
    simp only [Mach.takeOps, Except.ok.injEq, Prod.mk.injEq] at k7
    obtain ⟨k7, rfl⟩ := k7
    have hN : Is w env.off.offset N (.pre o t) a1 p' :=
      .pre g3 g4 g1 g2 e2 (by rw [k4]; simpa using e1) k1 k7.symm k6 (covers_of k2 hloc k3)
    exact ⟨[N], N, _, k9 fun _ => ⟨_, _, _, hN, hg⟩, by simp, k8, hN⟩
  · obtain ⟨t, k1, k2, k3, k4⟩ := (hk k hlt).closed h2 hl
    refine ⟨t, k1, k2, fun y hy => ?_, Inner.yields he (by decide +kernel) rfl h hl hts k4.inner⟩
    rw [k3] at hy
    cases hy

/-! ## Expressions -/

/-- Any number of rounds. -/
theorem rounds (he : EnvOk env) (hk : ExprsOk env w n) (h : SkN w n (.star loop) j q (.ok j' ts q')) :
    j ≤ j' ∧ ∀ ps, q.2 = L :: ps → j' ≤ env.buf.length → Halt w j' L ∧ ∀ t, Begun w L t j → ChainDone w L t j → Goes env w L j j' ts t := by
  refine SkN.star (P := fun j q j' ts _ => j ≤ j' ∧ ∀ ps, q.2 = L :: ps → j' ≤ env.buf.length →
    Halt w j' L ∧ ∀ t, Begun w L t j → ChainDone w L t j → Goes env w L j j' ts t) ?_ ?_ h
  · intro j q j1 us q1 j' vs q' hs ⟨hj, ih⟩
    have hle := hs.le
    refine ⟨by omega, fun ps hq hl => ?_⟩
    obtain ⟨qo, qs⟩ := q
    simp only at hq
    subst hq
    have hq1 := hs.toSk.level (by decide +kernel)
    obtain ⟨h1, h2⟩ := ih ps hq1 hl
    refine ⟨h1, fun t ht hw => ?_⟩
    obtain ⟨t1, ht1, hw1, g1⟩ := loop_goes he hk hs (by omega) ht hw
    obtain ⟨t2, ht2, hw2, g2⟩ := h2 t1 ht1 hw1
    refine ⟨t2, ht2, hw2, fun hx hlp hex => ?_⟩
    obtain ⟨m1, hx1, hx2⟩ := exec_app hex
    exact g2 hx (g1 hx hlp hx1) hx2
  · intro j q q1 hs
    refine ⟨Nat.le_refl _, fun ps hq hl => ⟨?_, fun t ht hw => ⟨t, ht, hw, fun _ hlp hex => by cases hex; exact hlp⟩⟩⟩
    obtain ⟨qo, qs⟩ := q
    simp only at hq
    subst hq
    exact ⟨_, _, _, hs.toSk⟩

/-- The first alternative failed although there is an operand: no operator follows. -/
theorem alone (h1 : Sk w exprFirst p (op, L :: ps) (.no q)) (h2 : Sk w (.nt .r__atom none) p q (.ok p' ts q')) :
    Halt w p' L := by
  have h3 : ∃ us, Sk w (.nt .r__atom (some 0)) p q (.ok p' us q') := by
    cases h2 with
    | nt_ok h => exact ⟨_, .nt_ok h⟩
  obtain ⟨us, h3⟩ := h3
  cases h1 with
  | seq_no h =>
    cases h with
    | nt_no h =>
      change Sk w (.pred .blockStart) _ _ _ at h
      cases h with
      | pred_no h => cases h
  | seq_no2 h h' =>
    cases h with
    | nt_ok h =>
      change Sk w (.pred .blockStart) _ _ _ at h
      cases h with
      | pred_ok h =>
        cases h
        obtain ⟨q2, g1, g2⟩ := fail_seq h3 (v := false) (v' := false) (f := some 0) (by decide +kernel)
          (.none _ (op, L :: ps)) h'
        have hlev : q2.2 = L :: ps := by
          obtain ⟨zs, z1, -, z3⟩ := g1.stk
          have : zs = [] := List.length_eq_zero_iff.1 z1
          subst this
          exact z3
        obtain ⟨qo, qs⟩ := q2
        simp only at hlev
        subst hlev
        cases g2 with
        | seq_no h => exact ⟨_, _, _, plus_fails h⟩
        | seq_no2 _ h =>
          cases h with
          | seq_no h =>
            cases h with
            | nt_no h =>
              change Sk w (.pred .blockMerge) _ _ _ at h
              cases h with
              | pred_no h => cases h
          | seq_no2 _ h => exact (act_ok h).elim

theorem expr_ok (he : EnvOk env) (hk : ∀ k, k < n → ExprsOk env w k)
    (h : SkN w n (.nt .r__expression none) p (op, L :: ps) (.ok p' ts q')) (hl : p' ≤ env.buf.length) :
    ExprOk env w L p p' ts := by
  obtain ⟨k, us, hlt, h1, hts⟩ := h.nt
  rw [expression_body] at h1
  rcases h1.alt with h2 | ⟨q1, hno, h2⟩
  · obtain ⟨a1, us1, q1, vs1, h3, h4, rfl⟩ := h2.seq
    obtain ⟨a2, us2, q2, vs2, h5, h6, rfl⟩ := h4.seq
    obtain ⟨a3, us3, q3, vs3, h7, h8, rfl⟩ := h6.seq
    obtain ⟨a4, us4, q4, vs4, h9, h10, rfl⟩ := h8.seq
    obtain ⟨rfl, rfl, -⟩ := h10.act'
    obtain ⟨k1, us6, -, h13, rfl⟩ := h3.nt
    change SkN w k1 (.pred .blockStart) _ _ _ at h13
    obtain ⟨rfl, rfl, hq⟩ := h13.pred
    cases hq
    obtain ⟨k2, us7, -, h14, rfl⟩ := h9.nt
    change SkN w k2 (.pred .blockMerge) _ _ _ at h14
    obtain ⟨hp, rfl, -⟩ := h14.pred
    subst hp
    obtain ⟨us8, rfl, h15⟩ := h5.nt_set
    obtain ⟨a5, us9, q9, vs9, h16, h17, rfl⟩ := SkN.seq (b := .star loop) h7
    have l1 := h16.le
    have hq2 := h15.toSk.level (by decide +kernel)
    obtain ⟨qo, qs⟩ := q2
    simp only [SkRes.q] at hq2
    subst hq2
    have hq9 := h16.toSk.level (by decide +kernel)
    obtain ⟨l2, hround⟩ := rounds (L := L) he (hk k hlt) h17
    obtain ⟨hhalt, hround⟩ := hround ps hq9 hl
    obtain ⟨t0, g1, g2, g3, g4⟩ := (hk k hlt).operand h15 (by omega)
    obtain ⟨t1, ht1, hw1, f1⟩ := loop_goes he (hk k hlt) h16 (by omega)
      (t := t0) ⟨g1, (by rw [g2]; intro y hy; cases hy), g3⟩
      (fun h => by cases t0 <;> first | (simp [Tree.lefts] at g2; done) | cases h)
    obtain ⟨t2, ht2, -, f2⟩ := hround t1 ht1 hw1
    refine ⟨t2, ht2.good, ht2.lefts, ht2.rights, hhalt, Inner.yields he (by decide +kernel) rfl h hl hts ?_⟩
    intro x B F O kids sq m m' hs hx
    obtain ⟨m1, hx1, hx⟩ := exec_app hx
    obtain ⟨x', s, s', y, hloc, s1⟩ := hs.start hx1
    obtain ⟨m3, hx2, hx⟩ := exec_app hx
    obtain ⟨m2, hx2, hx3⟩ := exec_app hx2
    obtain ⟨d, N, s2, e1, e2, e3⟩ := s1.yield g4 hx2
    obtain ⟨s3, -⟩ := s2.set hx3
    rw [e2] at s3
    have lp0 : Lp env w x' _ F O t0 a1 a2 m3 := ⟨_, _, N, s3, rfl, by simpa using e1, e3⟩
    obtain ⟨m5, hx4, hx⟩ := exec_app hx
    obtain ⟨m4, hx4, hx5⟩ := exec_app hx4
    obtain ⟨fr, kids', c, s5, e5, e6, e7⟩ := f2 hloc (f1 hloc lp0 hx4) hx5
    obtain ⟨m6, hx6, hx7⟩ := exec_app hx
    have s6 := s5.merge (by intro h; rw [h] at e6; cases e6) hx6
    obtain ⟨s7, e8⟩ := s6.copy e5 hx7
    exact ⟨kids', c, fr, s7, e6, e8, e7⟩
  · obtain ⟨t, k1, k2, k3, k4⟩ := (hk k hlt).operand h2 hl
    refine ⟨t, k1, ?_, k3, alone hno.toSk h2.toSk, Inner.yields he (by decide +kernel) rfl h hl hts k4.inner⟩
    rw [k2]; intro y hy; cases hy

/-! ## Properties of operands -/

def propStep : E :=
  .seq (.nt .r_DOT none) (.seq (.nt .r_ws none) (.seq (.nt .r_prop_name (some 1))
    (.seq (.nt .r__block_replace_ none) (.act (.build (.var 0) .propertyOperator [some 0, some 1])))))

theorem prop_goes (he : EnvOk env) (hn : NodesOk env w n) {t : Tree} (h : SkN w n propStep j q (.ok j' ts q'))
    (hl : j' ≤ env.buf.length) (ht : t.Good) (hr : t.rights = []) :
    ∃ t', t'.Good ∧ t'.rights = [] ∧ ∀ {x B F O i m m'}, Located env x i → Lp env w x B F O t i j m →
      Mach.exec env ts m = .ok m' → Lp env w x B F O t' i j' m' := by
  have hg : (Tree.suf .property t).Good := ⟨ht, by rw [hr]; intro y hy; cases hy⟩
  obtain ⟨p1, us, q1, vs, h1, h2, -⟩ := id h.seq
  obtain ⟨hch, rfl⟩ := h1.sign rfl
  have := h2.le
  exact ⟨_, hg, rfl, fun hx hlp hex => suf_step (c := .propertyOperator) he hn (by decide +kernel) rfl h hl
    (symbol_one (c := 46) rfl hch) (by omega) hg hx hlp hex⟩

theorem prop_rounds (he : EnvOk env) (hn : NodesOk env w n) (h : SkN w n (.star propStep) j q (.ok j' ts q')) :
    j ≤ j' ∧ (j' ≤ env.buf.length → ∀ t : Tree, t.Good → t.rights = [] →
      ∃ t', t'.Good ∧ t'.rights = [] ∧ ∀ {x B F O i m m'}, Located env x i → Lp env w x B F O t i j m →
        Mach.exec env ts m = .ok m' → Lp env w x B F O t' i j' m') := by
  refine SkN.star (P := fun j q j' ts _ => j ≤ j' ∧ (j' ≤ env.buf.length → ∀ t : Tree, t.Good → t.rights = [] →
      ∃ t', t'.Good ∧ t'.rights = [] ∧ ∀ {x B F O i m m'}, Located env x i → Lp env w x B F O t i j m →
        Mach.exec env ts m = .ok m' → Lp env w x B F O t' i j' m')) ?_ ?_ h
  · intro j q j1 us q1 j' vs q' hs ⟨hj, ih⟩
    have hle := hs.le
    refine ⟨by omega, fun hl t ht hr => ?_⟩
    obtain ⟨t1, ht1, hr1, g1⟩ := prop_goes he hn hs (by omega) ht hr
    obtain ⟨t2, ht2, hr2, g2⟩ := ih hl t1 ht1 hr1
    refine ⟨t2, ht2, hr2, fun hx hlp hex => ?_⟩
    obtain ⟨m1, hx1, hx2⟩ := exec_app hex
    exact g2 hx (g1 hx hlp hx1) hx2
  · intro j q q1 hs
    exact ⟨Nat.le_refl _, fun hl t ht hr => ⟨t, ht, hr, fun _ hlp hex => by cases hex; exact hlp⟩⟩

theorem property_ok (he : EnvOk env) (hk : ∀ k, k < n → ExprsOk env w k)
    (h : SkN w n (.nt .r_property_expression none) p q (.ok p' ts q')) (hl : p' ≤ env.buf.length) :
    ∃ t, t.Good ∧ Yields env w t p p' ts := by
  obtain ⟨k, us, hlt, h1, hts⟩ := h.nt
  have hn : NodesOk env w k := (hk k hlt).nodes
  change SkN w k r_property_expression _ _ _ at h1
  obtain ⟨a1, us1, q1, vs1, h3, h4, rfl⟩ := h1.seq
  obtain ⟨a2, us2, q2, vs2, h5, h6, rfl⟩ := h4.seq
  obtain ⟨a3, us3, q3, vs3, h7, h8, rfl⟩ := h6.seq
  obtain ⟨a4, us4, q4, vs4, h9, h10, rfl⟩ := h8.seq
  obtain ⟨rfl, rfl, -⟩ := h10.act'
  obtain ⟨k1, us6, -, h13, rfl⟩ := h3.nt
  change SkN w k1 (.pred .blockStart) _ _ _ at h13
  obtain ⟨rfl, rfl, hq⟩ := h13.pred
  cases hq
  obtain ⟨k2, us7, -, h14, rfl⟩ := h9.nt
  change SkN w k2 (.pred .blockMerge) _ _ _ at h14
  obtain ⟨hp, rfl, -⟩ := h14.pred
  subst hp
  obtain ⟨us8, rfl, h15⟩ := h5.nt_set
  obtain ⟨a5, us9, q9, vs9, h16, h17, rfl⟩ := SkN.seq (a := propStep) (b := .star propStep) h7
  have l1 := h16.le
  obtain ⟨l2, hround⟩ := prop_rounds he hn h17
  obtain ⟨t0, g1, g2, g3, g4⟩ := (hk k hlt).closed h15 (by omega)
  obtain ⟨t1, ht1, hr1, f1⟩ := prop_goes he hn h16 (by omega) g1 g3
  obtain ⟨t2, ht2, hr2, f2⟩ := hround hl t1 ht1 hr1
  refine ⟨t2, ht2, Inner.yields he (by decide +kernel) rfl h hl hts ?_⟩
  intro x B F O kids sq m m' hs hx
  obtain ⟨m1, hx1, hx⟩ := exec_app hx
  obtain ⟨x', s, s', y, hloc, s1⟩ := hs.start hx1
  obtain ⟨m3, hx2, hx⟩ := exec_app hx
  obtain ⟨m2, hx2, hx3⟩ := exec_app hx2
  obtain ⟨d, N, s2, e1, e2, e3⟩ := s1.yield g4 hx2
  obtain ⟨s3, -⟩ := s2.set hx3
  rw [e2] at s3
  have lp0 : Lp env w x' _ F O t0 a1 a2 m3 := ⟨_, _, N, s3, rfl, by simpa using e1, e3⟩
  obtain ⟨m5, hx4, hx⟩ := exec_app hx
  obtain ⟨m4, hx4, hx5⟩ := exec_app hx4
  obtain ⟨fr, kids', c, s5, e5, e6, e7⟩ := f2 hloc (f1 hloc lp0 hx4) hx5
  obtain ⟨m6, hx6, hx7⟩ := exec_app hx
  have s6 := s5.merge (by intro h; rw [h] at e6; cases e6) hx6
  obtain ⟨s7, e8⟩ := s6.copy e5 hx7
  exact ⟨kids', c, fr, s7, e6, e8, e7⟩

/-! ## All rules -/

theorem Yields.fine {t : Tree} {b : Block} {bs : List Block} (h : Yields env w t p p' ts) (hb : m.blocks = b :: bs)
    (hm : Idle env m) (hf : Fine env w m) (hx : Mach.exec env ts m = .ok m') : Fine env w m' := by
  obtain ⟨d, N, -, -, -, -, h5, -⟩ := h _ _ _ _ hb hm hf hx
  exact h5

theorem known (he : EnvOk env) (n : Nat) : ExprsOk env w n := by
  induction n using Nat.strongRecOn with
  | _ n hk =>
    refine ⟨?_, expr_ok he hk, ?_, top_ok he hk, operand_ok he hk, closed_ok he hk⟩
    · intro r p q p' ts q' m m' b bs hr h hl hb hm hf hx
      by_cases hp : r ∈ notPlain
      · simp only [notPlain, List.mem_cons, List.not_mem_nil, or_false] at hp
        rcases hp with rfl | rfl | rfl | rfl | rfl
        · obtain ⟨t, -, -, -, -, hy⟩ := top_ok he hk h hl
          exact hy.fine hb hm hf hx
        · obtain ⟨o, -, t, -, -, -, -, hy⟩ := prec_ok he hk h hl
          exact hy.fine hb hm hf hx
        · exact (hr rfl).elim
        · obtain ⟨t, -, -, -, hy⟩ := operand_ok he hk h hl
          exact hy.fine hb hm hf hx
        · obtain ⟨t, -, hy⟩ := property_ok he hk h hl
          exact hy.fine hb hm hf hx
      · exact rule_fine he (fun k hlt => (hk k hlt).nodes) hp h hl hb hm hf hx
    · intro o ps p p' ts q' h hl
      obtain ⟨o', ho, h1⟩ := prec_ok he hk h hl
      cases ho
      exact h1

/-- Every rule keeps every operator node good. -/
theorem rule_operators (he : EnvOk env) (hr : r ≠ .r__expression) {b : Block} {bs : List Block}
    (h : Sk w (.nt r none) p q (.ok p' ts q')) (hl : p' ≤ env.buf.length) (hb : m.blocks = b :: bs)
    (hm : Idle env m) (hf : Fine env w m) (hx : Mach.exec env ts m = .ok m') : Fine env w m' := by
  obtain ⟨n, h⟩ := h.height
  exact (known he n).nodes hr h hl hb hm hf hx

end
end Verif.Cypher
