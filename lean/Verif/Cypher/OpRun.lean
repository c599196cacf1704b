import Verif.Cypher.OpText
import Verif.Cypher.AbsTable
/-!
# Operators: running the actions

What the thunks of rules do to the machine, in the form needed for the rules of expressions.
-/
namespace Verif.Cypher
open Verif.Peg Verif.Ops

section
variable {w : List UInt8} {n : Nat} {e : E} {p p' : Nat} {q q' : QState} {res : SkRes}
  {ts : List (Peg.Thunk Act)} {env : Env} {m m' : Mach}

/-! ## The abstract machine -/

theorem recT_act (x : Pred) (p : Nat) : recT x p = match x.act with
    | some a => [.act a p]
    | none => [] := by
  cases x <;> rfl

/-- As `tr_sound`, for matches without the reader. -/
theorem Sk.runs {md : Mode} {T : Rule → Option Sum} (hT : ∀ r, sumOk md T r = true)
    (hdead : ∀ l ∈ md.dead, ∀ p, w.extract p (p + l.length) ≠ l) (h : Sk w e p q res) :
    ∀ p' ts q', res = .ok p' ts q' → ∀ A oA, tr md T e A = some oA →
      ∃ A', oA = some A' ∧ Runs md A A' p p' ts := by
  induction h with
  | eps =>
    rintro p' ts q' ⟨⟩ A oA hA
    cases hA
    exact ⟨A, rfl, .nil (Nat.le_refl _)⟩
  | one_ok =>
    rintro p' ts q' ⟨⟩ A oA hA
    cases hA
    exact ⟨A, rfl, .nil (Nat.le_succ _)⟩
  | @str_ok l p q h =>
    rintro p' ts q' ⟨⟩ A oA hA
    simp only [tr] at hA
    split at hA
    · rename_i hd
      exact absurd h (hdead l hd _)
    · cases hA
      exact ⟨A, rfl, .nil (by omega)⟩
  | @nt_ok r v p q p1 ts1 q1 hb ih =>
    rintro p' ts q' ⟨⟩ A oA hA
    have hle := hb.le _ _ _ rfl
    simp only [tr] at hA
    cases hin : inlined r with
    | some a =>
      simp only [hin, Option.map_eq_some_iff, Option.bind_eq_some_iff] at hA
      obtain ⟨A2, ⟨A1, h1, h2⟩, rfl⟩ := hA
      obtain ⟨hn, x, hx, hxa⟩ := inlined_body hin
      rw [hx] at hb
      cases hb with
      | pred_ok hp =>
        rw [recT_act, hxa, hn]
        refine ⟨A2, rfl, ?_⟩
        simp only [leaveT, enterT, if_true, List.nil_append, List.append_nil]
        exact (Runs.act h1 p).trans (fun env m0 m he hp hg => setSelf_sound hg h2) (Nat.le_refl _)
    | none =>
      simp only [hin] at hA
      have hok := hT r
      simp only [sumOk, hin, Option.isSome_none, Bool.false_or] at hok
      cases hTr : T r with
      | none =>
        exfalso
        rw [hTr] at hok
        split at hok
        · rename_i htr _
          obtain ⟨A', he, _⟩ := ih _ _ _ rfl _ _ htr
          cases he
        · rename_i htr hs; cases hs
        · cases hok
      | some sm =>
        simp only [hTr, Option.map_eq_some_iff, Option.bind_eq_some_iff] at hA
        obtain ⟨A2, ⟨A1, h1, h2⟩, rfl⟩ := hA
        rw [hTr] at hok
        split at hok
        · rename_i hs; cases hs
        · rename_i B sm' htr hs
          cases hs
          obtain ⟨B', he, hruns⟩ := ih _ _ _ rfl _ _ htr
          cases he
          refine ⟨A2, rfl, ?_⟩
          have hcall : Runs md A A1 p p1 (leaveT (grammar r).nvars ++ (ts1 ++ enterT (grammar r).nvars)) := by
            intro env m0 m he hq hg
            obtain ⟨b0, rest, D, xs, hg⟩ := hg
            refine call_sound hle hg h1 fun m1 hm1 => ?_
            have := hruns env m m1 he hq hm1
            exact this.imp fun _ h => h.le hok
          exact hcall.trans (fun env m0 m he hp hg => setSelf_sound hg h2) (Nat.le_refl _)
        · cases hok
  | @seq_ok a b p q p1 us q1 p2 vs q2 ha hb iha ihb =>
    rintro p' ts q' ⟨⟩ A oA hA
    simp only [tr] at hA
    cases ht : tr md T a A with
    | none => rw [ht] at hA; cases hA
    | some o =>
      obtain ⟨B, rfl, h2⟩ := iha _ _ _ rfl A o ht
      rw [ht] at hA
      obtain ⟨C, rfl, h4⟩ := ihb _ _ _ rfl B oA hA
      exact ⟨C, rfl, h2.trans h4 (hb.le _ _ _ rfl)⟩
  | alt_ok _ iha =>
    rintro p' ts q' ⟨⟩ A oA hA
    simp only [tr] at hA
    obtain ⟨⟨x, hx⟩, y, hy⟩ := altJoin_some hA
    obtain ⟨B, rfl, h2⟩ := iha _ _ _ rfl A x hx
    rw [hx] at hA
    obtain ⟨J, rfl, h3⟩ := altJoin_left hA rfl
    exact ⟨J, rfl, h2.imp h3⟩
  | alt_no _ _ iha ihb =>
    rintro p' ts q' hres A oA hA
    simp only [tr] at hA
    obtain ⟨⟨x, hx⟩, y, hy⟩ := altJoin_some hA
    obtain ⟨B, rfl, h2⟩ := ihb _ _ _ hres A y hy
    rw [hy] at hA
    obtain ⟨J, rfl, h3⟩ := altJoin_right hA rfl
    exact ⟨J, rfl, h2.imp h3⟩
  | star_more ha hb iha ihb =>
    rintro p' ts q' ⟨⟩ A oA hA
    simp only [tr] at hA
    obtain ⟨J, rfl, h1, h2, h3⟩ := starLoop_fix 6 hA
    rcases h3 with h3 | ⟨B, h3, h4⟩
    · obtain ⟨B, hB, _⟩ := iha _ _ _ rfl J _ h3
      cases hB
    · obtain ⟨B', hB, h6⟩ := iha _ _ _ rfl J _ h3
      cases hB
      obtain ⟨J', hJ, h8⟩ := ihb _ _ _ rfl J (some J) (h2 5)
      cases hJ
      refine ⟨J, rfl, ?_⟩
      exact fun env m0 m he hp hg => ((h6.imp h4).trans h8 (hb.le _ _ _ rfl)) env m0 m he hp (h1 _ _ _ _ hg)
  | star_end _ _ =>
    rintro p' ts q' ⟨⟩ A oA hA
    simp only [tr] at hA
    obtain ⟨J, rfl, h1, -⟩ := starLoop_fix 6 hA
    exact ⟨J, rfl, fun env m0 m _ _ hg => h1 _ _ _ _ hg⟩
  | peek_ok =>
    rintro p' ts q' ⟨⟩ A oA hA
    cases hA
    exact ⟨A, rfl, .nil (Nat.le_refl _)⟩
  | npeek_no =>
    rintro p' ts q' ⟨⟩ A oA hA
    cases hA
    exact ⟨A, rfl, .nil (Nat.le_refl _)⟩
  | @pred_ok x p q q' hp =>
    rintro p' ts q' ⟨⟩ A oA hA
    rw [recT_act]
    simp only [tr] at hA
    cases hx : x.act with
    | none =>
      rw [hx] at hA
      cases hA
      exact ⟨A, rfl, .nil (Nat.le_refl _)⟩
    | some a =>
      rw [hx] at hA
      simp only [Option.map_eq_some_iff] at hA
      obtain ⟨A1, h1, rfl⟩ := hA
      exact ⟨A1, rfl, .act h1 p⟩
  | @act a p q =>
    rintro p' ts q' ⟨⟩ A oA hA
    simp only [tr, Option.map_eq_some_iff] at hA
    obtain ⟨A1, h1, rfl⟩ := hA
    exact ⟨A1, rfl, .act h1 p⟩
  | onfail_ok _ iha =>
    rintro p' ts q' ⟨⟩ A oA hA
    simp only [tr] at hA
    exact iha _ _ _ rfl A oA hA
  | _ => intro _ _ _ h; cases h

/-- From a described state to a described state. -/
theorem SkN.runs (h : SkN w n e p q (.ok p' ts q')) {A A' : Abs} (ht : tr lax sumT e A = some (some A'))
    (he : EnvOk env) (hl : p' ≤ env.buf.length) {m0 : Mach} (hg : G env m0 A p m)
    (hx : Mach.exec env ts m = .ok m') : G env m0 A' p' m' := by
  obtain ⟨B, hB, hr⟩ := h.toSk.runs sumT_ok (by simp [lax]) _ _ _ rfl _ _ ht
  cases hB
  have := hr env m0 m he hl hg
  rw [hx] at this
  exact this

/-! ## Calls -/

/-- Nothing is left over from before. -/
structure Idle (env : Env) (m : Mach) : Prop where
  clean : Clean m.prev
  errs : ErrsOk env m.errs

/-- Rules that leave the sequence of the block alone and push so many operators. -/
def callOk (r : Rule) (k : Nat) : Bool :=
  (inlined r == none) && match sumT r with
    | none => true
    | some s => s.blk.seq.isEmpty && s.prev.isClean && s.ops == some k

theorem init_G {b : Block} {bs : List Block} (hb : m.blocks = b :: bs) (hr : Idle env m) (p : Nat) :
    G env m (.init 0) p m := by
  obtain ⟨m1, h1, h2⟩ := enter_sound (p := p) hb hr.clean hr.errs 0
  cases h1
  exact h2

/-- What a rule does to the machine. -/
structure CalledAt (env : Env) (b : Block) (bs : List Block) (k : Nat) (m m' : Mach) (d : List Node)
    (xs : List Op) : Prop where
  blocks : m'.blocks = { b with children := b.children ++ d } :: bs
  frames : m'.frames = m.frames
  ops : m'.ops = xs ++ m.ops
  len : xs.length = k
  ready : Idle env m'

theorem call_at {r : Rule} {k : Nat} (hr : callOk r k = true) (h : SkN w n (.nt r none) p q (.ok p' ts q'))
    (he : EnvOk env) (hl : p' ≤ env.buf.length) {b : Block} {bs : List Block} (hb : m.blocks = b :: bs)
    (hm : Idle env m) (hx : Mach.exec env ts m = .ok m') :
    (∃ d xs, CalledAt env b bs k m m' d xs) ∧ ∃ s, sumT r = some s ∧ (s.self = .keep → m'.self = m.self) := by
  simp only [callOk, Bool.and_eq_true, beq_iff_eq] at hr
  obtain ⟨hin, hr⟩ := hr
  have hc : ∃ oA, tr lax sumT (.nt r none) (.init 0) = some oA ∧ (∀ A', oA = some A' →
      ∃ s, sumT r = some s ∧ (Abs.init 0).call s = some A' ∧
        s.blk.seq.isEmpty = true ∧ s.prev.isClean = true ∧ s.ops = some k) := by
    simp only [tr, hin]
    split at hr
    · rename_i hs
      rw [hs]
      exact ⟨none, rfl, by simp⟩
    · rename_i s hs
      rw [hs]
      simp only [Bool.and_eq_true, beq_iff_eq] at hr
      obtain ⟨⟨h1, h2⟩, h3⟩ := hr
      have hcall : ∃ A', (Abs.init 0).call s = some A' := by
        have hcond : (APrev.keep.isClean && (s.res == 0 || ([] : List ABlk) == []) && s.prev.isClean) = true := by
          rw [h2]; simp [APrev.isClean]
        exact ⟨_, if_pos hcond⟩
      obtain ⟨A', hA⟩ := hcall
      exact ⟨some A', by simp [hA, Abs.setSelf], by rintro _ ⟨⟩; exact ⟨s, rfl, hA, h1, h2, h3⟩⟩
  obtain ⟨oA, ht, hA⟩ := hc
  obtain ⟨B, rfl, hruns⟩ := h.toSk.runs sumT_ok (by simp [lax]) _ _ _ rfl _ _ ht
  obtain ⟨s, hs, hcall, h1, h2, h3⟩ := hA B rfl
  have hg := hruns env m m he hl (init_G hb hm p)
  rw [hx] at hg
  obtain ⟨b0, rest, D, xs, hg⟩ := hg
  have hcond : (APrev.keep.isClean && (s.res == 0 || ([] : List ABlk) == []) && s.prev.isClean) = true := by
    rw [h2]; simp [APrev.isClean]
  have hcall' := hcall.symm.trans (if_pos hcond)
  cases hcall'
  have hent := hg.entry
  rw [hb] at hent
  cases hent
  obtain ⟨d, rfl, hbo, hbl⟩ := hg.blks
  have hde : d.2 = [] := by
    have := hbo.seq
    refine SeqOk.isEmpty (a := (SeqA.empty.app s.blk.seq)) this ?_
    have hp : SeqA.empty.parts s.blk.seq = (0, 0, false) := if_pos h1
    show ((SeqA.empty.parts s.blk.seq).1 == 0 && (SeqA.empty.parts s.blk.seq).2.1 == 0) = true
    rw [hp]; rfl
  refine ⟨⟨d.1, xs, ⟨?_, ?_, hg.stack, hg.ops k (by rw [h3]; show some (0 + k) = some k; rw [Nat.zero_add]), ⟨APrev.isClean_ok hg.prev hg.clean ?_, hg.errs⟩⟩⟩,
    s, hs, ?_⟩
  · rw [hbl, hde]; simp
  · rcases hg.vars with ⟨_, hf⟩ | ⟨hv, _⟩
    · exact hf
    · exact (hv rfl).elim
  · cases s.prev <;> rfl
  · intro hk
    have := hg.self
    simp only [hk, callSelf, Abs.reloc, ASelf.reloc] at this
    exact this

/-! ## Builders -/

theorem build_full {c : Ctor} {args : List (Option Ref)} {x : Mach × Ref}
    (h : Mach.build env c args m = .ok x) : ∃ k b bs N, m.prev = some k ∧ m.blocks = b :: bs ∧
      Node.ctor N = c ∧ N.ref = x.2 ∧ N.range = ⟨k.rstart, k.rstop⟩ ∧ N.children = k.children ∧
      x.1 = { m with blocks := { b with children := b.children ++ [N] } :: bs, prev := none, ops := x.1.ops,
                     next := m.next + 1 } ∧
      (c.terminal = none → N.args = args ∧ Mach.takeOps c k m.ops = .ok (N.ops, x.1.ops) ∧
        N.seq = if c.checks.2 = .none then [] else k.seq) ∧
      (c.terminal ≠ none → x.1.ops = m.ops) := by
  unfold Mach.build at h
  split at h
  · rename_i k hk
    unfold Mach.terminal at h
    split at h
    · cases h
    · rename_i b hb
      obtain ⟨t, ht, h⟩ := bind_ok h
      simp only at h
      split at h
      · cases h
      · rename_i hch
        obtain ⟨m1, h1, h⟩ := bind_ok h
        cases h
        obtain ⟨b', bs, h2, rfl⟩ := addChild_inv h1
        have hch' : b.children = [] := by simpa using hch
        refine ⟨b, b', bs, _, hb, h2, rfl, rfl, rfl, ?_, rfl, ?_, ?_⟩
        · exact hch'.symm
        · intro hn; cases hk.symm.trans hn
        · intro _; rfl
  · rename_i hk
    unfold Mach.branch at h
    split at h
    · cases h
    · rename_i b hb
      obtain ⟨⟨os, rest⟩, ho, h⟩ := bind_ok h
      simp only at h
      split at h
      · cases h
      · simp only [bind, Except.bind] at h
        split at h
        · cases h
        · cases h
        · split at h
          · cases h
          · rename_i m1 h1
            cases h
            obtain ⟨b', bs, h2, rfl⟩ := addChild_inv h1
            exact ⟨b, b', bs, _, hb, h2, rfl, rfl, rfl, rfl, rfl, fun _ => ⟨rfl, ho, rfl⟩, fun hn => (hn hk).elim⟩

/-! ## Nodes -/

/-- `L` holds of everything but operators. -/
def Lenient (L : Node → Prop) : Prop := ∀ n, isOperator n.ctor = false → L n

def operatorBuild : Act → Bool
  | .build _ c _ => isOperator c
  | _ => false

theorem build_leafy {L : Node → Prop} {c : Ctor} {args : List (Option Ref)} {x : Mach × Ref}
    (hx : ∀ N k, m.prev = some k → Node.ctor N = c → N.ref = x.2 → N.range = ⟨k.rstart, k.rstop⟩ →
      N.children = k.children →
      (c.terminal = none → N.args = args ∧ Mach.takeOps c k m.ops = .ok (N.ops, x.1.ops) ∧
        N.seq = if c.checks.2 = .none then [] else k.seq) → L N)
    (h : Mach.build env c args m = .ok x) (hl : Leafy L m) : Leafy L x.1 := by
  obtain ⟨k, b, bs, N, h1, h2, h3, h4, h5, h6, h7, h8, h9⟩ := build_full h
  rw [h7]
  refine ⟨?_, by simp⟩
  intro b' hb'
  rcases List.mem_cons.1 hb' with rfl | hb'
  · intro y hy
    rcases List.mem_append.1 hy with hy | hy
    · exact hl.blocks b (by rw [h2]; simp) y hy
    · rw [List.mem_singleton] at hy
      subst hy
      refine .mk (hx _ k h1 h3 h4 h5 h6 h8) fun c hc => ?_
      rw [h6] at hc
      exact hl.prev k h1 c hc
  · exact hl.blocks b' (by rw [h2]; simp [hb'])

theorem act_leafy {L : Node → Prop} (hL : Lenient L) {a : Act} (ha : operatorBuild a = false)
    (h : Mach.act env a p m = .ok m') (hl : Leafy L m) : Leafy L m' := by
  cases a <;> simp only [Mach.act] at h
  case blockStart =>
    obtain ⟨x, -, rfl⟩ := blockStart_inv h
    refine ⟨?_, by simp⟩
    intro b hb
    rcases List.mem_cons.1 hb with rfl | hb
    · intro n hn; cases hn
    · exact hl.blocks b hb
  case blockEnd =>
    simp only [Mach.blockEnd] at h
    obtain ⟨⟨c, cs⟩, hp, h⟩ := bind_ok h
    cases h
    obtain ⟨b, b', bs, x, e1, e2, rfl, rfl, -⟩ := blockPop_inv hp
    refine ⟨fun y hy => hl.blocks y (by rw [e1]; exact List.mem_cons_of_mem _ hy), ?_⟩
    rintro y ⟨⟩ n hn
    exact hl.blocks b (by rw [e1]; simp) n hn
  case blockReplace =>
    simp only [Mach.blockReplace] at h
    obtain ⟨⟨c, cs⟩, hp, h⟩ := bind_ok h
    cases h
    obtain ⟨b, b', bs, x, e1, e2, rfl, rfl, -⟩ := blockPop_inv hp
    refine ⟨fun y hy => ?_, ?_⟩
    · rcases List.mem_cons.1 hy with rfl | hy
      · intro n hn; cases hn
      · exact hl.blocks y (by rw [e1]; exact List.mem_cons_of_mem _ hy)
    · rintro y ⟨⟩ n hn
      exact hl.blocks b (by rw [e1]; simp) n hn
  case blockMerge =>
    simp only [Mach.blockMerge] at h
    obtain ⟨⟨c, cs⟩, hp, h⟩ := bind_ok h
    obtain ⟨b, b', bs, x, e1, e2, rfl, rfl, -⟩ := blockPop_inv hp
    simp only at h
    split at h
    · cases h
      refine ⟨fun y hy => hl.blocks y (by rw [e1]; exact List.mem_cons_of_mem _ hy), ?_⟩
      rintro y ⟨⟩ n hn
      exact hl.blocks b (by rw [e1]; simp) n hn
    · cases h
      refine ⟨fun y hy => ?_, ?_⟩
      · rcases List.mem_cons.1 hy with rfl | hy
        · intro n hn
          rcases List.mem_append.1 hn with hn | hn
          · exact hl.blocks b' (by rw [e1]; simp) n hn
          · exact hl.blocks b (by rw [e1]; simp) n hn
        · exact hl.blocks y (by rw [e1]; simp [hy])
      · rintro y ⟨⟩ n hn
        cases hn
  case eof => cases h; exact hl.same rfl rfl
  case result i =>
    cases i with
    | none => cases h; exact hl.same rfl rfl
    | some i =>
      obtain ⟨v, -, h⟩ := bind_ok h
      cases h; exact hl.same rfl rfl
  case finished =>
    obtain ⟨v, -, h⟩ := bind_ok h
    cases h; exact hl.same rfl rfl
  case seqAdd vs =>
    obtain ⟨h1, -, h2⟩ := seqAdds_blocks h
    rcases h2 with h2 | ⟨b, bs, s, h2, h3⟩
    · exact hl.same h2 h1
    · refine ⟨?_, by rw [h1]; exact hl.prev⟩
      rw [h3]
      intro y hy
      rcases List.mem_cons.1 hy with rfl | hy
      · exact hl.blocks b (by rw [h2]; simp)
      · exact hl.blocks y (by rw [h2]; simp [hy])
  case copy i =>
    obtain ⟨v, -, h⟩ := bind_ok h
    cases h; exact hl.same rfl rfl
  case null => cases h; exact hl.same rfl rfl
  case build d c args =>
    obtain ⟨vs, -, h⟩ := bind_ok h
    obtain ⟨x, hx, h⟩ := bind_ok h
    have := build_leafy (fun N k _ hc _ _ _ _ => hL N (by rw [hc]; exact ha)) hx hl
    have ha := assign_blocks h
    exact this.same ha.1 ha.2.1
  case aliasUnless e i =>
    obtain ⟨v, -, h⟩ := bind_ok h
    have key : ∀ x, Mach.build env .blockIdentifier [] m = .ok x → x.1.setVar i (some x.2) = .ok m' →
        Leafy L m' := by
      intro x hx hs
      have := build_leafy (fun N k _ hc _ _ _ _ => hL N (by rw [hc]; rfl)) hx hl
      have ha := setVar_blocks hs
      exact this.same ha.1 ha.2.1
    split at h
    · split at h
      · cases h; exact hl
      · obtain ⟨x, hx, h⟩ := bind_ok h
        exact key x hx h
    · obtain ⟨x, hx, h⟩ := bind_ok h
      exact key x hx h
  case sbReset => cases h; exact hl.same rfl rfl
  case sbAppend => cases h; exact hl.same rfl rfl
  case sbAppendBlock =>
    split at h
    · cases h
    · rename_i b hb
      obtain ⟨t, -, h⟩ := bind_ok h
      cases h; exact hl.same rfl rfl
  case opPush => cases h; exact hl.same rfl rfl

end
end Verif.Cypher
