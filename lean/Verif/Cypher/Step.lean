import Verif.Cypher.Leaves
import Verif.Cypher.OpMain
import Verif.Cypher.FieldsTable
import Verif.Cypher.AbsTable
/-!
# One call of `parse_one`

Matching (`Match.lean`), the run of the actions (`AbsEval.lean`, `Nesting.lean`) and the ending
(`Ending.lean`) put together.
-/
namespace Verif.Cypher
open Verif.Peg

variable {σ : Type}

/-! ## Where errors are -/

/-- The tracker's positions lie in the buffer; contexts are still to be filled in. -/
structure ErrIn (off : Pos) (len : Nat) (et : ErrTrack) : Prop where
  noted : et.labels ≠ [] → off.offset ≤ et.lastPosition.offset ∧ et.lastPosition.offset ≤ off.offset + len
  errs : ∀ e ∈ et.errors, e.context = none ∧ off.offset ≤ e.position.offset ∧
    e.position.offset ≤ off.offset + len

theorem ErrIn.mono {off : Pos} {len len' : Nat} {et : ErrTrack} (h : ErrIn off len et) (hl : len ≤ len') :
    ErrIn off len' et :=
  ⟨fun hn => ⟨(h.noted hn).1, by have := (h.noted hn).2; omega⟩,
    fun e he => ⟨(h.errs e he).1, (h.errs e he).2.1, by have := (h.errs e he).2.2; omega⟩⟩

theorem ErrIn.note {off : Pos} {len : Nat} {et et' : ErrTrack} (h : ErrIn off len et) {pos : Pos}
    (h1 : off.offset ≤ pos.offset) (h2 : pos.offset ≤ off.offset + len) {c : UInt8} {l : List UInt8}
    (hn : et.note pos c l = .ok et') : ErrIn off len et' := by
  unfold ErrTrack.note at hn
  split at hn
  · cases hn; exact h
  · by_cases h0 : et.labels.length = 0 ∨ pos.offset > et.lastPosition.offset
    · simp only [h0, if_true, List.length_nil, ne_eq, not_true_eq_false, false_and, if_false,
        List.not_mem_nil] at hn
      cases hn
      exact ⟨fun _ => ⟨h1, h2⟩, h.errs⟩
    · simp only [h0, if_false] at hn
      simp only [not_or] at h0
      have hne : et.labels ≠ [] := fun e => h0.1 (by simp [e])
      split at hn
      · cases hn
      · split at hn
        · cases hn; exact h
        · cases hn; exact ⟨fun _ => h.noted hne, h.errs⟩

theorem ErrIn.reify {off : Pos} {len : Nat} {et et' : ErrTrack} (h : ErrIn off len et)
    (hn : et.reify = .ok et') : ErrIn off len et' := by
  unfold ErrTrack.reify at hn
  split at hn
  · cases hn; exact h
  · rename_i hl
    have hne : et.labels ≠ [] := fun e => hl (by simp [e])
    simp only at hn
    split at hn
    · cases hn
    · cases hn
      refine ⟨fun hc => absurd rfl hc, fun e he => ?_⟩
      rcases List.mem_append.1 he with he | he
      · exact h.errs e he
      · simp only [List.mem_singleton] at he
        subst he
        exact ⟨rfl, h.noted hne⟩

theorem inputPosition_offset {off : Pos} {L : List Nat} {p : Nat} {x : Pos}
    (h : inputPosition off L p = .ok x) : x.offset = p + off.offset := by
  unfold inputPosition at h
  split at h
  · cases h
  · cases h; rfl

/-- After matching the errors recorded are in the buffer. -/
theorem match_errs {S : Source σ} {D : Reader σ → List UInt8 → Prop} (hf : Feeds S D)
    (only : Bool) {w : List UInt8} {r : Reader σ} (hi : r.At D w 0) {st : CState}
    (hst : Fresh st) {s : St Act (Reader σ × CState)}
    (h : Eval grammar (chost S) (.nt (startRule only) none) ⟨0, [], (r, st)⟩ (.ok s)) :
    ErrIn st.off s.g.1.buf.length s.g.2.errs ∧ (w = [] → s.g.2.errs.errors = []) ∧
      s.g.2.errs.colorization = st.errs.colorization := by
  have hr := hf.readsAs w (cpred (σ := σ))
  let Q : Reader σ × CState → Prop := fun g => g.2.off = st.off ∧
    ErrIn st.off g.1.buf.length g.2.errs ∧ (w = [] → g.2.errs.errors = []) ∧
      g.2.errs.colorization = st.errs.colorization
  have hpk : ∀ p g, Q g → Q ((chost S).peek p g).2 := fun p g h =>
    ⟨h.1, h.2.1.mono (Reader.peek_grows p g.1), h.2.2⟩
  have hpred : ∀ x p g, Called grammar (chost S) (.nt (startRule only) none) ⟨0, [], (r, st)⟩ x p g →
      Q g → ∀ b g' ts, (chost S).pred x p g = .ok (b, g', ts) → Q g' := by
    intro x p g hc hQ b g' ts hp
    obtain ⟨h1, h2⟩ := chost_pred hp
    obtain ⟨-, hat⟩ := hc.good hr hi
    have hat := hat.pos_le
    cases x with
    | err l =>
      simp only [cpred] at h1
      split at h1
      · cases h1
      · rename_i pos hpos
        have hoff := inputPosition_offset hpos
        rw [hQ.1] at hoff
        split at h1
        · rename_i et' hn
          simp only [Except.ok.injEq, Prod.mk.injEq] at h1
          obtain ⟨-, h1, -⟩ := h1
          have hE : et'.errors = g.2.errs.errors ∧ et'.colorization = g.2.errs.colorization := by
              unfold ErrTrack.note at hn
              split at hn
              · cases hn; exact ⟨rfl, rfl⟩
              · by_cases h0 : g.2.errs.labels.length = 0 ∨ pos.offset > g.2.errs.lastPosition.offset
                · simp only [h0, if_true, List.length_nil, ne_eq, not_true_eq_false, false_and, if_false,
                    List.not_mem_nil] at hn
                  cases hn; exact ⟨rfl, rfl⟩
                · simp only [h0, if_false] at hn
                  split at hn
                  · cases hn
                  · split at hn <;> cases hn <;> exact ⟨rfl, rfl⟩
          refine ⟨by rw [← h1]; exact hQ.1, ?_, fun hw => ?_, ?_⟩
          · rw [← h1, h2]; exact hQ.2.1.note (by omega) (by omega) hn
          · rw [← h1]
            exact hE.1.trans (hQ.2.2.1 hw)
          · rw [← h1]
            exact hE.2.trans hQ.2.2.2
        · cases h1
    | recordError =>
      have hl : w = [] → False := by
        intro hw
        have := calm_called hr hc hi (by rw [hw]; rfl) (by cases only <;> decide +kernel)
        cases this
      simp only [cpred] at h1
      split at h1
      · rename_i et' hn
        simp only [Except.ok.injEq, Prod.mk.injEq] at h1
        obtain ⟨-, h1, -⟩ := h1
        refine ⟨by rw [← h1]; exact hQ.1, by rw [← h1, h2]; exact hQ.2.1.reify hn, fun hw => (hl hw).elim, ?_⟩
        rw [← h1]
        refine Eq.trans ?_ hQ.2.2.2
        show et'.colorization = _
        unfold ErrTrack.reify at hn
        split at hn
        · cases hn; rfl
        · simp only at hn
          split at hn <;> cases hn
          rfl
      · cases h1
    | _ =>
      simp only [cpred] at h1
      (try split at h1) <;>
        simp only [Except.ok.injEq, Prod.mk.injEq, reduceCtorEq] at h1 <;>
        (obtain ⟨-, h1, -⟩ := h1
         exact ⟨by rw [← h1]; exact hQ.1, by rw [← h1, h2]; exact hQ.2.1, by rw [← h1]; exact hQ.2.2⟩)
  have hQ0 : Q (r, st) := ⟨rfl, ⟨fun hn => absurd hst.labels hn, by simp [hst.errors]⟩,
    fun _ => hst.errors, rfl⟩
  have := h.pres hpk hpred hQ0 _ rfl
  exact this.2

/-! ## One call -/

/-- The context before a call. -/
structure Ready (c : PCtx σ) : Prop where
  fresh : Fresh c.st
  precs : c.st.precs = []
  blocks : ∃ b, c.mach.blocks = [b] ∧ b.children = [] ∧ b.seq = []
  prev : c.mach.prev = none
  ops : c.mach.ops = []

/-- A comment begins somewhere. -/
def Commented (w : List UInt8) : Prop := ∃ p, w.extract p (p + 2) = [47, 47] ∨ w.extract p (p + 2) = [47, 42]

/-- What a successful call does to the context, reading `w`. -/
structure Parsed (D : Reader σ → List UInt8 → Prop) (only : Bool) (w : List UInt8) (c c' : PCtx σ)
    (n : Nat) (roots : List Node) : Prop where
  reader : c'.reader.At D (w.drop n) 0
  len : n ≤ w.length
  progress : w ≠ [] → 0 < n
  consumed : c'.mach.consumed = n
  off : c'.st.off = c.st.off
  zero : 0 ∈ c'.st.lines
  precs : c'.st.precs = []
  labels : c'.st.errs.labels = []
  color : c'.st.errs.colorization = c.st.errs.colorization
  blocks : ∃ b, c'.mach.blocks = [b] ∧ b.children = roots ∧ b.seq = []
  prev : c'.mach.prev = none
  ops : c'.mach.ops = []
  typed : ∀ n ∈ roots, WellTyped n
  result : ∀ r, c'.mach.result = some r → (∃ n ∈ roots, n.ref = r) ∧
    (r.ty = .statement ∨ (only = false ∧ r.ty = .command))
  eof : c'.mach.eof = true → n = w.length
  ending : c'.mach.eof = false → w[n - 1]? = some 59 ∨ (only = false ∧ w[n - 1]? = some 10)
  nothing : w = [] → c'.mach.result = none ∧ c'.st.errs.errors = [] ∧ c'.mach.eof = true
  kids : ∃ env : Env, env.off = c.st.off ∧ env.lines = c'.st.lines ∧ Kids env 0 n roots
  lines : 96 ∉ w → LInv w n c'.st.lines
  errs : ∃ es buf, (∃ rest, w = buf ++ rest) ∧ n ≤ buf.length ∧
    ErrIn c.st.off buf.length { c.st.errs with errors := es, labels := [] } ∧
    Filled ⟨c.st.off, c'.st.lines, buf, n⟩ es c'.st.errs.errors ∧
    (96 ∉ w → ∃ et, et.errors = es ∧ et.colorization = c.st.errs.colorization ∧ ErrInv c.st.off w et)
  numbered : Numbered c.mach → Numbered c'.mach
  leaves : ∀ x ∈ roots, Everywhere (Written w c.st.off.offset) x
  operators : ∀ x ∈ roots, Everywhere (Ops.OperatorOk w c.st.off.offset) x
  fields : Numbered c.mach → ∀ x ∈ roots, Everywhere Exact x

/-- What the abstract run says of a whole call. -/
def finalA (only : Bool) : Abs :=
  ⟨[], .unk, [⟨false, 0, .empty, false⟩], .keep, some 0, some 8, none,
    bif only then bit .statement else bit .statement ||| bit .command, true⟩

theorem final_lax (only : Bool) : tr lax sumT (.nt (startRule only) none) (.init 0) = some (some (finalA only)) := by
  cases only <;> decide +kernel

theorem final_strict (only : Bool) :
    tr strict strictT (.nt (startRule only) none) (.init 0) = some (some (finalA only)) := by
  cases only <;> decide +kernel

/-- The actions run to the end, unless a comment is in the way. -/
theorem exec_safe {S : Source σ} {w : List UInt8} {I : Nat → Reader σ × CState → Prop}
    (hr : ReadsAs (chost S) w I) (only : Bool) {s s' : St Act (Reader σ × CState)}
    (h : Eval grammar (chost S) (.nt (startRule only) none) s (.ok s')) (hi : I s.pos s.g)
    (hs : s.thunks = []) {env : Env} (he : EnvOk env) (hl : s'.pos ≤ env.buf.length) {m : Mach}
    {b : Block} {bs : List Block} (hb : m.blocks = b :: bs) (hc : Clean m.prev)
    (herr : ErrsOk env m.errs) :
    (Mach.exec env s'.thunks m = .error .terminalChildren ∧ Commented w) ∨
      ∃ m', Mach.exec env s'.thunks m = .ok m' ∧ G env m (finalA only) s'.pos m' := by
  obtain ⟨m1, e1, g1⟩ := enter_sound (env := env) (m := m) (p := s.pos) hb hc herr 0
  cases e1
  by_cases hw : Commented w
  · obtain ⟨A', hA, ts, h1, h2⟩ := tr_sound hr sumT_ok (by simp [lax]) h hi s' rfl _ _ (final_lax only)
    cases hA
    rw [hs, List.append_nil] at h1
    rw [h1]
    have := h2 env m m he hl g1
    unfold Safe at this
    split at this
    · rename_i m' hm; exact .inr ⟨m', hm, this⟩
    · rename_i c hm; exact .inl ⟨by rw [hm, this.2], hw⟩
  · obtain ⟨A', hA, ts, h1, h2⟩ := tr_sound hr strictT_ok (by
      intro l hl p hp
      simp only [strict, List.mem_cons, List.not_mem_nil, or_false] at hl
      rcases hl with rfl | rfl
      · exact hw ⟨p, .inl hp⟩
      · exact hw ⟨p, .inr hp⟩) h hi s' rfl _ _ (final_strict only)
    cases hA
    rw [hs, List.append_nil] at h1
    rw [h1]
    have := h2 env m m he hl g1
    unfold Safe at this
    split at this
    · rename_i m' hm; exact .inr ⟨m', hm, this⟩
    · simp [strict] at this

theorem last_directive {c : UInt8} (only : Bool)
    (h : (lastT (startRule only)).mask.testBit c.toNat = true) : c = 59 ∨ (only = false ∧ c = 10) := by
  have key : ∀ b : Bool, ∀ n : Fin 256, (lastT (startRule b)).mask.testBit n = true →
      n = 59 ∨ (b = false ∧ n = 10) := by decide +kernel
  have hc : ∀ k : Fin 256, (⟨c.toNat, c.toNat_lt⟩ : Fin 256) = k → c = UInt8.ofNat k := by
    intro k hk
    apply UInt8.toNat_inj.1
    rw [← hk]; simp
  rcases key only ⟨c.toNat, c.toNat_lt⟩ h with e | ⟨e1, e⟩
  · exact .inl (hc _ e)
  · exact .inr ⟨e1, hc _ e⟩

theorem hasTy_bit {t : AstType} {r : Ref} (h : HasTy (bit t) r) : r.ty = t := by
  unfold HasTy Cypher.bit at h
  rw [Nat.testBit_two_pow] at h
  exact num_inj _ _ (of_decide_eq_true h).symm

/-- After a successful match the actions run and `parse_one` succeeds, unless a comment is in the way. -/
theorem parseOne_matched {S : Source σ} {D : Reader σ → List UInt8 → Prop} (hf : Feeds S D)
    (only : Bool) {w : List UInt8} {c : PCtx σ} (hi : c.reader.At D w 0) (hc : Ready c)
    {s : St Act (Reader σ × CState)}
    (h : Eval grammar (chost S) (.nt (startRule only) none) ⟨0, [], (c.reader, c.st)⟩ (.ok s))
    (hm : Matched D w c.st s)
    (hq : 96 ∉ w → LInv w s.pos s.g.2.lines ∧ ErrInv c.st.off w s.g.2.errs) :
    ∃ fuel0 r, (∀ fuel, fuel0 ≤ fuel → parseOne S fuel (startRule only) c = some r) ∧
      (r = .error (.crash .terminalChildren) ∧ Commented w ∨
        ∃ c' roots, r = .ok c' ∧ Parsed D only w c c' s.pos roots) := by
  have hr := hf.readsAs w (cpred (σ := σ))
  obtain ⟨fuel0, hrun⟩ := Eval.to_run h
  have hrun : ∀ fuel, fuel0 ≤ fuel → run grammar (chost S) fuel (.nt (startRule only) none)
      ⟨0, [], (c.reader, c.st)⟩ = some (.ok s) := fun fuel hle => run_mono _ _ _ _ hrun _ hle
  obtain ⟨b0, hb0, hb1, hb2⟩ := hc.blocks
  obtain ⟨hein, hnil, hcol⟩ := match_errs hf only hi hc.fresh h
  have hlen : s.pos ≤ s.g.1.buf.length := hm.at_.pos_le
  obtain ⟨rest, hrest, -⟩ := hm.at_.rest
  have hns : s.pos ≤ w.length := by rw [hrest, List.length_append]; omega
  have hbuf : s.g.2.errs.errors ≠ [] → s.g.1.buf ≠ [] := by
    intro he hb
    have : s.pos = 0 := by rw [hb] at hlen; simpa using hlen
    have hw : w ≠ [] := fun hw => he (hnil hw)
    have := hm.progress hw
    omega
  generalize henv : (⟨s.g.2.off, s.g.2.lines, s.g.1.buf, s.pos⟩ : Env) = env
  have eoff : env.off = c.st.off := by rw [← henv]; exact hm.off
  have elines : env.lines = s.g.2.lines := by rw [← henv]
  have ebuf : env.buf = s.g.1.buf := by rw [← henv]
  have epos : env.pos = s.pos := by rw [← henv]
  generalize hm0 : ({ c.mach with result := none, eof := false, frames := [], errs := s.g.2.errs.errors } : Mach) = m0
  have hmb : m0.blocks = b0 :: [] := by rw [← hm0]; exact hb0
  have hmp : m0.prev = none := by rw [← hm0]; exact hc.prev
  have hmo : m0.ops = [] := by rw [← hm0]; exact hc.ops
  have hmr : m0.result = none := by rw [← hm0]
  have hme : m0.eof = false := by rw [← hm0]
  have hms : m0.errs = s.g.2.errs.errors := by rw [← hm0]
  have herr : ErrsOk env m0.errs := by
    intro e he hn
    rw [hms] at he
    obtain ⟨-, g1, g2⟩ := hein.errs e he
    rw [ebuf, eoff]
    exact ⟨hbuf (List.ne_nil_of_mem he), g1, by omega⟩
  have hps : ∀ fuel, fuel0 ≤ fuel → parseOne S fuel (startRule only) c = some (finishOne c s) := by
    intro fuel hle
    unfold parseOne
    rw [hrun fuel hle]
  refine ⟨fuel0, _, hps, ?_⟩
  unfold finishOne
  rw [henv, hm0]
  rcases exec_safe hr only h hi rfl (env := env) (m := m0) (by rw [EnvOk, elines]; exact hm.zero)
    (by rw [ebuf]; exact hlen) hmb (by intro b hb; rw [hmp] at hb; cases hb) herr with ⟨e1, e2⟩ | ⟨m, e1, b1, bs1, Ds, xs, hg⟩
  · rw [e1]; exact .inl ⟨rfl, e2⟩
  · have hst := hg.blks
    obtain ⟨d, rfl, hbk, hbl⟩ := hst
    have hent := hg.entry
    rw [hmb] at hent
    cases hent
    have hseq : d.2 = [] := by
      have := hg.ops 0 rfl
      have h2 := hg.dif 8 rfl d rfl
      exact List.eq_nil_of_length_eq_zero (by omega)
    have hops : m.ops = [] := by
      have := List.eq_nil_of_length_eq_zero (hg.ops 0 rfl)
      rw [hg.stack, this, hmo]; rfl
    have hprev : m.prev = none := by
      rcases hg.prev with e | e
      · rw [e, hmp]
      · exact e
    have hprecs : s.g.2.precs = [] := by rw [hm.precs]; exact hc.precs
    rw [hb1, hb2, hseq] at hbl
    simp only [List.nil_append] at hbl
    right
    refine ⟨⟨s.g.1.commit s.pos,
      { s.g.2 with errs := ({ s.g.2.errs with errors := m.errs }).clearPotentials }, m⟩, d.1, ?_, ?_⟩
    · rw [e1]
      simp only [hbl]
      rw [if_pos ⟨trivial, by rw [hprev]; rfl, hops, hprecs⟩]
    · have hfin : ∃ p, .act .finished p ∈ s.thunks :=
        must_sound hr finT_ok h hi (by cases only <;> rfl) s rfl
      have hcons : m.consumed = s.pos := (hg.fin rfl).trans epos
      obtain ⟨ts, hts, hmono⟩ := thunks_mono hr h hi s rfl
      simp only [List.append_nil] at hts
      have heof := exec_eof e1
      have hends := last_sound hr lastT_ok h hi s rfl
      have hcn : ∀ e ∈ m0.errs, e.context = none := fun e he => (hein.errs e (hms ▸ he)).1
      have hfill : Filled env m0.errs m.errs := by
        rcases exec_errs hcn e1 with ⟨-, hn⟩ | ⟨-, hfl⟩
        · obtain ⟨p, hp⟩ := hfin; exact absurd hp (hn p)
        · exact hfl
      have hshape : Shaped env s.pos m := by
        refine exec_shaped (lo := 0) ⟨0, b0, [], hmb, ⟨Nat.le_refl _, by rw [hb1]; exact .nil _ _ _⟩,
          fun q hq => by rw [hmp] at hq; cases hq⟩ (hts ▸ hmono) e1
      obtain ⟨k, b, bs, hs1, hs2, -⟩ := hshape
      rw [hbl] at hs1
      cases hs1
      refine {
        reader := hm.at_.commit hf
        len := hns
        progress := hm.progress
        consumed := hcons
        off := hm.off
        zero := hm.zero
        precs := hprecs
        labels := rfl
        color := hcol
        blocks := ⟨_, hbl, rfl, rfl⟩
        prev := hprev
        ops := hops
        typed := hbk.wt
        result := fun r hr => ?_
        eof := fun he => ?_
        ending := fun he => ?_
        nothing := fun hw => ?_
        kids := ⟨env, eoff, elines, hs2.kids.mono (Nat.zero_le _) (Nat.le_refl _)⟩
        lines := fun hw => (hq hw).1
        errs := ⟨m0.errs, s.g.1.buf, ⟨rest, hrest⟩, hlen, ?_, ?_, fun hw => ?_⟩
        numbered := fun hn => ?_
        leaves := fun x hx => ?_
        operators := fun x hx => ?_
        fields := fun hn x hx => ?_ }
      · rcases hg.res with e | e | ⟨r', x, e, ht, hx, hmem⟩
        · simp only at hr; rw [e, hmr] at hr; cases hr
        · simp only at hr; rw [e] at hr; cases hr
        · simp only at hr
          rw [e] at hr
          cases hr
          cases hx
          refine ⟨hmem, ?_⟩
          cases only with
          | true => exact .inl (hasTy_bit ht)
          | false =>
            rcases ht.or with ht | ht
            · exact .inl (hasTy_bit ht)
            · exact .inr ⟨rfl, hasTy_bit ht⟩
      · obtain h1 | ⟨p, hp⟩ := heof.1 he
        · rw [hme] at h1; cases h1
        · rcases eof_at_end hr h (by cases only <;> rfl) hi s rfl p hp with h2 | h2
          · cases h2
          · have := (hmono.mem (hts ▸ hp)).2
            omega
      · have hne : ¬ ∃ p, .act .eof p ∈ s.thunks := by
          intro hp
          have h1 := heof.2 (.inr hp)
          simp only at he
          rw [h1] at he; cases he
        rcases hends with e | ⟨e, -⟩ | ⟨-, ch, e2, e3⟩
        · exact absurd e hne
        · cases only <;> cases e
        · rcases last_directive only e3 with rfl | ⟨h1, rfl⟩
          · exact .inl e2
          · exact .inr ⟨h1, e2⟩
      · have hz : s.pos = 0 := by rw [hw] at hns; simpa using hns
        refine ⟨exec_no_result hmr e1 fun i p hp => ?_, ?_, ?_⟩
        · have := calm_ok hr h hi (by rw [hw]; rfl) (by cases only <;> decide +kernel) s rfl _ p rfl hp
          cases this
        · have h1 := hnil hw
          rw [hms, h1] at hfill
          have : m.errs = [] := by
            cases hme : m.errs with
            | nil => rfl
            | cons a as => rw [hme] at hfill; exact hfill.elim
          show m.errs = []
          exact this
        · rcases hends with e | ⟨e, -⟩ | ⟨e, -⟩
          · exact heof.2 (.inr e)
          · cases only <;> cases e
          · simp only at e; omega
      · exact ⟨fun hn => absurd rfl hn, fun e he => hein.errs e (hms ▸ he)⟩
      · have : (⟨c.st.off, s.g.2.lines, s.g.1.buf, s.pos⟩ : Env) = env := by rw [← henv, hm.off]
        show Filled ⟨c.st.off, s.g.2.lines, s.g.1.buf, s.pos⟩ m0.errs m.errs
        rw [this]; exact hfill
      · exact ⟨s.g.2.errs, hms.symm, hcol, (hq hw).2⟩
      · refine exec_numbered ?_ e1
        rw [← hm0]
        exact ⟨hn.nodup, hn.lt⟩
      · obtain ⟨us, hus, hsk⟩ := Sk.of_eval hr h hi
        simp only [List.append_nil] at hus
        have hk := rule_calm (env := env) (w := w) ⟨rest, by rw [ebuf]; exact hrest⟩
          (by cases only <;> decide) hsk m0 m (hus ▸ e1)
          ⟨fun b hb n hn => by
            rw [hmb, List.mem_singleton] at hb
            rw [hb, hb1] at hn; exact absurd hn List.not_mem_nil, fun b hb => by rw [hmp] at hb; cases hb⟩
        rw [← eoff]
        exact (hk.leafy.blocks _ (by rw [hbl]; exact List.mem_singleton.2 rfl) x hx).imp fun _ h => h.written
      · obtain ⟨us, hus, hsk⟩ := Sk.of_eval hr h hi
        simp only [List.append_nil] at hus
        have hk := rule_operators (env := env) (w := w) (m := m0) (m' := m) (by rw [EnvOk, elines]; exact hm.zero)
          (by cases only <;> decide) hsk (by rw [ebuf]; exact hlen) hmb
          ⟨fun b hb => (by rw [hmp] at hb; cases hb), herr⟩
          ⟨fun b hb n hn => by
            rw [hmb, List.mem_singleton] at hb
            rw [hb, hb1] at hn; exact absurd hn List.not_mem_nil, fun b hb => by rw [hmp] at hb; cases hb⟩
          (hus ▸ e1)
        rw [← eoff]
        exact hk.blocks _ (by rw [hbl]; exact List.mem_singleton.2 rfl) x hx
      · obtain ⟨us, hus, hsk⟩ := Sk.of_eval hr h hi
        simp only [List.append_nil] at hus
        have hk := rule_exact (env := env) (w := w) (m := m0) (m' := m) (by cases only <;> rfl) hsk hmb
          (by rw [← hm0]; exact ⟨hn.nodup, hn.lt⟩)
          ⟨fun b hb n hn => by
            rw [hmb, List.mem_singleton] at hb
            rw [hb, hb1] at hn; exact absurd hn List.not_mem_nil, fun b hb => by rw [hmp] at hb; cases hb⟩
          (hus ▸ e1)
        exact hk.blocks _ (by rw [hbl]; exact List.mem_singleton.2 rfl) x hx

/-- One call, with the match it comes from. -/
theorem parseOne_eval {S : Source σ} {D : Reader σ → List UInt8 → Prop} (hf : Feeds S D)
    (only : Bool) {w : List UInt8} {c : PCtx σ} (hi : c.reader.At D w 0) (hc : Ready c) :
    ∃ fuel0 r, (∀ fuel, fuel0 ≤ fuel → parseOne S fuel (startRule only) c = some r) ∧
      (r = .error (.fault .assertion) ∧ 96 ∈ w ∨
        r = .error (.crash .terminalChildren) ∧ Commented w ∨
        ∃ c' s roots, r = .ok c' ∧ Parsed D only w c c' s.pos roots ∧
          Eval grammar (chost S) (.nt (startRule only) none) ⟨0, [], (c.reader, c.st)⟩ (.ok s)) := by
  by_cases hq : 96 ∈ w
  · obtain ⟨res, h, e | ⟨s, rfl, hm⟩⟩ := match_total hf only hi (st := c.st) (by simp [hc.fresh.lines])
    · subst e
      obtain ⟨fuel0, hrun⟩ := Eval.to_run h
      refine ⟨fuel0, _, fun fuel hle => ?_, .inl ⟨rfl, hq⟩⟩
      unfold parseOne
      rw [run_mono _ _ _ _ hrun _ hle]
    · obtain ⟨fuel0, r, h1, h2 | ⟨c', roots, h2, h3⟩⟩ := parseOne_matched hf only hi hc h hm
        (fun h => absurd hq h)
      · exact ⟨fuel0, r, h1, .inr (.inl h2)⟩
      · exact ⟨fuel0, r, h1, .inr (.inr ⟨c', s, roots, h2, h3, h⟩)⟩
  · obtain ⟨s, h, hm, h1, h2, -⟩ := match_ok hf only hq hi hc.fresh
    obtain ⟨fuel0, r, h1, h2 | ⟨c', roots, h2, h3⟩⟩ := parseOne_matched hf only hi hc h hm (fun _ => ⟨h1, h2⟩)
    · exact ⟨fuel0, r, h1, .inr (.inl h2)⟩
    · exact ⟨fuel0, r, h1, .inr (.inr ⟨c', s, roots, h2, h3, h⟩)⟩

/-- One call of `parse_one`. -/
theorem parseOne_spec {S : Source σ} {D : Reader σ → List UInt8 → Prop} (hf : Feeds S D)
    (only : Bool) {w : List UInt8} {c : PCtx σ} (hi : c.reader.At D w 0) (hc : Ready c) :
    ∃ fuel0 r, (∀ fuel, fuel0 ≤ fuel → parseOne S fuel (startRule only) c = some r) ∧
      (r = .error (.fault .assertion) ∧ 96 ∈ w ∨
        r = .error (.crash .terminalChildren) ∧ Commented w ∨
        ∃ c' n roots, r = .ok c' ∧ Parsed D only w c c' n roots) := by
  obtain ⟨f, r, h1, h2⟩ := parseOne_eval hf only hi hc
  refine ⟨f, r, h1, ?_⟩
  rcases h2 with h2 | h2 | ⟨c', s, roots, h2, h3, -⟩
  · exact .inl h2
  · exact .inr (.inl h2)
  · exact .inr (.inr ⟨c', _, roots, h2, h3⟩)

end Verif.Cypher
