import Verif.Cypher.Stack
import Verif.Cypher.Tables
import Verif.Props.Errors
/-!
# Matching never goes wrong

One call of the generated parser on any input: it terminates, succeeds, and consumes something
unless there is nothing left.  When the input has no backquote the stack of line starts is right
wherever it is used, so that the assertions of `cp_et_note_potential_error` hold.
-/
namespace Verif.Cypher
open Verif.Peg

variable {σ : Type}

theorem chost_preds (S : Source σ) : PredsAs (chost S) predT := by
  intro x p g b g' ts h
  refine ⟨fun hb => ?_, fun hb => ?_⟩
  · cases x <;> try rfl
    have := (chost_pred h).1
    simp only [cpred, Except.ok.injEq, Prod.mk.injEq] at this
    rw [← this.1] at hb; simp at hb
  · by_contra hc
    have hs : x.sure = true := by cases x <;> first | rfl | exact absurd rfl hc
    have := cpred_sure hs (chost_pred h).1
    rw [hb] at this; simp at this

theorem chost_sure {S : Source σ} : ∀ x p (g : Reader σ × CState) b g' ts, Pred.sure x = true →
    (chost S).pred x p g = .ok (b, g', ts) → b = true :=
  fun _ _ _ _ _ _ hx h => cpred_sure hx (chost_pred h).1

theorem chost_lines (S : Source σ) : LineHost (chost S) (fun g => g.2.lines) kindT := by
  constructor
  · intro p g; rfl
  · intro x p g b g' ts h
    have := (chost_pred h).1
    cases x <;> simp only [cpred] at this <;> (try split at this) <;> (try split at this) <;>
      simp only [Except.ok.injEq, Prod.mk.injEq, reduceCtorEq] at this <;>
      obtain ⟨-, h2, -⟩ := this <;> rw [← h2] <;> rfl
  · intro x p g b g' ts hx h
    have := (chost_pred h).1
    cases x <;> simp_all [kindT, cpred]

/-! ## What is read before an error is noted -/

/-- Whether a rule's failure, and its success without moving, imply that the byte at its start has
been looked at. -/
def readT : Rule → Bool × Bool
  | .r__block_start_ | .r__block_end_ | .r__block_replace_ | .r__block_merge_ | .r__empty_
  | .r__null_ | .r__cut_ | .r__line_start_ | .r__error_ => (true, false)
  | .r__none_ => (false, false)
  | _ => (true, true)

def Pred.isErr : Pred → Bool
  | .err _ => true
  | _ => false

theorem readOk_all : ∀ r, ((readT r).1 = true → (pkOf readT Pred.sure (grammar r).body).fs = true) ∧
    ((readT r).2 = true → (pkOf readT Pred.sure (grammar r).body).os = true) := by
  have h : ∀ r ∈ Rule.all, ((readT r).1 = true → (pkOf readT Pred.sure (grammar r).body).fs = true) ∧
      ((readT r).2 = true → (pkOf readT Pred.sure (grammar r).body).os = true) := by decide +kernel
  exact fun r => h r (Rule.mem_all r)

theorem pkOk_all : ∀ r, pkOk readT Pred.sure Pred.isErr (grammar r).body = true := by
  have h : ∀ r ∈ Rule.all, pkOk readT Pred.sure Pred.isErr (grammar r).body = true := by decide +kernel
  exact fun r => h r (Rule.mem_all r)

/-- The byte at `p` is in the buffer, or there is none. -/
def Seen (w : List UInt8) (p : Nat) (g : Reader σ × CState) : Prop :=
  p < g.1.buf.length ∨ w.length ≤ p

theorem Reader.peek_grows {S : Source σ} (p : Nat) (r : Reader σ) :
    r.buf.length ≤ (r.peek S p).2.buf.length := by
  unfold Reader.peek
  split
  · unfold Reader.refill
    simp only
    split
    · rename_i heq
      split at heq <;> simp_all
      obtain ⟨rfl⟩ := heq
      simp
    · rename_i heq
      split at heq <;> simp_all
      obtain ⟨rfl⟩ := heq
      simp
  · exact Nat.le_refl _

theorem readHost {S : Source σ} {D : Reader σ → List UInt8 → Prop} (hf : Feeds S D)
    (w : List UInt8) : ReadHost (chost S) w (fun p g => g.1.At D w p) (Seen w) := by
  have hr := hf.readsAs w (cpred (σ := σ))
  refine ⟨?_, ?_, ?_⟩
  · intro p g hi
    rcases Nat.lt_or_ge p w.length with hlt | hge
    · have := hr.next hi hlt
      exact Or.inl this.1
    · exact Or.inr hge
  · intro p q g _ hk
    rcases hk with hk | hk
    · exact Or.inl (Nat.lt_of_lt_of_le hk (Reader.peek_grows q g.1))
    · exact Or.inr hk
  · intro x p q g b g' ts hk hp
    have := (chost_pred hp).2
    unfold Seen
    rw [this]; exact hk

/-! ## The error tracker -/

/-- The tracker agrees with the input: what it holds is about places in `w`, which starts at
`off`. -/
structure ErrInv (off : Pos) (w : List UInt8) (et : ErrTrack) : Prop where
  noted : et.labels ≠ [] → ∃ q ≤ w.length, et.lastPosition = off.after (w.take q) ∧
    et.lastChar = w[q]?.getD 0
  above : et.labels ≠ [] → et.errors ≠ [] → et.lastErrorOffset < et.lastPosition.offset
  errs : ∀ e ∈ et.errors, ∃ q ≤ w.length, ∃ labels, labels ≠ [] ∧ e =
    PErr.mk (off.after (w.take q)) (messageSpec et.colorization (w[q]?.getD 0) labels) none
  sorted : et.errors.Pairwise (fun a b => a.position.offset < b.position.offset)
  last : ∀ e ∈ et.errors, e.position.offset ≤ et.lastErrorOffset

theorem _root_.Verif.Pos.after_offset (p : Pos) (l : List UInt8) : (p.after l).offset = p.offset + l.length := by
  unfold Pos.after
  induction l generalizing p with
  | nil => rfl
  | cons c l ih =>
    rw [List.foldl_cons, ih]
    unfold Pos.step
    split <;> simp <;> omega

theorem ErrInv.note {off : Pos} {w : List UInt8} {et : ErrTrack} (h : ErrInv off w et) {p : Nat}
    (hp : p ≤ w.length) (label : List UInt8) :
    ∃ et', et.note (off.after (w.take p)) (w[p]?.getD 0) label = .ok et' ∧ ErrInv off w et' ∧
      et'.colorization = et.colorization := by
  unfold ErrTrack.note
  split
  · exact ⟨et, rfl, h, rfl⟩
  · rename_i hc
    simp only [not_or, Nat.not_lt, not_and, Nat.not_le] at hc
    obtain ⟨hc1, hc2⟩ := hc
    by_cases h0 : et.labels.length = 0 ∨ (off.after (w.take p)).offset > et.lastPosition.offset
    · simp only [h0, if_true, List.length_nil, ne_eq, not_true_eq_false, false_and, if_false,
        List.not_mem_nil]
      refine ⟨_, rfl, ⟨fun _ => ⟨p, hp, rfl, rfl⟩, ?_, h.errs, h.sorted, h.last⟩, rfl⟩
      intro _ he
      exact hc2 (List.length_pos_iff.2 he)
    · simp only [h0, if_false]
      simp only [not_or, Nat.not_lt] at h0
      have hne : et.labels ≠ [] := fun e => h0.1 (by simp [e])
      obtain ⟨q, hq, h1, h2⟩ := h.noted hne
      have hpq : p = q := by
        have e1 : (off.after (w.take p)).offset = et.lastPosition.offset := by omega
        rw [h1, Pos.after_offset, Pos.after_offset, List.length_take, List.length_take] at e1
        omega
      subst hpq
      have hok : ¬ (et.labels.length ≠ 0 ∧ ¬ (et.lastPosition.line = (off.after (w.take p)).line ∧
          et.lastPosition.column = (off.after (w.take p)).column ∧ et.lastChar = w[p]?.getD 0)) := by
        rw [h1, h2]; simp
      simp only [hok, if_false]
      split
      · exact ⟨et, rfl, h, rfl⟩
      · exact ⟨_, rfl, ⟨fun _ => ⟨p, hp, h1, h2⟩, fun _ => h.above hne, h.errs, h.sorted, h.last⟩, rfl⟩

theorem ErrInv.reify {off : Pos} {w : List UInt8} {et : ErrTrack} (h : ErrInv off w et) :
    ∃ et', et.reify = .ok et' ∧ ErrInv off w et' ∧ et'.colorization = et.colorization := by
  by_cases hl : et.labels = []
  · exact ⟨et, by simp [ErrTrack.reify, hl], h, rfl⟩
  · obtain ⟨q, hq, h1, h2⟩ := h.noted hl
    obtain ⟨et', h3, h4⟩ := error_message_complete et hl
    have hcol : et'.colorization = et.colorization ∧ et'.labels = [] ∧
        et'.lastErrorOffset = et.lastPosition.offset := by
      unfold ErrTrack.reify at h3
      rw [if_neg (by simpa using hl)] at h3
      simp only at h3
      split at h3
      · simp at h3
      · simp only [Except.ok.injEq] at h3
        subst h3; exact ⟨rfl, rfl, rfl⟩
    have hlast : ∀ e ∈ et.errors, e.position.offset < et.lastPosition.offset := by
      intro e he
      exact Nat.lt_of_le_of_lt (h.last e he) (h.above hl (List.ne_nil_of_mem he))
    refine ⟨et', h3, ⟨fun hn => absurd hcol.2.1 hn, fun hn => absurd hcol.2.1 hn, ?_, ?_, ?_⟩, hcol.1⟩
    · rw [h4, hcol.1]
      intro e he
      rcases List.mem_append.1 he with he | he
      · exact h.errs e he
      · refine ⟨q, hq, et.labels, hl, ?_⟩
        simp only [List.mem_singleton] at he
        rw [he, h1, h2]
    · rw [h4, List.pairwise_append]
      refine ⟨h.sorted, by simp, ?_⟩
      intro a ha b hb
      simp only [List.mem_singleton] at hb
      subst hb
      exact hlast a ha
    · rw [h4, hcol.2.2]
      intro e he
      rcases List.mem_append.1 he with he | he
      · exact Nat.le_of_lt (hlast e he)
      · simp only [List.mem_singleton] at he
        rw [he]; exact Nat.le_refl _

/-- Reporting never goes wrong. -/
theorem reify_ok (et : ErrTrack) : ∃ et', et.reify = .ok et' := by
  by_cases hl : et.labels = []
  · exact ⟨et, by simp [ErrTrack.reify, hl]⟩
  · obtain ⟨et', h, -⟩ := error_message_complete et hl; exact ⟨et', h⟩

/-! ## One call -/

def startRule (onlyStatements : Bool) : Rule := bif onlyStatements then .r_statement else .r_directive

/-- The state of the context when matching begins, apart from the reader. -/
structure Fresh (st : CState) : Prop where
  lines : st.lines = [0]
  errors : st.errs.errors = []
  labels : st.errs.labels = []

theorem Fresh.errInv {st : CState} (h : Fresh st) (w : List UInt8) : ErrInv st.off w st.errs :=
  ⟨fun hn => absurd h.labels hn, fun hn => absurd h.labels hn, by simp [h.errors], by simp [h.errors],
    by simp [h.errors]⟩

theorem cpred_off {x : Pred} {p : Nat} {r : Reader σ} {q q' : CState} {b : Bool}
    {ts : List (Peg.Thunk Act)} (h : cpred x p r q = .ok (b, q', ts)) :
    q'.off = q.off ∧ (0 ∈ q.lines → 0 ∈ q'.lines) := by
  have hb : ∀ L : List Nat, 0 ∈ L → 0 ∈ backtrackL p L := by
    intro L hm
    unfold backtrackL
    induction L with
    | nil => simp at hm
    | cons a L ih =>
      rw [List.dropWhile_cons]
      split
      · rename_i h
        simp at h
        rcases List.mem_cons.1 hm with hm | hm
        · omega
        · exact ih hm
      · exact hm
  cases x <;> simp only [cpred] at h <;> (try split at h) <;> (try split at h) <;>
    simp only [Except.ok.injEq, Prod.mk.injEq, reduceCtorEq] at h <;>
    obtain ⟨-, h, -⟩ := h <;> rw [← h] <;> refine ⟨rfl, fun h0 => ?_⟩ <;> try exact h0
  · simp only [lineStartL]
    split
    · exact hb _ h0
    · exact List.mem_cons_of_mem _ (hb _ h0)
  · exact hb _ h0

/-- What holds of the context while matching, whatever the input. -/
def Steady (st : CState) (g : Reader σ × CState) : Prop := g.2.off = st.off ∧ 0 ∈ g.2.lines

theorem steady_pres {S : Source σ} {st : CState} {x : Pred} {p : Nat} {g g' : Reader σ × CState}
    {b : Bool} {ts : List (Peg.Thunk Act)} (hq : Steady st g)
    (h : (chost S).pred x p g = .ok (b, g', ts)) : Steady st g' := by
  have := cpred_off (chost_pred h).1
  exact ⟨this.1.trans hq.1, this.2 hq.2⟩

theorem mem_backtrack_zero {p : Nat} {L : List Nat} (hm : 0 ∈ L) : 0 ∈ backtrackL p L := by
  unfold backtrackL
  induction L with
  | nil => simp at hm
  | cons a L ih =>
    rw [List.dropWhile_cons]
    split
    · rename_i h
      simp at h
      rcases List.mem_cons.1 hm with hm | hm
      · omega
      · exact ih hm
    · exact hm

theorem inputPosition_ok {off : Pos} {L : List Nat} {p : Nat} (h : 0 ∈ L) :
    ∃ x, inputPosition off L p = .ok x := by
  unfold inputPosition
  cases hb : backtrackL p L with
  | nil =>
    have := mem_backtrack_zero (p := p) h
    rw [hb] at this; simp at this
  | cons => exact ⟨_, rfl⟩

theorem note_error {et : ErrTrack} {p : Pos} {c : UInt8} {l : List UInt8} {f : Fault}
    (h : et.note p c l = .error f) : f = .assertion := by
  unfold ErrTrack.note at h
  split at h
  · simp at h
  · generalize (if et.labels.length = 0 ∨ p.offset > et.lastPosition.offset
      then { et with lastPosition := p, lastChar := c, labels := [] } else et) = et' at h
    simp only at h
    split at h
    · simpa using h.symm
    · split at h <;> simp at h

/-- The only fault while matching is the assertion in `cp_et_note_potential_error`. -/
theorem match_fault {S : Source σ} {only : Bool} {r : Reader σ} {st : CState} (hz : 0 ∈ st.lines)
    {f : Fault}
    (h : Eval grammar (chost S) (.nt (startRule only) none) ⟨0, [], (r, st)⟩ (.fault f)) :
    f = .assertion ∧ ∃ l p g, Called grammar (chost S) (.nt (startRule only) none) ⟨0, [], (r, st)⟩
      (.err l) p g ∧ (chost S).pred (.err l) p g = .error f := by
  obtain ⟨x, p, g, hc, he⟩ := h.fault_called f rfl
  have he' := chost_pred_error he
  have hs : Steady st g := hc.pres (Q := Steady st) (fun p g h => h)
    (fun x p g _ hq b g' ts hp => steady_pres hq hp) ⟨rfl, hz⟩
  have hop : x.usesOp = true → g.2.op.isSome = true := fun hx =>
    op_used hc hx false (by simp) (by cases only <;> decide +kernel)
  cases x with
  | err l =>
    refine ⟨?_, l, p, g, hc, he⟩
    simp only [cpred] at he'
    obtain ⟨y, hy⟩ := inputPosition_ok (off := g.2.off) (p := p) (mem_backtrack_zero (p := p) hs.2)
    rw [hy] at he'
    simp only at he'
    split at he'
    · simp at he'
    · rename_i hn
      simp only [Except.error.injEq] at he'
      subst he'; exact note_error hn
  | recordError =>
    simp only [cpred] at he'
    obtain ⟨y, hy⟩ := reify_ok g.2.errs
    rw [hy] at he'; simp at he'
  | precPush =>
    have := hop rfl
    simp only [cpred] at he'
    split at he' <;> simp_all
  | precChk =>
    have := hop rfl
    simp only [cpred] at he'
    split at he' <;> simp_all
  | _ => simp [cpred] at he'

/-- What matching gives. -/
structure Matched {σ : Type} (D : Reader σ → List UInt8 → Prop) (w : List UInt8) (st : CState)
    (s : St Act (Reader σ × CState)) : Prop where
  at_ : s.g.1.At D w s.pos
  progress : w ≠ [] → 0 < s.pos
  off : s.g.2.off = st.off
  zero : 0 ∈ s.g.2.lines
  precs : s.g.2.precs = st.precs

/-- One call of the generated parser succeeds and makes progress, or stops at that assertion. -/
theorem match_total {S : Source σ} {D : Reader σ → List UInt8 → Prop} (hf : Feeds S D)
    (only : Bool) {w : List UInt8} {r : Reader σ} (hi : r.At D w 0) {st : CState}
    (hz : 0 ∈ st.lines) :
    ∃ res, Eval grammar (chost S) (.nt (startRule only) none) ⟨0, [], (r, st)⟩ res ∧
      (res = .fault .assertion ∨ ∃ s, res = .ok s ∧ Matched D w st s) := by
  have hr := hf.readsAs w (cpred (σ := σ))
  obtain ⟨res, h⟩ := Eval.total hr (chost_preds S) ruleOk_all (startRule only) none
    ⟨0, [], (r, st)⟩ hi
  refine ⟨res, h, ?_⟩
  have hw := h.within hr (chost_preds S) (fun r => by
    have := ruleOk_all r
    simp only [ruleOk, Bool.and_eq_true] at this
    exact this.1.1) hi
  have hg := h.good hr hi
  have hp := precs_balanced h
  have hst := h.pres (Q := Steady st) (fun p g h => h)
    (fun x p g _ hq b g' ts hp => steady_pres hq hp) ⟨rfl, hz⟩
  cases res with
  | fault f => left; rw [(match_fault hz h).1]
  | fail s =>
    exfalso
    simp only [Res.Within] at hw
    revert hw
    cases only <;> cases decide (0 = w.length) <;> decide
  | ok s =>
    right
    refine ⟨s, rfl, hg.2, ?_, (hst _ rfl).1, (hst _ rfl).2, hp _ rfl⟩
    intro hne
    rcases Nat.eq_zero_or_pos s.pos with h0 | h0
    · exfalso
      have h1 := hw.1 h0
      have : decide (0 = w.length) = false := by
        simp only [decide_eq_false_iff_not]
        intro e; exact hne (List.eq_nil_of_length_eq_zero e.symm)
      simp only [this] at h1
      revert h1
      cases only <;> decide
    · exact h0

/-- The start of a call without backquotes: nothing goes wrong, the line starts are right, and the
errors are about places in the input. -/
theorem match_ok {S : Source σ} {D : Reader σ → List UInt8 → Prop} (hf : Feeds S D)
    (only : Bool) {w : List UInt8} (hq : 96 ∉ w) {r : Reader σ} (hi : r.At D w 0) {st : CState}
    (hst : Fresh st) :
    ∃ s, Eval grammar (chost S) (.nt (startRule only) none) ⟨0, [], (r, st)⟩ (.ok s) ∧
      Matched D w st s ∧ LInv w s.pos s.g.2.lines ∧ ErrInv st.off w s.g.2.errs ∧
      s.g.2.errs.colorization = st.errs.colorization := by
  have hr := hf.readsAs w (cpred (σ := σ))
  have hz : 0 ∈ st.lines := by simp [hst.lines]
  have hinv : LInv w 0 st.lines := by
    rw [hst.lines]; exact ⟨by simp, by simp [LineStart], rfl, fun q _ h => by simp; omega⟩
  have hdead : ∀ x ∈ w, lineCfg.dead.mem x = false := by
    intro x hx
    have h1 : x ≠ 96 := fun e => hq (e ▸ hx)
    have h2 : ∀ n : Fin 256, n ≠ 96 → Nat.testBit (2 ^ 96) n = false := by decide +kernel
    have h3 := h2 ⟨x.toNat, x.toNat_lt⟩ (by
      intro e
      apply h1
      have := congrArg Fin.val e
      exact UInt8.toNat_inj.1 this)
    exact h3
  have hsure : ∀ x p (g : Reader σ × CState) b g' ts, lineCfg.sure x = true →
      (chost S).pred x p g = .ok (b, g', ts) → b = true := by
    intro x p g b g' ts hx hp
    cases b with
    | true => rfl
    | false =>
      have := (chost_preds S x p g _ g' ts hp).2 rfl
      simp [lineCfg, this] at hx
  have hsafe : ((lineTr lineCfg (.nt (startRule only) none : E)).get 0).safe = true := by
    cases only <;> decide +kernel
  let Q : Reader σ × CState → Prop := fun g => g.2.off = st.off ∧ ErrInv st.off w g.2.errs ∧
    g.2.errs.colorization = st.errs.colorization
  have key : ∀ l p g, Called grammar (chost S) (.nt (startRule only) none) ⟨0, [], (r, st)⟩
      (.err l) p g → Q g → ∃ g' : Reader σ × CState, (chost S).pred (.err l) p g = .ok (true, g', []) ∧ Q g' := by
    intro l p g hc hQ
    have hl := hc.lines (c := lineCfg) hr (chost_lines S) lineOk_all rfl hdead hsure rfl hi hinv 0 (by omega)
      LFact.zero hsafe
    have hs := hc.read hr (readHost hf w) chost_sure readOk_all pkOk_all rfl rfl hi
    obtain ⟨-, hat⟩ := hc.good hr hi
    have hpw := hr.bound hat
    have hpos := inputPosition_eq (hl.backtrack (Nat.le_refl p)) (Nat.le_refl p) hpw g.2.off
    have hch : g.1.buf[p]?.getD 0 = w[p]?.getD 0 := by
      obtain ⟨hle, -, rest, hw, -⟩ := hat
      rcases hs with hs | hs
      · rw [hw, List.getElem?_append_left hs]
      · rw [List.getElem?_eq_none hs, List.getElem?_eq_none]
        have : w.length = g.1.buf.length + rest.length := by rw [hw]; simp
        omega
    obtain ⟨et', h1, h2, h3⟩ := hQ.2.1.note hpw (labelText l)
    refine ⟨(g.1, { g.2 with lines := backtrackL p g.2.lines, errs := et' }), ?_, hQ.1, h2,
      h3.trans hQ.2.2⟩
    rw [← hQ.1] at h1
    simp only [chost, mkHost, cpred, hpos, hch, h1]
  have hpk : ∀ p g, Q g → Q ((chost S).peek p g).2 := fun p g h => h
  have hpred : ∀ x p g, Called grammar (chost S) (.nt (startRule only) none) ⟨0, [], (r, st)⟩ x p g →
      Q g → ∀ b g' ts, (chost S).pred x p g = .ok (b, g', ts) → Q g' := by
    intro x p g hc hQ b g' ts hp
    have h1 := chost_pred hp
    cases x with
    | err l =>
      obtain ⟨g2, h2, h3⟩ := key l p g hc hQ
      rw [hp] at h2
      simp only [Except.ok.injEq, Prod.mk.injEq] at h2
      rw [h2.2.1]; exact h3
    | recordError =>
      obtain ⟨et', h2, h3, h4⟩ := hQ.2.1.reify
      have h5 := h1.1
      simp only [cpred, h2, Except.ok.injEq, Prod.mk.injEq] at h5
      refine ⟨?_, ?_, ?_⟩
      · rw [← h5.2.1]; exact hQ.1
      · rw [← h5.2.1]; exact h3
      · rw [← h5.2.1]; exact h4.trans hQ.2.2
    | _ =>
      have h5 := h1.1
      simp only [cpred] at h5
      (try split at h5) <;>
        simp only [Except.ok.injEq, Prod.mk.injEq, reduceCtorEq] at h5 <;>
        exact ⟨by rw [← h5.2.1]; exact hQ.1, by rw [← h5.2.1]; exact hQ.2.1, by rw [← h5.2.1]; exact hQ.2.2⟩
  have hQ0 : Q (r, st) := ⟨rfl, hst.errInv w, rfl⟩
  obtain ⟨res, h, hres⟩ := match_total hf only hi hz
  rcases hres with rfl | ⟨s, rfl, hm⟩
  · exfalso
    obtain ⟨-, l, p, g, hc, he⟩ := match_fault hz h
    obtain ⟨g', h1, -⟩ := key l p g hc (hc.pres hpk hpred hQ0)
    rw [he] at h1; simp at h1
  · have hl := h.lines (c := lineCfg) hr (chost_lines S) lineOk_all rfl hdead hsure hi hinv 0 (by omega)
      LFact.zero hsafe
    have hq := h.pres hpk hpred hQ0 _ rfl
    exact ⟨s, h, hm, hl.1, hq.2.1, hq.2.2⟩

end Verif.Cypher
