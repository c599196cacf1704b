import Verif.Cypher.Related
import Verif.Cypher.Loop
import Verif.Peg.Twin
import Verif.Props.Segment
/-!
# Two runs of the parser side by side

Two sources delivering texts that no terminal of the grammar tells apart, from two starting positions:
the segments handed over agree, up to the difference between the texts and between the positions.
-/
namespace Verif.Peg
variable {R P A : Type}

theorem StrSame.drop {w₁ w₂ : List UInt8} (n : Nat) : ∀ {l : List UInt8} {p : Nat},
    StrSame w₁ w₂ l (n + p) → StrSame (w₁.drop n) (w₂.drop n) l p
  | [], _, _ => trivial
  | c :: cs, p, h => by
    simp only [StrSame, List.getElem?_drop] at h ⊢
    exact ⟨h.1, fun e => StrSame.drop n (h.2 e)⟩

theorem Same.drop {w₁ w₂ : List UInt8} (n : Nat) {e : Expr R P A} (h : Same w₁ w₂ e) :
    Same (w₁.drop n) (w₂.drop n) e := by
  induction e with
  | one m => intro p; simp only [List.getElem?_drop]; exact h _
  | str l => exact fun p => StrSame.drop n (h _)
  | seq a b iha ihb => exact ⟨iha h.1, ihb h.2⟩
  | alt a b iha ihb => exact ⟨iha h.1, ihb h.2⟩
  | star a ih | peek a ih | npeek a ih | onfail a _ ih => exact ih h
  | _ => trivial

end Verif.Peg

namespace Verif.Cypher
open Verif.Peg List

variable {σ σ' κ κ' : Type} {K : Link}

/-! ## The error tracker -/

/-- Trackers in runs on `w` from `off` and on `w'` from `off'`. -/
structure TrackRel (K : Link) (off off' : Pos) (w w' : List UInt8) (t t' : ErrTrack) : Prop where
  color : t.colorization = K.col₁
  color' : t'.colorization = K.col₂
  known : ∃ ls : List Nat, t.labels = ls.map labelText
  labels : t.labels = t'.labels
  last : (t.labels = [] ∧ t.lastPosition.offset = 0 ∧ t'.lastPosition.offset = 0) ∨
    PosRel K t.lastPosition t'.lastPosition
  char : t.labels ≠ [] → ∃ k, t.lastPosition.offset = off.offset + k ∧
    t'.lastPosition.offset = off'.offset + k ∧ t.lastChar = w[k]?.getD 0 ∧ t'.lastChar = w'[k]?.getD 0
  errors : Forall₂ (ErrRel K) t.errors t'.errors
  floor : t.errors ≠ [] → ∃ n, t.lastErrorOffset = K.P₁.offset + n ∧ t'.lastErrorOffset = K.P₂.offset + n

theorem getD_rel (hK : K.Ok) {w w' : List UInt8} (h : Forall₂ K.B w w') (k : Nat) :
    K.B (w[k]?.getD 0) (w'[k]?.getD 0) := by
  induction h generalizing k with
  | nil => exact hK.refl 0
  | cons h _ ih =>
    cases k with
    | zero => simpa using h
    | succ k => simpa using ih k

theorem forall₂_self {R : UInt8 → UInt8 → Prop} (hR : ∀ c, R c c) : ∀ l : List UInt8, Forall₂ R l l
  | [] => .nil
  | c :: l => .cons (hR c) (forall₂_self hR l)

/-- Messages in the same colors agree up to the byte they name. -/
theorem message_rel {B : UInt8 → UInt8 → Prop} (hB : ∀ c, B c c) {c d : UInt8}
    (h : Forall₂ B (chardesc c) (chardesc d)) (col : Colorization) (ls : List (List UInt8)) :
    Forall₂ B (messageSpec col c ls) (messageSpec col d ls) := by
  unfold messageSpec
  have r := forall₂_self hB
  simp only [← chardesc_eq]
  exact rel_append (rel_append (rel_append (rel_append (rel_append (rel_append (rel_append (rel_append
    (rel_append (rel_append (rel_append (r _) (r _)) (r _)) (r _)) (r _)) h) (r _)) (r _))
    (r _)) (r _)) (r _)) (r _)

theorem TrackRel.note {off off' : Pos} {w w' : List UInt8} {t t' : ErrTrack}
    (h : TrackRel K off off' w w' t t') {x y : Pos} (hxy : PosRel K x y) {p : Nat}
    (hx : x.offset = off.offset + p) (hy : y.offset = off'.offset + p) (l : Nat) :
    match t.note x (w[p]?.getD 0) (labelText l), t'.note y (w'[p]?.getD 0) (labelText l) with
    | .ok a, .ok b => TrackRel K off off' w w' a b
    | .error f, .error g => f = g
    | _, _ => False := by
  have hlt : x.offset < t.lastPosition.offset ↔ y.offset < t'.lastPosition.offset := by
    rcases h.last with ⟨-, h1, h2⟩ | h1
    · omega
    · have := Mach.posRel_offset h1 hxy
      omega
  have hlt2 : t.labels ≠ [] → (t.lastPosition.offset < x.offset ↔ t'.lastPosition.offset < y.offset) := by
    intro hne
    rcases h.last with ⟨h0, -⟩ | h1
    · exact absurd h0 hne
    · have := Mach.posRel_offset hxy h1
      omega
  have hfl : t.errors.length > 0 ∧ x.offset ≤ t.lastErrorOffset ↔
      t'.errors.length > 0 ∧ y.offset ≤ t'.lastErrorOffset := by
    rw [h.errors.length_eq]
    refine and_congr_right fun hl => ?_
    obtain ⟨n, h1, h2⟩ := h.floor (fun e => by
      have := h.errors.length_eq; rw [e] at this; simp at this; omega)
    obtain ⟨d', c', n', rfl, rfl⟩ := hxy
    simp only [Pos.move, h1, h2]
    omega
  unfold ErrTrack.note
  by_cases hc : x.offset < t.lastPosition.offset ∨ (t.errors.length > 0 ∧ x.offset ≤ t.lastErrorOffset)
  · simp only [hc, (or_congr hlt hfl).1 hc, if_true]
    exact h
  · simp only [hc, mt (or_congr hlt hfl).2 hc, if_false]
    have h0 : t.labels.length = 0 ∨ x.offset > t.lastPosition.offset ↔
        t'.labels.length = 0 ∨ y.offset > t'.lastPosition.offset := by
      rw [h.labels]
      by_cases hn : t'.labels.length = 0
      · simp [hn]
      · simp only [hn, false_or]
        exact hlt2 fun e => hn (by rw [← h.labels, e]; rfl)
    by_cases hs : t.labels.length = 0 ∨ x.offset > t.lastPosition.offset
    · simp only [hs, h0.1 hs, if_true, List.length_nil, ne_eq, not_true_eq_false, false_and, if_false,
        List.not_mem_nil, List.nil_append]
      exact ⟨h.color, h.color', ⟨[l], rfl⟩, rfl, .inr hxy, fun _ => ⟨p, hx, hy, rfl, rfl⟩, h.errors, h.floor⟩
    · simp only [hs, mt h0.2 hs, if_false]
      have hne : t.labels ≠ [] := fun e => hs (.inl (by rw [e]; rfl))
      have hl : t.labels.length ≠ 0 := fun e => hs (.inl e)
      have hl' : t'.labels.length ≠ 0 := h.labels ▸ hl
      have hPL : PosRel K t.lastPosition t'.lastPosition := h.last.resolve_left fun e => hne e.1
      obtain ⟨k, k1, k2, k3, k4⟩ := h.char hne
      have hk : k = p := by
        have : ¬ t.lastPosition.offset < x.offset := fun e => hs (.inr e)
        have : ¬ x.offset < t.lastPosition.offset := fun e => hc (.inl e)
        omega
      subst hk
      have hcond : (t.lastPosition.line = x.line ∧ t.lastPosition.column = x.column ∧
            t.lastChar = w[k]?.getD 0) ↔
          (t'.lastPosition.line = y.line ∧ t'.lastPosition.column = y.column ∧
            t'.lastChar = w'[k]?.getD 0) := by
        simp only [k3, k4, and_true]
        obtain ⟨d, c, n, e1, e2⟩ := hPL
        obtain ⟨d', c', n', rfl, rfl⟩ := hxy
        rw [e1, e2]
        simp only [Pos.move]
        by_cases hd : d = d'
        · subst hd
          by_cases h1 : d = 0
          · simp only [if_pos h1, Nat.add_left_cancel_iff]
          · simp only [if_neg h1]
        · constructor
          · rintro ⟨e, -⟩; omega
          · rintro ⟨e, -⟩; omega
      by_cases ha : t.lastPosition.line = x.line ∧ t.lastPosition.column = x.column ∧
            t.lastChar = w[k]?.getD 0
      · have e1 : ¬ (t.labels.length ≠ 0 ∧ ¬ (t.lastPosition.line = x.line ∧
            t.lastPosition.column = x.column ∧ t.lastChar = w[k]?.getD 0)) := fun e => e.2 ha
        have e2 : ¬ (t'.labels.length ≠ 0 ∧ ¬ (t'.lastPosition.line = y.line ∧
            t'.lastPosition.column = y.column ∧ t'.lastChar = w'[k]?.getD 0)) :=
          fun e => e.2 (hcond.1 ha)
        rw [if_neg e1, if_neg e2]
        simp only [h.labels]
        by_cases hm : labelText l ∈ t'.labels
        · simp only [hm, if_true]; exact h
        · simp only [hm, if_false]
          obtain ⟨ls, e⟩ := h.known
          exact ⟨h.color, h.color', ⟨ls ++ [l], by rw [← h.labels, e, List.map_append]; rfl⟩, rfl, .inr hPL,
            fun _ => ⟨k, k1, k2, k3, k4⟩, h.errors, h.floor⟩
      · rw [if_pos ⟨hl, ha⟩, if_pos ⟨hl', mt hcond.2 ha⟩]

theorem TrackRel.reify (hK : K.Ok) {off off' : Pos} {w w' : List UInt8} (hw : Forall₂ K.B w w')
    {t t' : ErrTrack} (h : TrackRel K off off' w w' t t') :
    ∃ a b, t.reify = .ok a ∧ t'.reify = .ok b ∧ TrackRel K off off' w w' a b := by
  by_cases hl : t.labels = []
  · refine ⟨t, t', ?_, ?_, h⟩
    · unfold ErrTrack.reify; rw [if_pos (by rw [hl]; rfl)]
    · unfold ErrTrack.reify; rw [if_pos (by rw [← h.labels, hl]; rfl)]
  · have hl' : t'.labels ≠ [] := h.labels ▸ hl
    have key : ∀ (t : ErrTrack), t.labels ≠ [] → t.reify = .ok { t with
        errors := t.errors ++ [PErr.mk t.lastPosition (messageSpec t.colorization t.lastChar t.labels) none]
        lastErrorOffset := t.lastPosition.offset
        lastPosition := ⟨0, 0, 0⟩
        lastChar := 0
        labels := [] } := by
      intro t h
      unfold ErrTrack.reify
      have hl : ¬ t.labels.length = 0 := fun e => h (List.eq_nil_of_length_eq_zero e)
      simp only [hl, if_false]
      rw [errorReport_ok _ _ _ h]
      simp [messageSpec, ascii_sp, chardesc_eq]
    refine ⟨_, _, key t hl, key t' hl', ?_⟩
    have hPL : PosRel K t.lastPosition t'.lastPosition := h.last.resolve_left fun e => hl e.1
    obtain ⟨k, -, -, k3, k4⟩ := h.char hl
    refine ⟨h.color, h.color', ⟨[], rfl⟩, rfl, .inl ⟨rfl, rfl, rfl⟩, fun e => absurd rfl e, ?_, fun _ => ?_⟩
    · refine rel_append h.errors (.cons ⟨hPL, ?_, .none⟩ .nil)
      obtain ⟨ls, e⟩ := h.known
      simp only [h.color, h.color', ← h.labels, k3, k4, e]
      exact hK.msg _ _ _ (getD_rel hK hw k) fun e' => hl (by rw [e, e']; rfl)
    · obtain ⟨d, c, n, e1, e2⟩ := hPL
      exact ⟨n, by simp only [e1, Pos.move], by simp only [e2, Pos.move]⟩

/-! ## The predicates -/

structure StateRel (K : Link) (w w' : List UInt8) (q q' : CState) : Prop where
  off : PosRel K q.off q'.off
  lines : q.lines = q'.lines
  errs : TrackRel K q.off q'.off w w' q.errs q'.errs
  op : q.op = q'.op
  precs : q.precs = q'.precs

theorem seen_char {D : Reader σ → List UInt8 → Prop} {w : List UInt8} {p : Nat} {g : Reader σ × CState}
    (h : g.1.At D w p) (hs : Seen w p g) : g.1.buf[p]?.getD 0 = w[p]?.getD 0 := by
  obtain ⟨h1, -, rest, h3, -⟩ := h
  rcases hs with hs | hs
  · rw [h3, List.getElem?_append_left hs]
  · have : g.1.buf.length ≤ p := by rw [h3] at hs; simp at hs; omega
    rw [List.getElem?_eq_none hs, List.getElem?_eq_none this]

theorem cpred_rel (hK : K.Ok) {w w' : List UInt8} (hw : Forall₂ K.B w w')
    {D : Reader σ → List UInt8 → Prop} {D' : Reader σ' → List UInt8 → Prop}
    (x : Pred) {p : Nat} {r : Reader σ} {r' : Reader σ'} {q q' : CState} (h : StateRel K w w' q q')
    (hr : r.At D w p) (hr' : r'.At D' w' p)
    (hs : x.isErr = true → Seen w p (r, q)) (hs' : x.isErr = true → Seen w' p (r', q')) :
    match cpred x p r q, cpred x p r' q' with
    | .ok (b₁, q₁, t₁), .ok (b₂, q₂, t₂) => b₁ = b₂ ∧ t₁ = t₂ ∧ StateRel K w w' q₁ q₂
    | .error f₁, .error f₂ => f₁ = f₂
    | _, _ => False := by
  cases x with
  | lineStart => exact ⟨rfl, rfl, { h with lines := by simp only [h.lines] }⟩
  | recordError =>
    obtain ⟨a, b, h1, h2, h3⟩ := h.errs.reify hK hw
    simp only [cpred, h1, h2]
    exact ⟨trivial, trivial, { h with errs := h3 }⟩
  | err l =>
    simp only [cpred]
    rw [seen_char (g := (r, q)) hr (hs rfl), seen_char (g := (r', q')) hr' (hs' rfl), ← h.lines]
    have := inputPosition_rel h.off (backtrackL p q.lines) p
    cases h1 : inputPosition q.off (backtrackL p q.lines) p with
    | error f =>
      cases h2 : inputPosition q'.off (backtrackL p q.lines) p with
      | error g => rw [h1, h2] at this; exact this
      | ok y => rw [h1, h2] at this; exact this.elim
    | ok x =>
      cases h2 : inputPosition q'.off (backtrackL p q.lines) p with
      | error g => rw [h1, h2] at this; exact this.elim
      | ok y =>
        rw [h1, h2] at this
        have ho := inputPosition_offset h1
        have ho' := inputPosition_offset h2
        have hn := h.errs.note this.1 (p := p) (by omega) (by omega) l
        cases h3 : q.errs.note x (w[p]?.getD 0) (labelText l) with
        | error f =>
          cases h4 : q'.errs.note y (w'[p]?.getD 0) (labelText l) with
          | error g => rw [h3, h4] at hn; simpa only [h3, h4] using hn
          | ok b => rw [h3, h4] at hn; exact hn.elim
        | ok a =>
          cases h4 : q'.errs.note y (w'[p]?.getD 0) (labelText l) with
          | error g => rw [h3, h4] at hn; exact hn.elim
          | ok b =>
            rw [h3, h4] at hn
            simp only [h3, h4]
            exact ⟨trivial, trivial, { h with lines := rfl, errs := hn }⟩
  | op o => exact ⟨rfl, rfl, { h with op := rfl }⟩
  | precPushTop => exact ⟨rfl, rfl, { h with precs := by simp only [h.precs] }⟩
  | precPush =>
    simp only [cpred, h.op]
    cases q'.op with
    | none => rfl
    | some o => exact ⟨rfl, rfl, { h with op := rfl, precs := by simp only [h.precs] }⟩
  | precPop => exact ⟨rfl, rfl, { h with precs := by simp only [h.precs] }⟩
  | precChk =>
    simp only [cpred, h.op]
    cases ho : q'.op with
    | none => rfl
    | some o => exact ⟨by rw [h.precs], rfl, { h with op := h.op }⟩
  | _ => exact ⟨rfl, rfl, h⟩

/-- What is known of the two readers besides the texts they deliver. -/
structure Both (K : Link) (S : Source σ) (S' : Source σ') (X : Reader σ → Reader σ' → Prop) : Prop where
  peek : ∀ {r r'} (p : Nat), X r r' → X (r.peek S p).2 (r'.peek S' p).2
  commit : ∀ {r r'} (p : Nat), X r r' → X (r.commit p) (r'.commit p)
  context : ∀ {r r'}, X r r' → ∀ n c c', lineContext r.buf n 80 = .ok (some c) →
    lineContext r'.buf n 80 = .ok (some c') → K.C c c'

/-- Readers and states of two runs at the same place. -/
structure AtRel (K : Link) (D : Reader σ → List UInt8 → Prop) (D' : Reader σ' → List UInt8 → Prop)
    (X : Reader σ → Reader σ' → Prop) (w w' : List UInt8) (p : Nat) (g : Reader σ × CState)
    (g' : Reader σ' × CState) : Prop where
  left : g.1.At D w p
  right : g'.1.At D' w' p
  state : StateRel K w w' g.2 g'.2
  both : X g.1 g'.1

theorem chost_twin (hK : K.Ok) {S : Source σ} {S' : Source σ'} {D : Reader σ → List UInt8 → Prop}
    {D' : Reader σ' → List UInt8 → Prop} {X : Reader σ → Reader σ' → Prop} (hf : Feeds S D)
    (hf' : Feeds S' D') (hX : Both K S S' X) {w w' : List UInt8} (hw : Forall₂ K.B w w') :
    Twin (chost S) (chost S') w w' (AtRel K D D' X w w')
      (fun x p g => x.isErr = true → Seen w p g) (fun x p g => x.isErr = true → Seen w' p g) := by
  have hr := hf.readsAs w (cpred (σ := σ))
  have hr' := hf'.readsAs w' (cpred (σ := σ'))
  constructor
  · exact hw.length_eq
  · intro p g g' h; exact hr.val h.left
  · intro p g g' h; exact hr'.val h.right
  · intro p g g' h
    exact ⟨hr.keep h.left, hr'.keep h.right, h.state, hX.peek p h.both⟩
  · intro p g g' h hlt
    exact ⟨hr.next h.left hlt, hr'.next h.right (hw.length_eq ▸ hlt), h.state, hX.peek p h.both⟩
  · intro p q g g' h hq
    exact ⟨hr.down h.left hq, hr'.down h.right hq, h.state, h.both⟩
  · intro x p g g' h hq hq'
    have := cpred_rel hK hw x h.state h.left h.right hq hq'
    simp only [chost, mkHost]
    cases h1 : cpred x p g.1 g.2 with
    | error f =>
      cases h2 : cpred x p g'.1 g'.2 with
      | error f' => rw [h1, h2] at this; exact this
      | ok o => rw [h1, h2] at this; exact this.elim
    | ok o =>
      cases h2 : cpred x p g'.1 g'.2 with
      | error f' => rw [h1, h2] at this; exact this.elim
      | ok o' =>
        rw [h1, h2] at this
        obtain ⟨b₁, q₁, t₁⟩ := o
        obtain ⟨b₂, q₂, t₂⟩ := o'
        exact ⟨this.1, this.2.1, h.left, h.right, this.2.2, h.both⟩

/-! ## One call -/

/-- The contexts of two runs between calls. -/
structure CtxRel (K : Link) (D : Reader σ → List UInt8 → Prop) (D' : Reader σ' → List UInt8 → Prop)
    (X : Reader σ → Reader σ' → Prop) (w w' : List UInt8) (c : PCtx σ) (c' : PCtx σ') : Prop where
  at_ : AtRel K D D' X w w' 0 (c.reader, c.st) (c'.reader, c'.st)
  mach : MachRel K c.mach c'.mach

theorem chost_seen {S : Source σ} {D : Reader σ → List UInt8 → Prop} (hf : Feeds S D) {w : List UInt8}
    (rule : Rule) {s : St Act (Reader σ × CState)} (hi : s.g.1.At D w s.pos) (x : Pred) (p : Nat)
    (g : Reader σ × CState) (h : Called grammar (chost S) (.nt rule none) s x p g) :
    x.isErr = true → Seen w p g := fun hx =>
  h.read (hf.readsAs w (cpred (σ := σ))) (readHost hf w) chost_sure readOk_all pkOk_all rfl hx hi

theorem match_pair (hK : K.Ok) {S : Source σ} {S' : Source σ'} {D : Reader σ → List UInt8 → Prop}
    {D' : Reader σ' → List UInt8 → Prop} {X : Reader σ → Reader σ' → Prop} (hf : Feeds S D)
    (hf' : Feeds S' D') (hX : Both K S S' X) {w w' : List UInt8} (hw : Forall₂ K.B w w')
    (hsame : ∀ r, Peg.Same w w' (grammar r).body) {rule : Rule} {g : Reader σ × CState}
    {g' : Reader σ' × CState} (h : AtRel K D D' X w w' 0 g g') {res : Res Act (Reader σ × CState)}
    (he : Eval grammar (chost S) (.nt rule none) ⟨0, [], g⟩ res) :
    ∃ res', Eval grammar (chost S') (.nt rule none) ⟨0, [], g'⟩ res' ∧
      ResRel (AtRel K D D' X w w') 0 [] [] res res' :=
  he.twin (chost_twin hK hf hf' hX hw) hsame trivial rfl h
    (fun x p q hc => chost_seen hf rule (s := ⟨0, [], g⟩) h.left x p q hc)
    (fun x p q hc => chost_seen hf' rule (s := ⟨0, [], g'⟩) h.right x p q hc)

/-- The context with the errors cleared. -/
def PCtx.cleared (c : PCtx σ) : PCtx σ := ⟨c.reader, { c.st with errs := c.st.errs.clearErrors }, c.mach⟩

/-- What corresponds after a call that consumed `p` bytes. -/
structure DoneRel (K : Link) (D : Reader σ → List UInt8 → Prop) (D' : Reader σ' → List UInt8 → Prop)
    (X : Reader σ → Reader σ' → Prop) (w w' : List UInt8) (c : PCtx σ) (c' : PCtx σ') : Prop where
  ctx : CtxRel K D D' X w w' c.cleared c'.cleared
  errors : Forall₂ (ErrRel K) c.st.errs.errors c'.st.errs.errors

theorem finishOne_pair (hK : K.Ok) {S : Source σ} {S' : Source σ'} {D : Reader σ → List UInt8 → Prop}
    {D' : Reader σ' → List UInt8 → Prop} {X : Reader σ → Reader σ' → Prop} (hf : Feeds S D)
    (hf' : Feeds S' D') (hX : Both K S S' X) {w w' : List UInt8} (hw : Forall₂ K.B w w')
    {c : PCtx σ} {c' : PCtx σ'} (hm : MachRel K c.mach c'.mach) {p : Nat} {ts : List (Peg.Thunk Act)}
    {g : Reader σ × CState} {g' : Reader σ' × CState} (h : AtRel K D D' X w w' p g g') :
    (∃ x, (x = .context ∨ x = .text) ∧ (finishOne c ⟨p, ts, g⟩ = .error (.crash x) ∨
      finishOne c' ⟨p, ts, g'⟩ = .error (.crash x))) ∨
    match finishOne c ⟨p, ts, g⟩, finishOne c' ⟨p, ts, g'⟩ with
    | .ok a, .ok b => DoneRel K D D' X (w.drop p) (w'.drop p) a b
    | .error e, .error e' => e = e'
    | _, _ => False := by
  have henv : EnvRel K ⟨g.2.off, g.2.lines, g.1.buf, p⟩ ⟨g'.2.off, g'.2.lines, g'.1.buf, p⟩ := by
    refine ⟨h.state.off, h.state.lines, rfl, ⟨w, w', hw, ?_, ?_⟩, hX.context h.both⟩
    · obtain ⟨-, -, rest, e, -⟩ := h.left; exact ⟨rest, e.symm⟩
    · obtain ⟨-, -, rest, e, -⟩ := h.right; exact ⟨rest, e.symm⟩
  have hm0 : MachRel K { c.mach with result := none, eof := false, frames := [], errs := g.2.errs.errors }
      { c'.mach with result := none, eof := false, frames := [], errs := g'.2.errs.errors } :=
    { hm with result := rfl, eof := rfl, frames := rfl, errs := h.state.errs.errors }
  have hx := Mach.exec_rel hK henv ts hm0
  unfold finishOne
  simp only
  generalize Mach.exec ⟨g.2.off, g.2.lines, g.1.buf, p⟩ ts
    { c.mach with result := none, eof := false, frames := [], errs := g.2.errs.errors } = e at hx
  generalize Mach.exec ⟨g'.2.off, g'.2.lines, g'.1.buf, p⟩ ts
    { c'.mach with result := none, eof := false, frames := [], errs := g'.2.errs.errors } = e' at hx
  rcases hx with h1 | h1 | h1
  · left
    rcases h1 with rfl | rfl
    · exact ⟨_, .inl rfl, .inl rfl⟩
    · exact ⟨_, .inr rfl, .inl rfl⟩
  · left
    rcases h1 with rfl | rfl
    · exact ⟨_, .inl rfl, .inr rfl⟩
    · exact ⟨_, .inr rfl, .inr rfl⟩
  · right
    cases e with
    | error x => cases e' with
      | error y => exact congrArg Stop.crash h1
      | ok m' => exact h1.elim
    | ok m => cases e' with
      | error y => exact h1.elim
      | ok m' =>
        have h1 : MachRel K m m' := h1
        simp only
        rcases h1.blocksCases with ⟨b1, b2⟩ | ⟨b, b', bs, bs', b1, b2, hb, hbs⟩
        · simp only [b1, b2]
        · cases hbs with
          | cons => simp only [b1, b2]
          | nil =>
            simp only [b1, b2]
            have hp : m.prev.isNone = m'.prev.isNone := by
              rcases h1.prevCases with ⟨p1, p2⟩ | ⟨_, _, p1, p2, -⟩ <;> rw [p1, p2] <;> rfl
            rw [hb.seq, hp, h1.ops, h.state.precs]
            by_cases hq : b'.seq = [] ∧ m'.prev.isNone = true ∧ m'.ops = [] ∧ g'.2.precs = []
            · simp only [if_pos hq]
              have t := h.state.errs
              refine ⟨⟨⟨h.left.commit hf, h.right.commit hf', ?_, hX.commit p h.both⟩, h1⟩, h1.errs⟩
              refine ⟨h.state.off, h.state.lines, ?_, h.state.op, rfl⟩
              refine ⟨t.color, t.color', ⟨[], rfl⟩, rfl, ?_, fun e => absurd rfl e, .nil, fun e => absurd rfl e⟩
              rcases t.last with ⟨-, e⟩ | e
              · exact .inl ⟨rfl, e⟩
              · exact .inr e
            · simp only [if_neg hq]

theorem parseOne_pair (hK : K.Ok) {S : Source σ} {S' : Source σ'} {D : Reader σ → List UInt8 → Prop}
    {D' : Reader σ' → List UInt8 → Prop} {X : Reader σ → Reader σ' → Prop} (hf : Feeds S D)
    (hf' : Feeds S' D') (hX : Both K S S' X) (only : Bool) {w w' : List UInt8} (hw : Forall₂ K.B w w')
    (hsame : ∀ r, Peg.Same w w' (grammar r).body)
    {c : PCtx σ} {c' : PCtx σ'} (hc : Ready c) (hc' : Ready c') (h : CtxRel K D D' X w w' c c') :
    ∃ fuel0 r r', (∀ fuel, fuel0 ≤ fuel → parseOne S fuel (startRule only) c = some r ∧
        parseOne S' fuel (startRule only) c' = some r') ∧
      ((∃ e, r = .error e ∧ r' = .error e) ∨ ∃ a b n roots roots', r = .ok a ∧ r' = .ok b ∧
        Parsed D only w c a n roots ∧ Parsed D' only w' c' b n roots' ∧
        DoneRel K D D' X (w.drop n) (w'.drop n) a b) := by
  obtain ⟨f1, r, h1, h2⟩ := parseOne_eval hf only h.at_.left hc
  obtain ⟨f2, r', h1', h2'⟩ := parseOne_spec hf' only h.at_.right hc'
  refine ⟨f1 + f2, r, r', fun fuel hle => ⟨h1 _ (by omega), h1' _ (by omega)⟩, ?_⟩
  have g1 := h1 f1 (Nat.le_refl _)
  unfold parseOne at g1
  cases hrun : run grammar (chost S) f1 (.nt (startRule only) none) ⟨0, [], (c.reader, c.st)⟩ with
  | none => rw [hrun] at g1; cases g1
  | some res =>
    rw [hrun] at g1
    obtain ⟨res', he', hrel⟩ := match_pair hK hf hf' hX hw hsame h.at_ (Eval.of_run _ _ _ _ hrun)
    obtain ⟨f3, hrun'⟩ := he'.to_run
    have g2 := h1' (f2 + f3) (by omega)
    unfold parseOne at g2
    rw [run_mono _ _ _ _ hrun' _ (by omega : f3 ≤ f2 + f3)] at g2
    cases hrel with
    | fault =>
      cases g1; cases g2
      exact .inl ⟨_, rfl, rfl⟩
    | fail =>
      cases g1; cases g2
      exact .inl ⟨_, rfl, rfl⟩
    | @ok q t a b hq hab =>
      simp only [Option.some.injEq] at g1 g2
      have hfin := finishOne_pair hK hf hf' hX hw h.mach (ts := t ++ []) hab
      rw [g1, g2] at hfin
      rcases hfin with ⟨x, hx, hxx⟩ | hfin
      · exfalso
        rcases hxx with rfl | rfl
        · rcases h2 with ⟨e, -⟩ | ⟨e, -⟩ | ⟨_, _, _, e, -⟩ <;> cases e
          rcases hx with hx | hx <;> cases hx
        · rcases h2' with ⟨e, -⟩ | ⟨e, -⟩ | ⟨_, _, _, e, -⟩ <;> cases e
          rcases hx with hx | hx <;> cases hx
      · cases r with
        | error e => cases r' with
          | error e' => cases hfin; exact .inl ⟨_, rfl, rfl⟩
          | ok b => exact hfin.elim
        | ok a' => cases r' with
          | error e' => exact hfin.elim
          | ok b' =>
            right
            have hfin : DoneRel K D D' X (w.drop q) (w'.drop q) a' b' := hfin
            rcases h2 with ⟨e, -⟩ | ⟨e, -⟩ | ⟨a1, s, roots, e, hp, hs⟩ <;> cases e
            rcases h2' with ⟨e, -⟩ | ⟨e, -⟩ | ⟨b1, n', roots', e, hp'⟩ <;> cases e
            have hn : a'.mach.consumed = b'.mach.consumed := hfin.ctx.mach.consumed
            rw [hp.consumed, hp'.consumed] at hn
            subst hn
            have hsq : s.pos = q := by
              obtain ⟨f4, hrun4⟩ := hs.to_run
              have e1 := run_mono _ _ _ _ hrun _ (by omega : f1 ≤ f1 + f4)
              rw [run_mono _ _ _ _ hrun4 _ (by omega : f4 ≤ f1 + f4)] at e1
              cases e1; rfl
            rw [← hsq] at hfin
            exact ⟨_, _, _, _, _, rfl, rfl, hp, hp', hfin⟩

/-! ## The loop -/

/-- Segments that correspond, counted from `o` and `o'`. -/
structure SegRel (K : Link) (o o' : Nat) (s s' : PSeg) : Prop where
  ordinal : ∃ n, s.ordinal = o + n ∧ s'.ordinal = o' + n
  start : PosRel K s.range.start s'.range.start
  stop : PosRel K s.range.stop s'.range.stop
  errors : Forall₂ (ErrRel K) s.errors s'.errors
  roots : Forall₂ (NodeRel K) s.roots s'.roots
  directive : s.directive = s'.directive
  eof : s.eof = s'.eof

/-- Outcomes that correspond. -/
def RetRel (K : Link) (Q : κ → κ' → Prop) : Except Stop (Ret κ) → Except Stop (Ret κ') → Prop
  | .error e, .error e' => e = e'
  | .ok a, .ok b => a.1 = b.1 ∧ Option.Rel (PosRel K) a.2.1 b.2.1 ∧ Q a.2.2 b.2.2
  | _, _ => False

/-- Callbacks that answer alike. -/
def CbRel (K : Link) (o o' : Nat) (Q : κ → κ' → Prop) (cb : κ → PSeg → Int × κ)
    (cb' : κ' → PSeg → Int × κ') : Prop :=
  ∀ k k' s s', Q k k' → SegRel K o o' s s' → (cb k s).1 = (cb' k' s').1 ∧ Q (cb k s).2 (cb' k' s').2

mutual
theorem size_rel : ∀ {n n' : Node}, NodeRel K n n' → n.toAst.size = n'.toAst.size
  | .mk _ _ _ _ _ _ _ l, _, .mk _ _ _ h => by
    simp only [Node.toAst, Ast.size, sizes_rel h]
theorem sizes_rel : ∀ {l l' : List Node}, Forall₂ (NodeRel K) l l' →
    sizeList (Node.toAsts l) = sizeList (Node.toAsts l')
  | [], _, .nil => rfl
  | _ :: _, _, .cons h t => by simp only [Node.toAsts, sizeList, size_rel h, sizes_rel t]
end

theorem toAsts_eq : ∀ l : List Node, Node.toAsts l = l.map Node.toAst
  | [] => rfl
  | n :: l => by simp only [Node.toAsts, List.map_cons, toAsts_eq l]

theorem nnodes_eq (s : PSeg) : s.toSegment.nnodes = sizeList (Node.toAsts s.roots) := by
  unfold PSeg.toSegment Segment.new
  simp only [setRootOrdinals_eq, (setOrdinalsList_spec _ _).1, List.map_map, toAsts_eq]
  rw [Nat.add_sub_cancel_left]
  rfl

theorem nnodes_rel {o o' : Nat} {s s' : PSeg} (h : SegRel K o o' s s') :
    s.toSegment.nnodes = s'.toSegment.nnodes := by
  rw [nnodes_eq, nnodes_eq, sizes_rel h.roots]

/-- The next call. -/
def PCtx.next (c : PCtx σ) (stop : Pos) (bs : List Block) : PCtx σ :=
  ⟨c.reader, { c.st with errs := c.st.errs.clearErrors, off := stop, lines := [0] },
    { c.mach with blocks := bs }⟩

/-- What `parse_each` does with the result of `parse_one`. -/
theorem eachLoop_succ {S : Source σ} {cb : κ → PSeg → Int × κ} {rule : Rule} {single : Bool} {fuel n : Nat}
    {c a : PCtx σ} {ordinal : Nat} {last : Option Pos} {k : κ} (h : parseOne S fuel rule c = some (.ok a))
    (hc : a.mach.consumed ≠ 0) {stop : Pos} (hs : inputPosition a.st.off a.st.lines a.mach.consumed = .ok stop)
    {top : Block} (ht : a.mach.blocks = [top]) {seg : PSeg}
    (hseg : seg = ⟨ordinal, ⟨a.st.off, stop⟩, a.st.errs.errors, top.children, a.mach.result, a.mach.eof⟩) :
    eachLoop S cb rule single fuel (n + 1) c ordinal last k =
      if (cb k seg).1 > 0 then some (.ok (0, some stop, (cb k seg).2))
      else if (cb k seg).1 < 0 then some (.ok ((cb k seg).1, some stop, (cb k seg).2))
      else if seg.eof || single then some (.ok (0, some stop, (cb k seg).2))
      else eachLoop S cb rule single fuel n (a.next stop [{ top with children := [] }])
        (ordinal + seg.toSegment.nnodes) (some stop) (cb k seg).2 := by
  conv => lhs; unfold eachLoop
  rw [h]
  simp only
  rw [if_neg hc]
  simp only [hs, ht, hseg, PCtx.next]

theorem Parsed.ready {D : Reader σ → List UInt8 → Prop} {only : Bool} {w : List UInt8} {c a : PCtx σ}
    {n : Nat} {roots : List Node} (h : Parsed D only w c a n roots) {top : Block} (ht : top.seq = [])
    (stop : Pos) : Ready (a.next stop [{ top with children := [] }]) :=
  ⟨⟨rfl, rfl, h.labels⟩, h.precs, ⟨_, rfl, rfl, ht⟩, h.prev, h.ops⟩

theorem eachLoop_pair (hK : K.Ok) {S : Source σ} {S' : Source σ'} {D : Reader σ → List UInt8 → Prop}
    {D' : Reader σ' → List UInt8 → Prop} {X : Reader σ → Reader σ' → Prop} (hf : Feeds S D)
    (hf' : Feeds S' D') (hX : Both K S S' X) (only single : Bool) {o o' : Nat} {Q : κ → κ' → Prop}
    {cb : κ → PSeg → Int × κ} {cb' : κ' → PSeg → Int × κ'} (hcb : CbRel K o o' Q cb cb') :
    ∀ (len : Nat) (w w' : List UInt8) (c : PCtx σ) (c' : PCtx σ') (n : Nat) (last last' : Option Pos)
      (k : κ) (k' : κ'), w.length = len → Forall₂ K.B w w' → (∀ r, Peg.Same w w' (grammar r).body) →
    Ready c → Ready c' → CtxRel K D D' X w w' c c' → Option.Rel (PosRel K) last last' → Q k k' →
    ∃ fuel0 r r', (∀ fuel m, fuel0 ≤ fuel → fuel0 ≤ m →
        eachLoop S cb (startRule only) single fuel m c (o + n) last k = some r ∧
        eachLoop S' cb' (startRule only) single fuel m c' (o' + n) last' k' = some r') ∧
      RetRel K Q r r' := by
  intro len
  induction len using Nat.strongRecOn with
  | _ len ih =>
    intro w w' c c' n last last' k k' hlen hw hsame hc hc' h hlast hk
    obtain ⟨fuel1, r1, r1', h1, h2⟩ := parseOne_pair hK hf hf' hX only hw hsame hc hc' h
    rcases h2 with ⟨e, rfl, rfl⟩ | ⟨a, b, p, roots, roots', rfl, rfl, hp, hp', hd⟩
    · refine ⟨fuel1 + 1, .error e, .error e, fun fuel m hle hlm => ?_, rfl⟩
      obtain ⟨m, rfl⟩ : ∃ m', m = m' + 1 := ⟨m - 1, by omega⟩
      obtain ⟨g1, g2⟩ := h1 fuel (by omega)
      constructor
      · unfold eachLoop; rw [g1]
      · unfold eachLoop; rw [g2]
    · by_cases hp0 : p = 0
      · have hw0 : w = [] := by
          by_contra hne
          have := hp.progress hne
          omega
        have hw0' : w' = [] := by
          subst hw0; cases hw; rfl
        obtain ⟨e1, e2, e3⟩ := hp.nothing hw0
        obtain ⟨e1', e2', e3'⟩ := hp'.nothing hw0'
        refine ⟨fuel1 + 1, .ok (0, last, k), .ok (0, last', k'), fun fuel m hle hlm => ?_, rfl, hlast, hk⟩
        obtain ⟨m, rfl⟩ : ∃ m', m = m' + 1 := ⟨m - 1, by omega⟩
        obtain ⟨g1, g2⟩ := h1 fuel (by omega)
        constructor
        · unfold eachLoop; rw [g1]; simp only
          rw [if_pos (by rw [hp.consumed, hp0]), if_pos ⟨by rw [e1]; rfl, e2, e3⟩]
        · unfold eachLoop; rw [g2]; simp only
          rw [if_pos (by rw [hp'.consumed, hp0]), if_pos ⟨by rw [e1']; rfl, e2', e3'⟩]
      · obtain ⟨stop, s1, -, -⟩ := hp.stop
        obtain ⟨stop', s1', -, -⟩ := hp'.stop
        obtain ⟨top, t1, t2, t3⟩ := hp.blocks
        obtain ⟨top', t1', t2', t3'⟩ := hp'.blocks
        have hstate := hd.ctx.at_.state
        have hstop : PosRel K stop stop' := by
          have := inputPosition_rel (K := K) hstate.off a.st.lines a.mach.consumed
          have e1 : inputPosition a.cleared.st.off a.st.lines a.mach.consumed = .ok stop := s1
          have e2 : inputPosition b.cleared.st.off a.st.lines a.mach.consumed = .ok stop' := by
            have l1 : a.st.lines = b.st.lines := hstate.lines
            have l2 : a.mach.consumed = b.mach.consumed := hd.ctx.mach.consumed
            rw [l1, l2]; exact s1'
          simp only at this
          rw [e1, e2] at this
          exact this.1
        have htop : BlockRel K top top' := by
          have : Forall₂ (BlockRel K) a.mach.blocks b.mach.blocks := hd.ctx.mach.blocks
          rw [t1, t1'] at this
          cases this; assumption
        generalize hsg : (⟨o + n, ⟨a.st.off, stop⟩, a.st.errs.errors, top.children, a.mach.result,
          a.mach.eof⟩ : PSeg) = seg
        generalize hsg' : (⟨o' + n, ⟨b.st.off, stop'⟩, b.st.errs.errors, top'.children, b.mach.result,
          b.mach.eof⟩ : PSeg) = seg'
        have hseg : SegRel K o o' seg seg' := by
          rw [← hsg, ← hsg']
          exact ⟨⟨n, rfl, rfl⟩, hstate.off, hstop, hd.errors, htop.children, hd.ctx.mach.result,
            hd.ctx.mach.eof⟩
        obtain ⟨c1, c2⟩ := hcb k k' seg seg' hk hseg
        have unf : ∀ fuel m, fuel1 ≤ fuel → _ := fun fuel m hle =>
          eachLoop_succ (n := m) (cb := cb) (single := single) (last := last) (k := k)
            (h1 fuel hle).1 (by rw [hp.consumed]; exact hp0) s1 t1 hsg.symm
        have unf' : ∀ fuel m, fuel1 ≤ fuel → _ := fun fuel m hle =>
          eachLoop_succ (n := m) (cb := cb') (single := single) (last := last') (k := k')
            (h1 fuel hle).2 (by rw [hp'.consumed]; exact hp0) s1' t1' hsg'.symm
        rw [← c1, ← hseg.eof, ← nnodes_rel hseg] at unf'
        have once : ∀ i : Int, (∀ fuel m, fuel1 ≤ fuel →
            eachLoop S cb (startRule only) single fuel (m + 1) c (o + n) last k =
              some (.ok (i, some stop, (cb k seg).2)) ∧
            eachLoop S' cb' (startRule only) single fuel (m + 1) c' (o' + n) last' k' =
              some (.ok (i, some stop', (cb' k' seg').2))) →
          ∃ fuel0 r r', (∀ fuel m, fuel0 ≤ fuel → fuel0 ≤ m →
              eachLoop S cb (startRule only) single fuel m c (o + n) last k = some r ∧
              eachLoop S' cb' (startRule only) single fuel m c' (o' + n) last' k' = some r') ∧
            RetRel K Q r r' := by
          intro i hi
          refine ⟨fuel1 + 1, .ok (i, some stop, (cb k seg).2), .ok (i, some stop', (cb' k' seg').2),
            fun fuel m hle hlm => ?_, ⟨rfl, .some hstop, c2⟩⟩
          obtain ⟨m, rfl⟩ : ∃ m', m = m' + 1 := ⟨m - 1, by omega⟩
          exact hi fuel m (by omega)
        by_cases he1 : (cb k seg).1 > 0
        · refine once 0 fun fuel m hle => ?_
          rw [unf fuel m hle, unf' fuel m hle, if_pos he1, if_pos he1]
          exact ⟨rfl, rfl⟩
        · by_cases he2 : (cb k seg).1 < 0
          · refine once (cb k seg).1 fun fuel m hle => ?_
            · rw [unf fuel m hle, unf' fuel m hle, if_neg he1, if_neg he1, if_pos he2, if_pos he2]
              exact ⟨rfl, rfl⟩
          · by_cases he3 : (seg.eof || single) = true
            · refine once 0 fun fuel m hle => ?_
              rw [unf fuel m hle, unf' fuel m hle, if_neg he1, if_neg he1, if_neg he2, if_neg he2,
                if_pos he3, if_pos he3]
              exact ⟨rfl, rfl⟩
            · have hwl : w.length ≠ 0 := fun e => hp0 (by have := hp.len; omega)
              have htrack := hstate.errs
              obtain ⟨fuel2, r2, r2', g1, g2⟩ := ih (w.drop p).length
                (by rw [List.length_drop]; omega) (w.drop p) (w'.drop p)
                (a.next stop [{ top with children := [] }]) (b.next stop' [{ top' with children := [] }])
                (n + seg.toSegment.nnodes) (some stop) (some stop') (cb k seg).2 (cb' k' seg').2 rfl
                (forall₂_drop _ hw) (fun r => (hsame r).drop p) (hp.ready t3 stop) (hp'.ready t3' stop')
                ⟨⟨hd.ctx.at_.left, hd.ctx.at_.right,
                  ⟨hstop, rfl, ⟨htrack.color, htrack.color', htrack.known, htrack.labels, htrack.last,
                    fun e => absurd hp.labels e, .nil, fun e => absurd rfl e⟩, hstate.op, hstate.precs⟩,
                  hd.ctx.at_.both⟩,
                  { hd.ctx.mach with blocks := .cons { htop with children := .nil } .nil }⟩
                (.some hstop) c2
              refine ⟨fuel1 + fuel2 + 1, r2, r2', fun fuel m hle hlm => ?_, g2⟩
              obtain ⟨m, rfl⟩ : ∃ m', m = m' + 1 := ⟨m - 1, by omega⟩
              rw [unf fuel m (by omega), unf' fuel m (by omega), if_neg he1, if_neg he1, if_neg he2,
                if_neg he2, if_neg he3, if_neg he3, Nat.add_assoc, Nat.add_assoc]
              exact g1 fuel m (by omega) (by omega)

theorem parseEach_pair (hK : K.Ok) {S : Source σ} {S' : Source σ'} {D : Reader σ → List UInt8 → Prop}
    {D' : Reader σ' → List UInt8 → Prop} {X : Reader σ → Reader σ' → Prop} (hf : Feeds S D)
    (hf' : Feeds S' D') (hX : Both K S S' X) (only single : Bool) {Q : κ → κ' → Prop}
    {cb : κ → PSeg → Int × κ} {cb' : κ' → PSeg → Int × κ'} {cfg cfg' : Config}
    (hcb : CbRel K cfg.ordinal cfg'.ordinal Q cb cb') (hP : K.P₁ = cfg.position) (hP' : K.P₂ = cfg'.position)
    (hcol : K.col₁ = cfg.colorization) (hcol' : K.col₂ = cfg'.colorization) {src : σ} {src' : σ'} {w w' : List UInt8}
    (hi : (Reader.init src).At D w 0) (hi' : (Reader.init src').At D' w' 0)
    (hx : X (.init src) (.init src')) (hw : Forall₂ K.B w w')
    (hsame : ∀ r, Peg.Same w w' (grammar r).body) {k : κ} {k' : κ'} (hk : Q k k') :
    ∃ fuel0 r r', (∀ fuel, fuel0 ≤ fuel → parseEach S src cb k cfg only single fuel = some r ∧
        parseEach S' src' cb' k' cfg' only single fuel = some r') ∧ RetRel K Q r r' := by
  have hpos : PosRel K cfg.position cfg'.position :=
    ⟨0, 0, 0, by rw [← hP]; rfl, by rw [← hP']; rfl⟩
  obtain ⟨fuel0, r, r', h1, h2⟩ := eachLoop_pair hK hf hf' hX only single hcb w.length w w'
    (.init cfg src) (.init cfg' src') 0 none none k k' rfl hw hsame
    ⟨⟨rfl, rfl, rfl⟩, rfl, ⟨_, rfl, rfl, rfl⟩, rfl, rfl⟩
    ⟨⟨rfl, rfl, rfl⟩, rfl, ⟨_, rfl, rfl, rfl⟩, rfl, rfl⟩
    ⟨⟨hi, hi', ⟨hpos, rfl, ⟨hcol.symm, hcol'.symm, ⟨[], rfl⟩, rfl, .inl ⟨rfl, rfl, rfl⟩, fun e => absurd rfl e, .nil,
      fun e => absurd rfl e⟩, rfl, rfl⟩, hx⟩,
      ⟨.cons ⟨rfl, rfl, hpos, hpos, rfl, .nil⟩ .nil, .none, .nil, rfl, rfl, rfl, rfl, rfl, rfl, .nil, rfl⟩⟩
    .none hk
  exact ⟨fuel0, r, r', fun fuel hle => h1 fuel fuel hle hle, h2⟩

end Verif.Cypher
