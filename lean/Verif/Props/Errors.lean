import Verif.Data.Errors
/-!
# C06 (which error is reported) and C07 (the message text)
-/
namespace Verif

/-! ## C07 -/

/-- Specification: labels listed in English, "a", "a or b", "a, b or c". -/
def englishList : List (List UInt8) → List UInt8
  | [] => []
  | [a] => a
  | [a, b] => a ++ ascii " or " ++ b
  | a :: b :: c :: rest => a ++ ascii ", " ++ englishList (b :: c :: rest)

/-- Specification: the characters written as a backslash and another character, as C would. -/
def escapes : List (UInt8 × UInt8) :=
  [(7, 97), (8, 98), (9, 116), (10, 110), (11, 118), (12, 102), (13, 114), (39, 39)]

/-- Specification: how a character is named in a message. It stands between single quotes, escaped
if need be; the byte 0 stands for the end of the input. -/
def charName (c : UInt8) : List UInt8 :=
  if c = 0 then ascii "at end of input"
  else [39] ++ ((escapes.lookup c).elim [c] fun e => [92, e]) ++ [39]

theorem charName_fin : ∀ n : Fin 256, chardesc (UInt8.ofNat n.val) = charName (UInt8.ofNat n.val) := by
  decide +kernel

theorem chardesc_eq (c : UInt8) : chardesc c = charName c := by
  have h := charName_fin ⟨c.toNat, c.toNat_lt⟩
  simpa using h

/-- Specification of the message. -/
def messageSpec (col : Colorization) (c : UInt8) (labels : List (List UInt8)) : List UInt8 :=
  col.error.1 ++ ascii "Invalid input" ++ col.error.2 ++ ascii " " ++
  col.errorToken.1 ++ charName c ++ col.errorToken.2 ++ ascii ": " ++
  col.errorMessage.1 ++ ascii "expected " ++ englishList labels ++ col.errorMessage.2

theorem ascii_or : ascii " or" = [32, 111, 114] := by decide
theorem ascii_or_ : ascii " or " = [32, 111, 114, 32] := by decide
theorem ascii_comma : ascii ", " = [44, 32] := by decide
theorem ascii_expected : (ascii "expected").length = 8 := by decide
theorem ascii_expected_ : ascii "expected " = ascii "expected" ++ [32] := by decide
theorem ascii_sp : ascii " " = [32] := by decide

theorem erLabels_spec (n : Nat) : ∀ (ls : List (List UInt8)) (i : Nat) (out : List UInt8),
    ls ≠ [] → i + ls.length = n → erLabels n i ls out = out ++ [32] ++ englishList ls := by
  intro ls
  induction ls with
  | nil => intro i out h; exact absurd rfl h
  | cons a ls ih =>
    intro i out _ hi
    cases ls with
    | nil =>
      simp only [List.length_cons, List.length_nil] at hi
      have h1 : ¬ i + 1 + 1 < n := by omega
      have h2 : ¬ i + 1 < n := by omega
      simp [erLabels, h1, h2, englishList]
    | cons b ls =>
      rw [erLabels, ih (i + 1) _ (by simp) (by simp at hi ⊢; omega)]
      cases ls with
      | nil =>
        simp at hi
        have h1 : ¬ i + 1 + 1 < n := by omega
        have h2 : i + 1 < n := by omega
        simp [h1, h2, englishList, ascii_or, ascii_or_]
      | cons c ls =>
        simp at hi
        have h1 : i + 1 + 1 < n := by omega
        simp [h1, englishList, ascii_comma]

theorem erSize_foldr (ls : List (List UInt8)) (k : Nat) :
    ls.foldr (fun l acc => acc + (l.length + 2)) k = k + (ls.map List.length).sum + 2 * ls.length := by
  induction ls with
  | nil => simp
  | cons a ls ih => simp [ih]; omega

theorem englishList_length (ls : List (List UInt8)) (h : ls ≠ []) :
    (englishList ls).length + 1 =
      (ls.map List.length).sum + 2 * ls.length - 1 + (if ls.length > 1 then 2 else 0) := by
  induction ls with
  | nil => exact absurd rfl h
  | cons a ls ih =>
    cases ls with
    | nil => simp [englishList]
    | cons b ls =>
      cases ls with
      | nil => simp [englishList, ascii_or_]; omega
      | cons c ls =>
        have := ih (by simp)
        simp [englishList, ascii_comma] at this ⊢
        omega

theorem errorReport_ok (col : Colorization) (ls : List (List UInt8)) (pfx : List UInt8)
    (h : ls ≠ []) :
    errorReport col ls pfx = .ok (pfx ++ col.errorMessage.1 ++ ascii "expected " ++ englishList ls ++
      col.errorMessage.2) := by
  unfold errorReport
  simp only []
  rw [erLabels_spec ls.length ls 0 _ h (by simp)]
  have hl : 0 < ls.length := List.length_pos_iff.2 h
  have he := englishList_length ls h
  have hs := erSize_foldr ls (pfx.length + col.errorMessage.1.length + 8 + col.errorMessage.2.length + 1)
  rw [if_pos]
  · simp [ascii_expected_]
  · simp only [erSize, gt_iff_lt, hl, if_true, hs, List.length_append, ascii_expected,
      List.length_cons, List.length_nil]
    split
    · rename_i h1; simp only [h1, if_true] at he; omega
    · rename_i h1; simp only [h1, if_false] at he; omega

/-- **C07.** Turning pending labels into an error never overruns the message buffer, and the message
is complete: it names the offending character and lists every pending label, in order, once per
entry. -/
theorem error_message_complete (et : ErrTrack) (h : et.labels ≠ []) :
    ∃ et', et.reify = .ok et' ∧
      et'.errors = et.errors ++ [PErr.mk et.lastPosition
        (messageSpec et.colorization et.lastChar et.labels) none] := by
  unfold ErrTrack.reify
  have hl : ¬ et.labels.length = 0 := by
    intro e; exact h (List.eq_nil_of_length_eq_zero e)
  simp only [hl, if_false]
  rw [errorReport_ok _ _ _ h]
  refine ⟨_, rfl, ?_⟩
  simp [messageSpec, ascii_sp, chardesc_eq]

example : ∃ et', (ErrTrack.mk noColorization ⟨1, 5, 4⟩ 59
      [ascii "a", ascii "','", ascii "WHERE"] [] 0).reify = .ok et' ∧
    et'.errors = [⟨⟨1, 5, 4⟩, ascii "Invalid input ';': expected a, ',' or WHERE", none⟩] := by
  obtain ⟨et', h1, h2⟩ := error_message_complete (ErrTrack.mk noColorization ⟨1, 5, 4⟩ 59
      [ascii "a", ascii "','", ascii "WHERE"] [] 0) (by simp)
  exact ⟨et', h1, by rw [h2]; decide⟩

/-! ## C06 -/

/-- A potential error: something was expected at a place. -/
structure Note where
  pos : Pos
  c : UInt8
  label : List UInt8
  deriving DecidableEq, Repr

/-- Remove repeated entries, keeping first occurrences in order. -/
def firstOccurrences {α : Type} [DecidableEq α] (l : List α) : List α :=
  l.foldl (fun acc x => if x ∈ acc then acc else acc ++ [x]) []

/-- Greatest offset among the notes (0 if none). -/
def furthest (ns : List Note) : Nat := ns.foldl (fun m n => max m n.pos.offset) 0

/-- Notes at the greatest offset. -/
def furthestNotes (ns : List Note) : List Note :=
  ns.filter (fun n => n.pos.offset == furthest ns)

/-- Specification state: notes pending since the last report (or clear), reported errors, and the
offset below which nothing is accepted any more (the last reported error, if any). -/
structure EtSpec where
  pending : List Note
  errors : List PErr
  floor : Nat
  deriving Repr

/-- Specification: the error reported for pending notes is at the furthest place, and lists each
distinct label noted there once, in order of first appearance. -/
def reportOf (col : Colorization) (ns : List Note) : List PErr :=
  match furthestNotes ns with
  | [] => []
  | n :: rest => 
    [PErr.mk n.pos (messageSpec col n.c (firstOccurrences ((n :: rest).map Note.label))) none]

/-- Specification of the operations. -/
def EtSpec.step (col : Colorization) (s : EtSpec) : EtOp → EtSpec
  | .note p c l => if s.errors ≠ [] ∧ p.offset ≤ s.floor then s
      else { s with pending := s.pending ++ [⟨p, c, l⟩] }
  | .reify => match s.pending with
      | [] => s
      | _ => { pending := [], errors := s.errors ++ reportOf col s.pending, floor := furthest s.pending }
  | .clearPotentials => { s with pending := [] }
  | .clearErrors => { s with errors := [] }

def EtSpec.run (col : Colorization) (s : EtSpec) : List EtOp → EtSpec
  | [] => s
  | op :: ops => EtSpec.run col (s.step col op) ops

/-- Notes of a history. -/
def notesOf : List EtOp → List Note
  | [] => []
  | .note p c l :: ops => ⟨p, c, l⟩ :: notesOf ops
  | _ :: ops => notesOf ops

/-- Notes at the same offset agree on line, column and character (there is only one input). -/
def Consistent (ns : List Note) : Prop :=
  ∀ n ∈ ns, ∀ m ∈ ns, n.pos.offset = m.pos.offset → n.pos = m.pos ∧ n.c = m.c

/-- After pending notes were discarded, later notes are not before the discarded ones (until the
next report).  `stale` is the furthest discarded offset. -/
def ClearsForward (col : Colorization) : EtSpec → Nat → List EtOp → Prop
  | _, _, [] => True
  | s, stale, .note p c l :: ops =>
      (s.pending = [] → (s.step col (.note p c l)).pending ≠ [] → stale ≤ p.offset) ∧
      ClearsForward col (s.step col (.note p c l)) stale ops
  | s, stale, .reify :: ops =>
      ClearsForward col (s.step col .reify) (if s.pending = [] then stale else 0) ops
  | s, stale, .clearPotentials :: ops =>
      ClearsForward col (s.step col .clearPotentials) (max stale (furthest s.pending)) ops
  | s, stale, .clearErrors :: ops => ClearsForward col (s.step col .clearErrors) stale ops

theorem furthest_append (ns : List Note) (n : Note) :
    furthest (ns ++ [n]) = max (furthest ns) n.pos.offset := by
  simp [furthest]

theorem furthest_le (ns : List Note) : ∀ n ∈ ns, n.pos.offset ≤ furthest ns := by
  have : ∀ (l : List Note) (k : Nat), k ≤ l.foldl (fun m n => max m n.pos.offset) k ∧
      ∀ n ∈ l, n.pos.offset ≤ l.foldl (fun m n => max m n.pos.offset) k := by
    intro l
    induction l with
    | nil => intro k; simp
    | cons a l ih =>
      intro k
      obtain ⟨h1, h2⟩ := ih (max k a.pos.offset)
      simp only [List.foldl_cons]
      refine ⟨by omega, ?_⟩
      intro n hn
      rcases List.mem_cons.1 hn with rfl | hn
      · omega
      · exact h2 n hn
  exact (this ns 0).2

theorem firstOccurrences_append {α : Type} [DecidableEq α] (l : List α) (x : α) :
    firstOccurrences (l ++ [x]) =
      if x ∈ firstOccurrences l then firstOccurrences l else firstOccurrences l ++ [x] := by
  unfold firstOccurrences
  rw [List.foldl_append]
  rfl

theorem furthestNotes_append (ns : List Note) (n : Note) :
    furthestNotes (ns ++ [n]) =
      if n.pos.offset < furthest ns then furthestNotes ns
      else if n.pos.offset = furthest ns then furthestNotes ns ++ [n] else [n] := by
  unfold furthestNotes
  rw [furthest_append, List.filter_append]
  by_cases h1 : n.pos.offset < furthest ns
  · have : max (furthest ns) n.pos.offset = furthest ns := by omega
    simp [this, h1, show ¬ n.pos.offset = furthest ns by omega]
  · by_cases h2 : n.pos.offset = furthest ns
    · simp [h2]
    · have h3 : max (furthest ns) n.pos.offset = n.pos.offset := by omega
      simp only [h3, h1, h2, if_false]
      have : ns.filter (fun m => m.pos.offset == n.pos.offset) = [] := by
        rw [List.filter_eq_nil_iff]
        intro m hm
        have := furthest_le ns m hm
        simp; omega
      simp [this]


theorem furthestNotes_offset {ns : List Note} : ∀ n ∈ furthestNotes ns, n.pos.offset = furthest ns := by
  intro n hn
  simp [furthestNotes] at hn
  exact hn.2

theorem furthestNotes_mem {ns : List Note} : ∀ n ∈ furthestNotes ns, n ∈ ns := by
  intro n hn
  exact (List.mem_filter.1 hn).1

/-- Relation between tracker and specification. -/
structure EtRel (col : Colorization) (et : ErrTrack) (s : EtSpec) (stale : Nat) : Prop where
  col : et.colorization = col
  errs : et.errors = s.errors
  floor : s.errors ≠ [] → et.lastErrorOffset = s.floor
  empty : s.pending = [] → et.labels = [] ∧ et.lastPosition.offset ≤ stale
  full : s.pending ≠ [] → ∃ n rest, furthestNotes s.pending = n :: rest ∧
    et.lastPosition = n.pos ∧ et.lastChar = n.c ∧
    et.labels = firstOccurrences ((n :: rest).map Note.label)

theorem firstOccurrences_ne_nil {α : Type} [DecidableEq α] (a : α) (l : List α) :
    firstOccurrences (a :: l) ≠ [] := by
  have : ∀ (l acc : List α), acc ≠ [] →
      l.foldl (fun acc x => if x ∈ acc then acc else acc ++ [x]) acc ≠ [] := by
    intro l
    induction l with
    | nil => intro acc h; exact h
    | cons b l ih =>
      intro acc h
      simp only [List.foldl_cons]
      split
      · exact ih acc h
      · exact ih _ (by simp)
  unfold firstOccurrences
  simp only [List.foldl_cons, List.not_mem_nil, if_false, List.nil_append]
  exact this l [a] (by simp)

theorem note_rel {col : Colorization} {et : ErrTrack} {s : EtSpec} {stale : Nat}
    (h : EtRel col et s stale) (p : Pos) (c : UInt8) (l : List UInt8)
    (hcons : Consistent (s.pending ++ [⟨p, c, l⟩]))
    (hst : s.pending = [] → (s.step col (.note p c l)).pending ≠ [] → stale ≤ p.offset) :
    ∃ et', et.note p c l = .ok et' ∧ EtRel col et' (s.step col (.note p c l)) stale := by
  unfold ErrTrack.note
  by_cases hfl : s.errors ≠ [] ∧ p.offset ≤ s.floor
  · -- rejected: at or before the last reported error
    have hs : s.step col (.note p c l) = s := by simp [EtSpec.step, hfl]
    rw [hs]
    refine ⟨et, ?_, h⟩
    rw [if_pos]
    right
    refine ⟨?_, by rw [h.floor hfl.1]; exact hfl.2⟩
    rw [h.errs]; exact List.length_pos_iff.2 hfl.1
  · have hs : s.step col (.note p c l) = { s with pending := s.pending ++ [⟨p, c, l⟩] } := by
      simp only [EtSpec.step, if_neg hfl]
    rw [hs] at hst ⊢
    have hfl' : ¬ (et.errors.length > 0 ∧ p.offset ≤ et.lastErrorOffset) := by
      rintro ⟨h1, h2⟩
      rw [h.errs] at h1
      have hne := List.length_pos_iff.1 h1
      rw [h.floor hne] at h2
      exact hfl ⟨hne, h2⟩
    by_cases hp : s.pending = []
    · obtain ⟨hl, hle⟩ := h.empty hp
      have hst' := hst hp (by simp)
      rw [if_neg (by simp only [not_or]; exact ⟨by omega, hfl'⟩)]
      simp only [hl, List.length_nil, true_or, if_true, ne_eq, not_true, false_and, if_false,
        List.not_mem_nil, List.nil_append]
      refine ⟨_, rfl, ⟨h.col, h.errs, h.floor, by simp, fun _ => ?_⟩⟩
      refine ⟨⟨p, c, l⟩, [], ?_, rfl, rfl, ?_⟩
      · simp [hp, furthestNotes, furthest]
      · simp [firstOccurrences]
    · obtain ⟨n, rest, hn, h1, h2, h3⟩ := h.full hp
      have hoff : n.pos.offset = furthest s.pending := furthestNotes_offset n (by simp [hn])
      have hlne : et.labels ≠ [] := by rw [h3]; exact firstOccurrences_ne_nil _ _
      have hlne' : ¬ et.labels.length = 0 := fun e => hlne (List.eq_nil_of_length_eq_zero e)
      by_cases hlt : p.offset < et.lastPosition.offset
      · -- before the furthest place: dropped by both
        rw [if_pos (.inl hlt)]
        refine ⟨et, rfl, ⟨h.col, h.errs, h.floor, by simp, fun _ => ⟨n, rest, ?_, h1, h2, h3⟩⟩⟩
        rw [furthestNotes_append, if_pos (by simp only []; rw [h1] at hlt; omega)]
        exact hn
      · rw [if_neg (by simp only [not_or]; exact ⟨hlt, hfl'⟩)]
        by_cases hgt : p.offset > et.lastPosition.offset
        · simp only [hgt, or_true, if_true, List.length_nil, ne_eq, not_true, false_and, if_false,
            List.not_mem_nil, List.nil_append]
          refine ⟨_, rfl, ⟨h.col, h.errs, h.floor, by simp, fun _ =>
            ⟨⟨p, c, l⟩, [], ?_, rfl, rfl, by simp [firstOccurrences]⟩⟩⟩
          rw [h1] at hgt
          simp only []
          rw [furthestNotes_append, if_neg (by simp only []; omega), if_neg (by simp only []; omega)]
        · have heq : p.offset = n.pos.offset := by rw [h1] at hlt hgt; omega
          have hmem : n ∈ s.pending := furthestNotes_mem n (by simp [hn])
          obtain ⟨c1, c2⟩ := hcons n (by simp [hmem]) ⟨p, c, l⟩ (by simp) heq.symm
          simp only [] at c1 c2
          simp only [hlne', hgt, or_self, if_false, ne_eq, not_false_eq_true, true_and]
          rw [if_neg (by rw [h1, h2, c1, c2]; simp)]
          have hfa : furthestNotes (s.pending ++ [⟨p, c, l⟩]) = n :: (rest ++ [⟨p, c, l⟩]) := by
            rw [furthestNotes_append, if_neg (by simp only []; omega),
              if_pos (by simp only []; omega), hn]; rfl
          have hfo : firstOccurrences ((n :: (rest ++ [⟨p, c, l⟩])).map Note.label) =
              if l ∈ et.labels then et.labels else et.labels ++ [l] := by
            rw [h3]
            have e := firstOccurrences_append (List.map Note.label (n :: rest)) l
            have e2 : List.map Note.label (n :: (rest ++ [⟨p, c, l⟩])) =
                List.map Note.label (n :: rest) ++ [l] := by simp
            rw [e2, e]
            by_cases hin : l ∈ firstOccurrences (List.map Note.label (n :: rest))
            · rw [if_pos hin, if_pos hin]
            · rw [if_neg hin, if_neg hin]
          by_cases hin : l ∈ et.labels
          · rw [if_pos hin]
            rw [if_pos hin] at hfo
            exact ⟨et, rfl, ⟨h.col, h.errs, h.floor, by simp, fun _ =>
              ⟨n, _, hfa, h1, h2, hfo.symm⟩⟩⟩
          · rw [if_neg hin]
            rw [if_neg hin] at hfo
            exact ⟨_, rfl, ⟨h.col, h.errs, h.floor, by simp, fun _ =>
              ⟨n, _, hfa, h1, h2, hfo.symm⟩⟩⟩

theorem reify_rel {col : Colorization} {et : ErrTrack} {s : EtSpec} {stale : Nat}
    (h : EtRel col et s stale) :
    ∃ et', et.reify = .ok et' ∧
      EtRel col et' (s.step col .reify) (if s.pending = [] then stale else 0) := by
  by_cases hp : s.pending = []
  · obtain ⟨hl, _⟩ := h.empty hp
    refine ⟨et, by simp [ErrTrack.reify, hl], ?_⟩
    have : s.step col .reify = s := by simp [EtSpec.step, hp]
    rw [this, if_pos hp]; exact h
  · obtain ⟨n, rest, hn, h1, h2, h3⟩ := h.full hp
    have hlne : et.labels ≠ [] := by rw [h3]; exact firstOccurrences_ne_nil _ _
    have hl : ¬ et.labels.length = 0 := fun e => hlne (List.eq_nil_of_length_eq_zero e)
    have hoff : n.pos.offset = furthest s.pending := furthestNotes_offset n (by simp [hn])
    have hs : s.step col .reify =
        { pending := [], errors := s.errors ++ reportOf col s.pending, floor := furthest s.pending } := by
      unfold EtSpec.step
      cases hq : s.pending with
      | nil => exact absurd hq hp
      | cons a b => rfl
    rw [hs, if_neg hp]
    unfold ErrTrack.reify
    simp only [hl, if_false]
    rw [errorReport_ok _ _ _ hlne]
    refine ⟨_, rfl, ⟨h.col, ?_, fun _ => by simp [h1, hoff], fun _ => by simp, by simp⟩⟩
    simp only [h.errs, reportOf, hn, h1, h2, h3, messageSpec, h.col, ascii_sp, chardesc_eq]

theorem run_rel {col : Colorization} (ops : List EtOp) : ∀ {et : ErrTrack} {s : EtSpec} {stale : Nat},
    EtRel col et s stale → Consistent (s.pending ++ notesOf ops) → ClearsForward col s stale ops →
    ∃ et' stale', et.run ops = .ok et' ∧ EtRel col et' (s.run col ops) stale' := by
  induction ops with
  | nil => intro et s stale h _ _; exact ⟨et, stale, rfl, h⟩
  | cons op ops ih =>
    intro et s stale h hc hf
    cases op with
    | note p c l =>
      simp only [notesOf] at hc
      have hc1 : Consistent (s.pending ++ [⟨p, c, l⟩]) := by
        intro n hn m hm
        refine hc n ?_ m ?_ <;> simp at hn hm ⊢ <;> grind
      obtain ⟨et', e1, e2⟩ := note_rel h p c l hc1 hf.1
      have hc2 : Consistent ((s.step col (.note p c l)).pending ++ notesOf ops) := by
        intro n hn m hm
        have key : ∀ x, x ∈ (s.step col (.note p c l)).pending ++ notesOf ops →
            x ∈ s.pending ++ ⟨p, c, l⟩ :: notesOf ops := by
          intro x hx
          simp only [EtSpec.step] at hx
          split at hx <;> simp at hx ⊢ <;> grind
        exact hc n (key n hn) m (key m hm)
      obtain ⟨et'', st, f1, f2⟩ := ih e2 hc2 hf.2
      exact ⟨et'', st, by simp [ErrTrack.run, ErrTrack.step, e1, f1], f2⟩
    | reify =>
      simp only [notesOf] at hc
      obtain ⟨et', e1, e2⟩ := reify_rel h
      have hc2 : Consistent ((s.step col .reify).pending ++ notesOf ops) := by
        intro n hn m hm
        have key : ∀ x, x ∈ (s.step col .reify).pending ++ notesOf ops →
            x ∈ s.pending ++ notesOf ops := by
          intro x hx
          unfold EtSpec.step at hx
          cases hq : s.pending with
          | nil => simpa [hq] using hx
          | cons a b => simp [hq] at hx ⊢; grind
        exact hc n (key n hn) m (key m hm)
      obtain ⟨et'', st, f1, f2⟩ := ih e2 hc2 hf
      exact ⟨et'', st, by simp [ErrTrack.run, ErrTrack.step, e1, f1], f2⟩
    | clearPotentials =>
      simp only [notesOf] at hc
      have e2 : EtRel col et.clearPotentials (s.step col .clearPotentials)
          (max stale (furthest s.pending)) := by
        refine ⟨h.col, h.errs, h.floor, fun _ => ⟨rfl, ?_⟩, by simp [EtSpec.step]⟩
        simp only [ErrTrack.clearPotentials]
        by_cases hp : s.pending = []
        · have := (h.empty hp).2; omega
        · obtain ⟨n, rest, hn, h1, _, _⟩ := h.full hp
          have hoff : n.pos.offset = furthest s.pending := furthestNotes_offset n (by simp [hn])
          rw [h1]; omega
      obtain ⟨et'', st, f1, f2⟩ := ih e2 (by
        intro n hn m hm
        simp [EtSpec.step] at hn hm
        exact hc n (by simp [hn]) m (by simp [hm])) hf
      exact ⟨et'', st, by simp [ErrTrack.run, ErrTrack.step, f1], f2⟩
    | clearErrors =>
      simp only [notesOf] at hc
      have e2 : EtRel col et.clearErrors (s.step col .clearErrors) stale :=
        ⟨h.col, by simp [ErrTrack.clearErrors, EtSpec.step], by simp [EtSpec.step], h.empty, h.full⟩
      obtain ⟨et'', st, f1, f2⟩ := ih e2 hc hf
      exact ⟨et'', st, by simp [ErrTrack.run, ErrTrack.step, f1], f2⟩

/-- **C06 (partial).** For every history of notes, reports and clears in which notes at one offset
agree on position and character, the tracker reports exactly the errors of the specification: each
at the furthest place noted since the previous report, with the distinct labels noted there, and
never at or before an error already reported.  No assertion is violated.
*Missing:* histories in which, after pending notes were discarded (`clearPotentials`), the next note
is *before* a discarded one; there the claim is false (`clear_potentials_stale`). -/
theorem error_furthest_partial (col : Colorization) (ops : List EtOp)
    (hc : Consistent (notesOf ops)) (hf : ClearsForward col ⟨[], [], 0⟩ 0 ops) :
    ∃ et, (ErrTrack.init col).run ops = .ok et ∧
      et.errors = (EtSpec.run col ⟨[], [], 0⟩ ops).errors := by
  obtain ⟨et, st, h1, h2⟩ := run_rel (col := col) ops (et := ErrTrack.init col) (s := ⟨[], [], 0⟩)
    (stale := 0) ⟨rfl, rfl, by simp, by simp [ErrTrack.init], by simp⟩ (by simpa using hc) hf
  exact ⟨et, h1, h2.errs⟩

/-- Histories that never discard pending notes satisfy the ordering hypothesis. -/
theorem clearsForward_of_no_clear (col : Colorization) (ops : List EtOp)
    (h : EtOp.clearPotentials ∉ ops) : ∀ s, ClearsForward col s 0 ops := by
  induction ops with
  | nil => intro s; trivial
  | cons op ops ih =>
    intro s
    simp only [List.mem_cons, not_or] at h
    have ih := ih h.2
    cases op with
    | note p c l => exact ⟨by intros; omega, ih _⟩
    | reify => unfold ClearsForward; split <;> exact ih _
    | clearPotentials => exact absurd rfl h.1
    | clearErrors => exact ih _

/-- **C06 (no discards).** Without discards no ordering hypothesis is needed. -/
theorem error_furthest_no_clear (col : Colorization) (ops : List EtOp)
    (hc : Consistent (notesOf ops)) (hn : EtOp.clearPotentials ∉ ops) :
    ∃ et, (ErrTrack.init col).run ops = .ok et ∧
      et.errors = (EtSpec.run col ⟨[], [], 0⟩ ops).errors :=
  error_furthest_partial col ops hc (clearsForward_of_no_clear col ops hn _)

/-- Two alternatives failing at offsets 3 and 7, the further one wins, with both its labels. -/
example : ∃ et, (ErrTrack.init noColorization).run
    [.note ⟨1, 4, 3⟩ 97 (ascii "x"), .note ⟨1, 8, 7⟩ 98 (ascii "y"), .note ⟨1, 4, 3⟩ 97 (ascii "z"),
     .note ⟨1, 8, 7⟩ 98 (ascii "w"), .note ⟨1, 8, 7⟩ 98 (ascii "y"), .reify] = .ok et ∧
    et.errors = [⟨⟨1, 8, 7⟩, ascii "Invalid input 'b': expected y or w", none⟩] := by
  obtain ⟨et, h1, h2⟩ := error_furthest_no_clear noColorization
    [.note ⟨1, 4, 3⟩ 97 (ascii "x"), .note ⟨1, 8, 7⟩ 98 (ascii "y"), .note ⟨1, 4, 3⟩ 97 (ascii "z"),
     .note ⟨1, 8, 7⟩ 98 (ascii "w"), .note ⟨1, 8, 7⟩ 98 (ascii "y"), .reify]
    (by unfold Consistent; decide) (by decide)
  exact ⟨et, h1, by rw [h2]; decide⟩

/-- **C06 (negation for discards).** After a discard, a note before the discarded place is silently
dropped: the report that follows is empty although something was noted. -/
theorem clear_potentials_stale :
    let ops : List EtOp := [.note ⟨1, 8, 7⟩ 98 [121], .clearPotentials, .note ⟨1, 4, 3⟩ 97 [120], .reify]
    (∃ et, (ErrTrack.init noColorization).run ops = .ok et ∧ et.errors = []) ∧
    (EtSpec.run noColorization ⟨[], [], 0⟩ ops).errors ≠ [] :=
  ⟨⟨_, rfl, rfl⟩, by decide⟩

/-- **C06 (order).** Reported errors (since the last clear) have strictly increasing offsets. -/
theorem errors_increasing (col : Colorization) (ops : List EtOp)
    (hc : Consistent (notesOf ops)) (hf : ClearsForward col ⟨[], [], 0⟩ 0 ops) :
    ∃ et, (ErrTrack.init col).run ops = .ok et ∧
      et.errors.Pairwise (fun a b => a.position.offset < b.position.offset) := by
  obtain ⟨et, h1, h2⟩ := error_furthest_partial col ops hc hf
  refine ⟨et, h1, ?_⟩
  rw [h2]
  -- invariant of the specification
  let Inv : EtSpec → Prop := fun s =>
    s.errors.Pairwise (fun a b => a.position.offset < b.position.offset) ∧
    (∀ e ∈ s.errors, e.position.offset ≤ s.floor) ∧
    (s.errors ≠ [] → ∀ n ∈ s.pending, s.floor < n.pos.offset)
  have step : ∀ s op, Inv s → Inv (s.step col op) := by
    rintro s op ⟨i1, i2, i3⟩
    cases op with
    | note p c l =>
      simp only [EtSpec.step]
      split
      · exact ⟨i1, i2, i3⟩
      · rename_i hn
        refine ⟨i1, i2, fun hne n hm => ?_⟩
        rcases List.mem_append.1 hm with hm | hm
        · exact i3 hne n hm
        · simp at hm; subst hm
          simp only [not_and] at hn
          have := hn hne
          simp; omega
    | reify =>
      cases hp : s.pending with
      | nil =>
        have : s.step col .reify = s := by simp [EtSpec.step, hp]
        rw [this]; exact ⟨i1, i2, i3⟩
      | cons a b =>
        have hs : s.step col .reify = 
            ⟨[], s.errors ++ reportOf col s.pending, furthest s.pending⟩ := by
          unfold EtSpec.step; rw [hp]
        rw [hs]
        have hrep : ∀ e ∈ reportOf col s.pending, e.position.offset = furthest s.pending := by
          intro e he
          unfold reportOf at he
          split at he
          · simp at he
          · rename_i n rest hn
            simp at he; subst he
            exact furthestNotes_offset n (by simp [hn])
        have hfl : s.errors ≠ [] → s.floor < furthest s.pending := by
          intro hne
          have h1 := i3 hne a (by simp [hp])
          have h2 := furthest_le s.pending a (by simp [hp])
          omega
        refine ⟨?_, ?_, by simp⟩
        · simp only []
          rw [List.pairwise_append]
          refine ⟨i1, ?_, ?_⟩
          · unfold reportOf; split <;> simp
          · intro x hx y hy
            have hne : s.errors ≠ [] := by intro e; simp [e] at hx
            rw [hrep y hy]
            have := i2 x hx; have := hfl hne
            omega
        · intro e he
          simp only [] at he ⊢
          rcases List.mem_append.1 he with he | he
          · have hne : s.errors ≠ [] := by intro e'; simp [e'] at he
            have := i2 e he; have := hfl hne
            omega
          · rw [hrep e he]; exact Nat.le_refl _
    | clearPotentials => exact ⟨i1, i2, by simp [EtSpec.step]⟩
    | clearErrors => exact ⟨by simp [EtSpec.step], by simp [EtSpec.step], by simp [EtSpec.step]⟩
  have run : ∀ ops s, Inv s → Inv (s.run col ops) := by
    intro ops
    induction ops with
    | nil => intro s h; exact h
    | cons op ops ih => intro s h; exact ih _ (step s op h)
  exact (run ops ⟨[], [], 0⟩ ⟨by simp, by simp, by simp⟩).1

end Verif
