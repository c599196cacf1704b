import Verif.Cypher.Takes
import Verif.Cypher.StmtSpec
/-!
# Keywords

What the rules for keywords read, and which rules do not match where a keyword stands.
-/
namespace Verif.Stmts
open Verif.Peg Verif.Exprs Verif.Cypher Verif.Cypher.Win
open Verif.Ops (words bytes upper)

variable {w : List UInt8}

def kOutside : CharSet := ⟨2 ^ 256 - 1 - symPart.mask⟩
theorem outside_mem {c : UInt8} (h : sym c = false) : kOutside.mem c = true := by
  have : (sym c || kOutside.mem c) = true := every_byte (P := fun c => sym c || kOutside.mem c) (by decide +kernel) c
  simpa [h] using this

def wordy (x : String) : Bool := (bytes x).all letter

/-- What comes after a word. -/
def Outside (r : List UInt8) : Prop := r = [] ∨ ∃ c r', r = c :: r' ∧ sym c = false

/-- The text begins with one of the words or signs; a word ends there. The empty word stands for the end of the text. -/
def Begins (xs : List String) (t : List UInt8) : Prop :=
  ("" ∈ xs ∧ t = []) ∨ ∃ x ∈ xs, bytes x ≠ [] ∧ ∃ s r, t = s ++ r ∧ s.map upper = bytes x ∧ (wordy x = true → Outside r)

theorem Begins.mono {xs ys : List String} {t : List UInt8} (h : Begins xs t) (hs : ∀ x ∈ xs, x ∈ ys) : Begins ys t := by
  rcases h with ⟨h, e⟩ | ⟨x, hx, h⟩
  · exact .inl ⟨hs _ h, e⟩
  · exact .inr ⟨x, hs x hx, h⟩

/-- The cells of a word and of what comes after it. -/
def wins (x : String) : List (List Tile × List Tile) :=
  bif (bytes x).isEmpty then [([.fin], [])]
  else bif wordy x then [(wordCells (bytes x), [.hole kOutside]), (wordCells (bytes x), [.fin])]
  else [(wordCells (bytes x), [])]

/-- No match at any of the words. -/
def avoids (xs : List String) (e : E) : Bool :=
  xs.all fun x => (wins x).all fun AB => noAt (run 100 (.mk2 AB.1 AB.2 [] [] [] none) e 0 .same [])
def avoidsAt (xs : List String) (e : E) : Bool :=
  xs.all fun x => (wins x).all fun AB => (List.range 15).all fun M =>
    noAt (run 100 (.mk2 AB.1 AB.2 [] [] [] (some M)) e 0 .same [])

theorem Begins.lay {xs : List String} {t : List UInt8} (h : Begins xs t) {p : Nat} (hh : Here w p t) :
    ∃ x ∈ xs, ∃ AB ∈ wins x, ∃ p1 qs, Span w AB.1 p p1 ∧ Lay w AB.2 p1 qs := by
  rcases h with ⟨h, rfl⟩ | ⟨x, hx, hn, s, r, rfl, h1, h2⟩
  · exact ⟨"", h, ([.fin], []), by decide +kernel, p, [], .cons (.of_fin hh) .nil, .nil⟩
  · have hsp := Span.word h1 hh
    have he : (bytes x).isEmpty = false := by simpa using hn
    unfold wins
    cases hw : wordy x with
    | false => exact ⟨x, hx, (wordCells (bytes x), []), by rw [he, hw]; simp, _, _, hsp, .nil⟩
    | true =>
      rcases h2 hw with rfl | ⟨c, r', rfl, h3⟩
      · exact ⟨x, hx, (wordCells (bytes x), [.fin]), by rw [he, hw]; simp, _, [0], hsp, .cons (.of_fin hh.right) .nil⟩
      · exact ⟨x, hx, (wordCells (bytes x), [.hole kOutside]), by rw [he, hw]; simp, _, [0], hsp, .cons (.of_hole hh.right (outside_mem h3)) .nil⟩

theorem Begins.refuses {xs : List String} {t : List UInt8} {e : E} (h : Begins xs t) (ha : avoids xs e = true) :
    Refuses w e t := by
  intro p hh
  obtain ⟨x, hx, AB, hAB, p1, qs, h1, h2⟩ := h.lay hh
  unfold avoids at ha
  simp only [List.all_eq_true] at ha
  exact Win.shuns (ha x hx AB hAB) h1 h2 (by simp) (by simp) (by simp)

theorem Begins.refusesAt {xs : List String} {t : List UInt8} {e : E} (h : Begins xs t) (ha : avoidsAt xs e = true)
    {p : Nat} (hh : Here w p t) {M : Nat} (hM : M < 15) : ShunsAt w M e p := by
  obtain ⟨x, hx, AB, hAB, p1, qs, h1, h2⟩ := h.lay hh
  unfold avoidsAt at ha
  simp only [List.all_eq_true] at ha
  exact Win.shunsAt (ha x hx AB hAB M (by simpa using hM)) h1 h2 (by simp) (by simp) (by simp)

/-- What may follow an expression. -/
def enders : List String :=
  ["", ",", ";", ")", "|", "]", "}", "AS", "ASC", "ASCENDING", "DESC", "DESCENDING", "ORDER", "SKIP", "LIMIT", "WHERE",
    "MATCH", "OPTIONAL", "RETURN", "UNWIND", "MERGE", "CREATE", "SET", "DELETE", "DETACH", "REMOVE", "WITH", "FOREACH",
    "CALL", "LOAD", "START", "UNION", "FIELDTERMINATOR", "WHEN", "THEN", "ELSE", "END", "ON"]

theorem enders_loop : avoidsAt enders loop = true := by decide +kernel
theorem enders_cmp : avoidsAt enders cmpStep = true := by decide +kernel

theorem enders_head : ∀ x ∈ enders, bytes x ≠ [] → ((bytes x).head?.any fun c => kTail.mem c && c != 46 && c != 47 &&
    ((List.range 256).all fun n => upper n.toUInt8 != c || (kTail.mem n.toUInt8 && n.toUInt8 != 46 && n.toUInt8 != 47))) = true := by
  decide +kernel

theorem Begins.head {xs : List String} {t : List UInt8} (h : Begins xs t) (hx : ∀ x ∈ xs, x ∈ enders) :
    t = [] ∨ ∃ c r, t = c :: r ∧ kTail.mem c = true ∧ c ≠ 46 ∧ c ≠ 47 := by
  rcases h with ⟨-, h⟩ | ⟨x, hx', hn, s, r, rfl, h1, -⟩
  · exact .inl h
  have := enders_head x (hx x hx') hn
  cases s with
  | nil => rw [← h1] at this; simp at this
  | cons c s =>
    rw [← h1] at this
    simp only [List.map_cons, List.head?_cons, Option.any_some, Bool.and_eq_true, List.all_eq_true] at this
    have h2 := this.2 c.toNat (by simpa using UInt8.toNat_lt c)
    simp only [UInt8.ofNat_toNat, Nat.toUInt8, bne_self_eq_false, Bool.false_or, Bool.and_eq_true, bne_iff_ne] at h2
    exact .inr ⟨c, s ++ r, rfl, h2.1.1, h2.1.2, h2.2⟩

theorem Begins.tail {xs : List String} {t : List UInt8} (h : Begins xs t) (hx : ∀ x ∈ xs, x ∈ enders) : TailText t := by
  rcases h.head hx with rfl | ⟨c, r, rfl, h1, -, h3⟩
  · exact ⟨.inl rfl, .inl rfl⟩
  · exact .of h1 (fun h => absurd h h3)

/-- An expression ends before each of them. -/
theorem Begins.stop {xs : List String} {t : List UInt8} (h : Begins xs t) (hx : ∀ x ∈ xs, x ∈ enders) {p : Nat}
    (hh : Here w p t) : StopAt w p t where
  here := hh
  tail := h.tail hx
  dot := by
    rcases h.head hx with rfl | ⟨c, r, rfl, -, h2, -⟩
    · simp
    · simpa using h2
  loop M hM := (h.mono hx).refusesAt enders_loop hh hM
  cmp M hM := (h.mono hx).refusesAt enders_cmp hh hM

/-! ## Keywords -/

theorem Key.text {x : String} {k : Piece} (h : Key x k) (hx : bytes x ≠ []) : k.text ≠ [] := by
  obtain ⟨h1, -⟩ := h
  intro e
  simp only at e
  subst e
  exact hx h1.symm

theorem Key.ends {x : String} {k : Piece} (h : Key x k) (hx : wordy x = true) (hn : bytes x ≠ []) : EndsSym k.text := by
  obtain ⟨h1, -⟩ := h
  exact word_ends h1 hx hn

theorem Gap.outside {b : List UInt8} (h : Gap b) (hn : b ≠ []) : ∃ c r, b = c :: r ∧ sym c = false := by
  cases h with
  | nil => exact absurd rfl hn
  | char hc _ => exact ⟨_, _, rfl, by rcases hc with rfl | rfl | rfl <;> decide⟩
  | crlf _ => exact ⟨_, _, rfl, by decide⟩

/-- After a word. -/
theorem word_next {k : Piece} {Y : List Piece} {t : List UInt8} (hb : Gap k.blank) (he : EndsSym k.text)
    (hY : ∀ y ∈ Y, y.text ≠ []) (hs : Spaced (k :: (Y ++ [endPiece t]))) : Outside (k.blank ++ (render Y ++ t)) := by
  by_cases hb0 : k.blank = []
  · have := (hs.apart hY hb0).1
    rw [hb0]
    cases hr : render Y ++ t with
    | nil => exact .inl rfl
    | cons c r =>
      rw [hr] at this
      refine .inr ⟨c, r, rfl, ?_⟩
      cases h : sym c with
      | false => rfl
      | true => exact absurd ⟨he, by simpa using h⟩ this
  · obtain ⟨c, r, h1, h2⟩ := Gap.outside hb hb0
    exact .inr ⟨c, _, by rw [h1]; rfl, h2⟩

theorem Key.begins {x : String} {k : Piece} (h : Key x k) (hx : bytes x ≠ []) {Y : List Piece} {t : List UInt8}
    (hY : ∀ y ∈ Y, y.text ≠ []) (hs : Spaced (k :: (Y ++ [endPiece t]))) :
    Begins [x] (render (k :: Y) ++ t) := by
  have he := h.ends (hn := hx)
  obtain ⟨h1, h2⟩ := h
  refine .inr ⟨x, by simp, hx, _, _, render_cons, h1, fun hw => ?_⟩
  exact word_next h2 (he hw) hY hs

/-- No white space begins so, and no comment. -/
def firm (x : String) : Bool := (bytes x).head?.any fun d => (List.range 256).all fun n => upper n.toUInt8 != d ||
  (n.toUInt8 != 32 && n.toUInt8 != 9 && n.toUInt8 != 10 && n.toUInt8 != 13 && n.toUInt8 != 47)

theorem firm_solid {x : String} {s r : List UInt8} (h : s.map upper = bytes x) (hx : firm x = true) : Solid (s ++ r) := by
  unfold firm at hx
  rw [← h] at hx
  cases s with
  | nil => simp at hx
  | cons c s =>
    simp only [List.map_cons, List.head?_cons, Option.any_some, List.all_eq_true] at hx
    have h2 := hx c.toNat (by simpa using UInt8.toNat_lt c)
    simp only [UInt8.ofNat_toNat, Nat.toUInt8, bne_self_eq_false, Bool.false_or, Bool.and_eq_true, bne_iff_ne] at h2
    exact .inr ⟨c, s ++ r, rfl, h2.1.1.1.1, h2.1.1.1.2, h2.1.1.2, h2.1.2, fun h => absurd h h2.2⟩

theorem Key.solid {x : String} {k : Piece} (h : Key x k) (hx : firm x = true) {Y : List Piece} {t : List UInt8} :
    Solid (render (k :: Y) ++ t) := by
  obtain ⟨h1, -⟩ := h
  rw [render_cons]
  exact firm_solid h1 hx

/-- What may follow a word. -/
def wordEnds : List (List Tile) := [[.ws true, .hole ⟨2 ^ 256 - 1⟩], [.ws false, .hole kOutside], [.ws false, .fin]]

theorem any_byte (c : UInt8) : CharSet.mem ⟨2 ^ 256 - 1⟩ c = true :=
  every_byte (P := fun c => CharSet.mem ⟨2 ^ 256 - 1⟩ c) (by decide +kernel) c

theorem ends_lay {b t : List UInt8} (hb : Gap b) (ht : Solid t) (ha : b = [] → t.head?.any sym = false)
    {p : Nat} (h : Here w p (b ++ t)) (p' : Nat) : ∃ B ∈ wordEnds, Lay w B p [p + b.length, p'] := by
  rcases id ht with rfl | ⟨c, r, rfl, -⟩
  · exact ⟨_, by simp [wordEnds], fin_lay hb h p'⟩
  by_cases hb0 : b = []
  · exact ⟨[.ws false, .hole kOutside], by simp [wordEnds], gap_lay hb ht rfl (outside_mem (by simpa using ha hb0)) (by simp) h p'⟩
  · exact ⟨[.ws true, .hole ⟨2 ^ 256 - 1⟩], by simp [wordEnds], gap_lay hb ht rfl (any_byte c) (fun _ => hb0) h p'⟩

/-- The rule reads the words and the white space after them. -/
def reads (xs : List String) (e : E) : Bool :=
  wordEnds.all fun B => okAt ((opCells (xs.map bytes)).length + 1) (run 100 (.mk2 (opCells (xs.map bytes)) B [] [] [] none) e 0 .same [])

theorem Key.takes {x : String} {k : Piece} {t : List UInt8} {e : E} (h : Key x k) (hr : reads [x] e = true)
    (hw : (wordy x && !(bytes x).isEmpty) = true) (ht : Solid t) : Takes w e [k] t := by
  simp only [Bool.and_eq_true, Bool.not_eq_true', List.isEmpty_eq_false_iff] at hw
  refine ⟨by simpa using h.text hw.2, fun p h1 h2 => ?_⟩
  have he := h.ends hw.1 hw.2
  obtain ⟨h3, h4⟩ := h
  rename_i s b
  have h5 : b = [] → t.head?.any sym = false := by
    intro hb
    have := (h2.1 hb).1
    cases h : t.head?.any sym with
    | false => rfl
    | true => exact absurd ⟨he, h⟩ this
  have h6 : Here w p (s ++ (b ++ t)) := by simpa [render] using h1
  obtain ⟨B, hB, h7⟩ := ends_lay h4 ht h5 h6.right (p + s.length + b.length)
  unfold reads at hr
  rw [List.all_eq_true] at hr
  refine (Win.eats (hr B hB) (Span.word h3 h6) h7 (by simp) (by simp) (by simp)).to ?_
  simp [Mark, render]; omega

/-- The same for two words. -/
theorem Key.takes2 {x y : String} {k k' : Piece} {t : List UInt8} {e : E} (h : Key x k) (h' : Key y k')
    (hr : reads [x, y] e = true)
    (hw : (wordy x && !(bytes x).isEmpty && (wordy y && !(bytes y).isEmpty)) = true) (ht : Solid t) : Takes w e [k, k'] t := by
  simp only [Bool.and_eq_true, Bool.not_eq_true', List.isEmpty_eq_false_iff] at hw
  refine ⟨by simpa using ⟨h.text hw.1.2, h'.text hw.2.2⟩, fun p h1 h2 => ?_⟩
  have he := h.ends hw.1.1 hw.1.2
  have he' := h'.ends hw.2.1 hw.2.2
  obtain ⟨h3, h4⟩ := h
  obtain ⟨h3', h4'⟩ := h'
  rename_i s b s' b'
  have h5 : b' = [] → t.head?.any sym = false := by
    intro hb
    have := (h2.2.1 hb).1
    cases h : t.head?.any sym with
    | false => rfl
    | true => exact absurd ⟨he', h⟩ this
  have hb : b ≠ [] := by
    intro hb
    refine (h2.1 hb).1 ⟨he, ?_⟩
    cases s' with
    | nil => exact absurd h3'.symm hw.2.2
    | cons c s' =>
      have : wordy y = true := hw.2.1
      unfold wordy at this
      rw [← h3'] at this
      simp only [List.map_cons, List.all_cons, Bool.and_eq_true] at this
      have h : ∀ c, letter (upper c) = true → sym c = true := fun c =>
        imp_byte (P := fun c => letter (upper c)) (Q := sym) (by decide +kernel)
      simpa using h c this.1
  have h6 : Here w p ((s ++ (b ++ s')) ++ (b' ++ t)) := by simpa [render] using h1
  obtain ⟨B, hB, h7⟩ := ends_lay h4' ht h5 h6.right (p + (s ++ (b ++ s')).length + b'.length)
  unfold reads at hr
  rw [List.all_eq_true] at hr
  have hsp : Spelled (([x, y] : List String).map bytes) (s ++ (b ++ s')) := .more h3 h4 hb (.last h3')
  refine (Win.eats (hr B hB) (Span.spelled hsp ?_ h6) h7 (by simp) (by simp) (by simp)).to ?_
  · have h8 := hw.2
    unfold wordy at h8
    simp only [List.map_cons, List.map_nil, List.tail_cons, List.all_cons, List.all_nil, Bool.and_true]
    cases h9 : bytes y with
    | nil => exact absurd h9 h8.2
    | cons c r =>
      rw [h9] at h8
      simp only [List.all_cons, Bool.and_eq_true] at h8
      simpa using h8.1.1
  · simp [Mark, render]; omega

end Verif.Stmts
