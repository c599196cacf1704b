import Verif.Props.Invariance
import Verif.Data.Print
/-!
# Colors (C50)

The colorization in the configuration (`cypher_parser_config_set_error_colorization`,
parser_config.c) changes the messages of errors and nothing else: parsing with colors is parsing
without, each message painted afterwards. With the ANSI colors of the library, leaving out the escape
sequences gives back the messages that are written without colors. Likewise for printed trees.
-/
namespace Verif
open Verif.Peg Verif.Cypher List

variable {σ κ : Type}

/-- `cypher_parser_ansi_colorization` (parser_config.c:46-55, the colors at :20-22); the parts used for
messages. -/
def ansiColorization : Colorization :=
  ⟨(ascii "\x1b[1m\x1b[31m", ascii "\x1b[0m"), (ascii "\x1b[1m", ascii "\x1b[0m"),
    (ascii "\x1b[1m", ascii "\x1b[0m")⟩

/-! ## Specification -/

/-- What stands before and after the first colon that is followed by a blank. -/
def atColon : List UInt8 → List UInt8 × List UInt8
  | [] => ([], [])
  | [c] => ([c], [])
  | c :: d :: l =>
    if c = 58 ∧ d = 32 then ([], l) else (c :: (atColon (d :: l)).1, (atColon (d :: l)).2)

/-- A plain message is `Invalid input TOKEN: REST`. Painted, each of the three parts stands between two
marks. -/
def paint (col : Colorization) (m : List UInt8) : List UInt8 :=
  let (token, rest) := atColon (m.drop 14)
  col.error.1 ++ m.take 13 ++ col.error.2 ++ [32] ++ col.errorToken.1 ++ token ++ col.errorToken.2 ++
    [58, 32] ++ col.errorMessage.1 ++ rest ++ col.errorMessage.2

/-- The text without escape sequences; these reach from ESC `[` to the next `m`. -/
def unpaint : Bool → List UInt8 → List UInt8
  | _, [] => []
  | true, c :: l => unpaint (c != 109) l
  | false, [c] => [c]
  | false, c :: d :: l => if c = 27 ∧ d = 91 then unpaint true l else c :: unpaint false (d :: l)

/-- The segment with the messages of its errors changed by `f`; all else as it is. -/
def _root_.Verif.Cypher.PSeg.reword (f : List UInt8 → List UInt8) (s : PSeg) : PSeg :=
  { s with errors := s.errors.map fun e => { e with msg := f e.msg } }

/-! ## Messages -/

/-- No colon followed by a blank, and no colon at the end of which a blank would matter. -/
def noColon : List UInt8 → Bool
  | c :: d :: l => !(c == 58 && d == 32) && noColon (d :: l)
  | _ => true

theorem charName_noColon : ∀ n : Fin 256, noColon (charName (UInt8.ofNat n)) = true := by decide +kernel

theorem atColon_append : ∀ (t x : List UInt8), noColon t = true → atColon (t ++ 58 :: 32 :: x) = (t, x)
  | [], x, _ => rfl
  | [c], x, _ => by
    simp only [List.cons_append, List.nil_append, atColon]
    rw [if_neg (by rintro ⟨-, h⟩; exact absurd h (by decide))]
    simp
  | c :: d :: l, x, h => by
    simp only [noColon, Bool.and_eq_true, Bool.not_eq_true', Bool.and_eq_false_iff, beq_eq_false_iff_ne] at h
    have ih := atColon_append (d :: l) x h.2
    simp only [List.cons_append] at ih ⊢
    rw [atColon, if_neg (by rintro ⟨h1, h2⟩; rcases h.1 with h' | h' <;> contradiction), ih]

theorem charName_ok (c : UInt8) : noColon (charName c) = true := by
  have := charName_noColon ⟨c.toNat, c.toNat_lt⟩
  simpa using this

theorem messageSpec_plain (c : UInt8) (ls : List (List UInt8)) :
    messageSpec noColorization c ls =
      ascii "Invalid input" ++ [32] ++ (charName c ++ 58 :: 32 :: (ascii "expected " ++ englishList ls)) := by
  have h : ascii ": " = [58, 32] := by decide
  simp [messageSpec, noColorization, h, ascii_sp]

/-- Painting the plain message gives the colored one. -/
theorem paint_message (col : Colorization) (c : UInt8) (ls : List (List UInt8)) :
    paint col (messageSpec noColorization c ls) = messageSpec col c ls := by
  have h : ascii ": " = [58, 32] := by decide
  have hl : (ascii "Invalid input").length = 13 := by decide
  have hd : (ascii "Invalid input" ++ [32]).length = 14 := by decide
  have ht : ∀ x, (ascii "Invalid input" ++ [32] ++ x).take 13 = ascii "Invalid input" := fun x => by
    rw [List.append_assoc, List.take_left' hl]
  unfold paint
  rw [messageSpec_plain, List.drop_left' hd, atColon_append _ _ (charName_ok c), ht]
  simp [messageSpec, h, ascii_sp]

theorem unpaint_append : ∀ (t x : List UInt8), 27 ∉ t → unpaint false (t ++ x) = t ++ unpaint false x
  | [], _, _ => rfl
  | [c], [], _ => rfl
  | [c], d :: x, h => by
    have hc : c ≠ 27 := fun e => h (by simp [e])
    simp [unpaint, hc]
  | c :: d :: l, x, h => by
    have hc : c ≠ 27 := fun e => h (by simp [e])
    have ih := unpaint_append (d :: l) x (fun e => h (List.mem_cons_of_mem _ e))
    simp only [List.cons_append] at ih ⊢
    rw [unpaint, if_neg (fun e => hc e.1), ih]

theorem charName_esc : ∀ n : Fin 256, n ≠ 27 → 27 ∉ charName (UInt8.ofNat n) := by decide +kernel

theorem unpaint_charName (c : UInt8) (x : List UInt8) :
    unpaint false (charName c ++ x) = charName c ++ unpaint false x := by
  by_cases h : c = 27
  · subst h
    have : charName 27 = [39, 27, 39] := by decide
    rw [this]
    cases x <;> simp [unpaint]
  · refine unpaint_append _ _ ?_
    have := charName_esc ⟨c.toNat, c.toNat_lt⟩ (fun e => h (by
      have := congrArg Fin.val e
      exact UInt8.toNat.inj this))
    simpa using this

theorem labelText_esc (l : Nat) : 27 ∉ labelText l := by
  unfold labelText
  split <;> decide +kernel

theorem englishList_esc : ∀ ls : List (List UInt8), (∀ l ∈ ls, 27 ∉ l) → 27 ∉ englishList ls
  | [], _ => by simp [englishList]
  | [a], h => by simpa [englishList] using h
  | [a, b], h => by
    have h1 := h a (by simp)
    have h2 := h b (by simp)
    simp [englishList, ascii_or_, h1, h2]
  | a :: b :: c :: l, h => by
    have h1 := h a (by simp)
    have h2 := englishList_esc (b :: c :: l) (fun x hx => h x (List.mem_cons_of_mem _ hx))
    simp [englishList, ascii_comma, h1, h2]

/-- Without the escape sequences the ANSI message is the plain one. -/
theorem unpaint_message (c : UInt8) (ls : List Nat) :
    unpaint false (messageSpec ansiColorization c (ls.map labelText)) =
      messageSpec noColorization c (ls.map labelText) := by
  have h : ascii ": " = [58, 32] := by decide
  have hE : 27 ∉ englishList (ls.map labelText) := englishList_esc _ (by
    simp only [List.mem_map]
    rintro _ ⟨l, -, rfl⟩
    exact labelText_esc l)
  have e1 : ∀ x, unpaint false (ascii "\x1b[1m\x1b[31m" ++ x) = unpaint false x := fun x => rfl
  have e2 : ∀ x, unpaint false (ascii "\x1b[1m" ++ x) = unpaint false x := fun x => rfl
  have e3 : ∀ x, unpaint false (ascii "\x1b[0m" ++ x) = unpaint false x := fun x => rfl
  have e4 : unpaint false (ascii "\x1b[0m") = [] := rfl
  unfold messageSpec
  simp only [ansiColorization, noColorization, List.append_assoc, List.nil_append, List.append_nil]
  rw [e1, unpaint_append _ _ (by decide), e3, unpaint_append _ _ (by decide), e2, unpaint_charName, e3,
    unpaint_append _ _ (by decide), e2, unpaint_append _ _ (by decide), unpaint_append _ _ hE, e4,
    List.append_nil]

/-! ## C50 -/

theorem nodeRel_same {P : Pos} {M : List UInt8 → List UInt8 → Prop} {c d : Colorization} {s s' : PSeg}
    {o : Nat} (hs : SegRel ⟨P, P, Eq, Eq, M, c, d⟩ o o s s') {f f' : List UInt8 → List UInt8}
    (hf : ∀ a b, M a b → f a = f' b) : s.reword f = s'.reword f' := by
  obtain ⟨n, e1, e2⟩ := hs.ordinal
  obtain ⟨i, ⟨r1, r2⟩, es, rs, di, eo⟩ := s
  obtain ⟨i', ⟨r1', r2'⟩, es', rs', di', eo'⟩ := s'
  have hp : ∀ x y, PosRel ⟨P, P, Eq, Eq, M, c, d⟩ x y → id x = id y := fun x y h => posRel_same rfl h
  have h1 := hp _ _ hs.start
  have h2 := hp _ _ hs.stop
  have h3 := images_rel (g := id) (g' := id) (f := id) (f' := id) hp (fun _ _ h => h) hs.roots
  have h4 := hs.directive
  have h5 := hs.eof
  simp only [images_id, id_eq] at e1 e2 h1 h2 h3 h4 h5
  subst e1 e2 h1 h2 h3 h4 h5
  simp only [PSeg.reword]
  congr 1
  refine map_rel (fun a b hab => ?_) hs.errors
  obtain ⟨p, m, x⟩ := a
  obtain ⟨p', m', x'⟩ := b
  have h6 := hp _ _ hab.position
  have h7 : x = x' := by
    have := hab.context
    cases this with
    | some h => exact congrArg _ h
    | none => rfl
  have h8 := hf _ _ hab.msg
  simp only [id_eq] at h6 h8
  subst h6 h7
  simp only [h8]

/-- Two runs on the same source that differ in the colors only. -/
theorem colors_pair {S : Source σ} {src : σ} {w : List UInt8} (h : Delivers S src w)
    (cb : κ → PSeg → Int × κ) (k : κ) (P : Pos) (o : Nat) (c d : Colorization) (only single : Bool)
    {f f' : List UInt8 → List UInt8}
    (hf : ∀ b (ls : List Nat), f (messageSpec c b (ls.map labelText)) = f' (messageSpec d b (ls.map labelText))) :
    ∃ r, StopsWith S src (fun k s => cb k (s.reword f)) k ⟨P, o, c⟩ only single r ∧
      StopsWith S src (fun k s => cb k (s.reword f')) k ⟨P, o, d⟩ only single r := by
  obtain ⟨D, hfd, hi⟩ := h
  have hself : ∀ l : List UInt8, Forall₂ Eq l l := fun l => forall₂_same.2 fun _ _ => rfl
  have hK : Link.Ok ⟨P, P, Eq, Eq, fun a b => f a = f' b, c, d⟩ :=
    ⟨fun _ => rfl, fun _ _ h => by cases h; rfl, fun _ _ ls h _ => by cases h; exact hf _ ls⟩
  obtain ⟨N, r, r', h1, h2⟩ := parseEach_pair (κ := κ) (κ' := κ) hK hfd hfd (X := Eq)
    ⟨fun _ h => by cases h; rfl, fun _ h => by cases h; rfl,
      fun h n c c' e1 e2 => by cases h; rw [e1] at e2; simpa using e2⟩ only single (Q := Eq)
    (cb := fun k s => cb k (s.reword f)) (cb' := fun k s => cb k (s.reword f'))
    (cfg := ⟨P, o, c⟩) (cfg' := ⟨P, o, d⟩)
    (by
      rintro k _ s s' rfl hs
      have : s.reword f = s'.reword f' := nodeRel_same hs fun _ _ h => h
      simp only [this, and_self])
    rfl rfl rfl rfl hi hi rfl (hself w) (fun _ => Same.refl _ _) (k := k) (k' := k) rfl
  have e : r = r' := by
    cases r with
    | error e => cases r' with
      | error e' => exact congrArg _ h2
      | ok b => exact h2.elim
    | ok a => cases r' with
      | error e' => exact h2.elim
      | ok b =>
        obtain ⟨a1, a2, a3⟩ := a
        obtain ⟨b1, b2, b3⟩ := b
        obtain ⟨h3, h4, h5⟩ := h2
        simp only at h3 h4 h5
        rw [h3, h5, optRel_same rfl h4]
  subst e
  exact ⟨r, ⟨N, fun fuel hle => (h1 fuel hle).1⟩, ⟨N, fun fuel hle => (h1 fuel hle).2⟩⟩

theorem reword_id (s : PSeg) : s.reword id = s := by
  obtain ⟨o, r, es, rs, d, e⟩ := s
  simp [PSeg.reword]

/-- C50, first part. Whatever the colors, whatever the source, the configuration and the callback:
parsing with colors does what parsing without does when every message is painted before the callback
sees it. So the segments, trees, positions, contexts, directives and the result are the same. -/
theorem colors_decorate {S : Source σ} {src : σ} {w : List UInt8} (h : Delivers S src w)
    (cb : κ → PSeg → Int × κ) (k : κ) (P : Pos) (o : Nat) (color : Colorization) (only single : Bool) :
    ∃ r, StopsWith S src (fun k s => cb k (s.reword (paint color))) k ⟨P, o, noColorization⟩ only single r ∧
      StopsWith S src cb k ⟨P, o, color⟩ only single r := by
  have := colors_pair h cb k P o noColorization color only single (f := paint color) (f' := id)
    fun b ls => paint_message color b _
  simpa only [reword_id] using this

/-- C50, second part. Leaving out the escape sequences from what is reported with the ANSI colors gives
what is reported without colors. (The text reported may itself contain an ESC: the character at which
the input went wrong is shown as it is.) -/
theorem ansi_colors_strip {S : Source σ} {src : σ} {w : List UInt8} (h : Delivers S src w)
    (cb : κ → PSeg → Int × κ) (k : κ) (P : Pos) (o : Nat) (only single : Bool) :
    ∃ r, StopsWith S src (fun k s => cb k (s.reword (unpaint false))) k ⟨P, o, ansiColorization⟩ only
        single r ∧
      StopsWith S src cb k ⟨P, o, noColorization⟩ only single r := by
  have := colors_pair h cb k P o ansiColorization noColorization only single (f := unpaint false)
    (f' := id) fun b ls => unpaint_message b ls
  simpa only [reword_id] using this

/-! ## Printed trees -/

/-- A part of what is printed for a tree, by what it shows. -/
inductive Part where
  | plain (l : List UInt8)
  | ordinal (l : List UInt8)
  | range (l : List UInt8)
  | indent (l : List UInt8)
  | type (l : List UInt8)
  | desc (l : List UInt8)

/-- The text of a part. -/
def Part.text : Part → List UInt8
  | .plain l | .ordinal l | .range l | .indent l | .type l | .desc l => l

/-- A part between the marks for its kind. -/
def Part.painted (C : Print.Colours) : Part → List UInt8
  | .plain l => l
  | .ordinal l => C.ordinal.1 ++ l ++ C.ordinal.2
  | .range l => C.range.1 ++ l ++ C.range.2
  | .indent l => C.indent.1 ++ l ++ C.indent.2
  | .type l => C.type.1 ++ l ++ C.type.2
  | .desc l => C.desc.1 ++ l ++ C.desc.2

/-- Either all fail alike, or all succeed with the same parts. -/
def Alike {α : Type} (r : Print.Colours → Except Print.Stop (List UInt8 × α)) : Prop :=
  (∃ e, ∀ C, r C = .error e) ∨ ∃ (ps : List Part) (a : α), ∀ C, r C = .ok (ps.flatMap (Part.painted C), a)

open Verif.Print in
theorem printBack_alike (render : Nat) (cols : Columns) (consumed : Nat) (buf : List UInt8) (len : Nat) :
    (∃ e, ∀ C, printBack C render cols consumed buf len = .error e) ∨
      ∃ ps : List Part, ∀ C, printBack C render cols consumed buf len = .ok (ps.flatMap (Part.painted C)) := by
  unfold printBack
  by_cases h1 : 0 < len
  · by_cases h2 : consumed ≤ cols.name
    · by_cases h3 : len ≤ buf.length
      · simp only [h1, h2, h3, if_true]
        refine .inr ⟨[.plain (List.replicate (cols.name - consumed + 2) 32), .desc (detailLoop render
          (if render = 0 then 0 else if cols.name + cols.start + cols.stop + cols.ordinal + 8 < render
            then render - (cols.name + cols.start + cols.stop + cols.ordinal + 8) else 10)
          (cols.name + cols.start + cols.stop + cols.ordinal + 8) (buf.take len)
          (if render = 0 then 0 else if cols.name + cols.start + cols.stop + cols.ordinal + 8 < render
            then render - (cols.name + cols.start + cols.stop + cols.ordinal + 8) else 10) ++ [10])],
          fun C => ?_⟩
        simp only [printDetail, List.flatMap_cons, List.flatMap_nil, Part.painted, List.append_nil]
        rw [List.append_assoc C.desc.1]
      · simp only [h1, h2, h3, if_true, if_false]; exact .inl ⟨_, fun _ => rfl⟩
    · simp only [h1, h2, if_true, if_false]; exact .inl ⟨_, fun _ => rfl⟩
  · simp only [h1, if_false]
    exact .inr ⟨[.plain [10]], fun _ => rfl⟩

open Verif.Print in
mutual
theorem printTree_alike (junk : Nat → List UInt8) (render : Nat) (cols : Columns) :
    ∀ (t : Tree) (depth : Nat) (buf : List UInt8) (cap : Nat),
    Alike fun C => printTree junk C render cols t depth buf cap
  | .node ty r o detail cs, depth, buf, cap => by
    unfold Alike
    simp only [printTree]
    obtain ⟨buf1, cap1, -⟩ := snprintfRealloc (junk cap) buf cap (64 :: decimal o)
    cases h1 : liftF (cString buf1) with
    | error e => exact .inl ⟨e, fun C => by simp [bind, Except.bind]⟩
    | ok number =>
      cases h2 : liftF (typeName ty) with
      | error e => exact .inl ⟨e, fun C => by simp [bind, Except.bind]⟩
      | ok name =>
        cases h3 : liftF (detailRealloc junk detail buf1 cap1) with
        | error e => exact .inl ⟨e, fun C => by simp [bind, Except.bind]⟩
        | ok x =>
          obtain ⟨buf2, cap2, len⟩ := x
          rcases printBack_alike render cols (depth * 2 + name.length) buf2 len with ⟨e, h4⟩ | ⟨ps, h4⟩
          · exact .inl ⟨e, fun C => by simp [bind, Except.bind, h4]⟩
          · rcases printAll_alike junk render cols cs (depth + 1) buf2 cap2 with ⟨e, h5⟩ | ⟨qs, ⟨b3, c3⟩, h5⟩
            · exact .inl ⟨e, fun C => by simp [bind, Except.bind, h4, h5]⟩
            · refine .inr ⟨[.ordinal (padLeft cols.ordinal number), .plain [32, 32],
                .range (padLeft cols.start (decimal r.start.offset) ++ [46, 46] ++
                  padRight cols.stop (decimal r.stop.offset)), .plain [32, 32],
                .indent (List.replicate depth [62, 32]).flatten, .type name] ++ ps ++ qs, (b3, c3), fun C => ?_⟩
              simp [bind, Except.bind, h4, h5, Part.painted]
theorem printAll_alike (junk : Nat → List UInt8) (render : Nat) (cols : Columns) :
    ∀ (ts : List Tree) (depth : Nat) (buf : List UInt8) (cap : Nat),
    Alike fun C => printAll junk C render cols ts depth buf cap
  | [], _, buf, cap => Or.inr ⟨[], (buf, cap), fun _ => rfl⟩
  | t :: ts, depth, buf, cap => by
    unfold Alike
    simp only [printAll]
    rcases printTree_alike junk render cols t depth buf cap with ⟨e, h1⟩ | ⟨ps, ⟨b1, c1⟩, h1⟩
    · exact .inl ⟨e, fun C => by simp [bind, Except.bind, h1]⟩
    · rcases printAll_alike junk render cols ts depth b1 c1 with ⟨e, h2⟩ | ⟨qs, ⟨b2, c2⟩, h2⟩
      · exact .inl ⟨e, fun C => by simp [bind, Except.bind, h1, h2]⟩
      · exact .inr ⟨ps ++ qs, (b2, c2), fun C => by simp [bind, Except.bind, h1, h2]⟩
end

open Verif.Print in
/-- C50, third part. What is printed for trees consists of the same parts whatever the colors; each part
stands between the marks for its kind. So columns, line breaks and texts do not depend on the colors. -/
theorem printed_colors (junk : Nat → List UInt8) (render : Nat) (ts : List Tree) :
    (∃ e, ∀ C, fprintv junk C render ts = .error e) ∨
      ∃ ps : List Part, (∀ C, fprintv junk C render ts = .ok (ps.flatMap (Part.painted C))) ∧
        fprintv junk noColours render ts = .ok (ps.flatMap Part.text) := by
  unfold fprintv
  cases h1 : liftF (fieldWidthsAll ts 0 ⟨0, 0, 0, 0⟩) with
  | error e => exact .inl ⟨e, fun _ => rfl⟩
  | ok m =>
    cases h2 : log10 m.ordinal with
    | error e => exact .inl ⟨e, fun _ => by simp [bind, Except.bind, h2]⟩
    | ok ow =>
      cases h3 : log10 m.start with
      | error e => exact .inl ⟨e, fun _ => by simp [bind, Except.bind, h2, h3]⟩
      | ok sw =>
        cases h4 : log10 m.stop with
        | error e => exact .inl ⟨e, fun _ => by simp [bind, Except.bind, h2, h3, h4]⟩
        | ok ew =>
          rcases printAll_alike junk render ⟨ow + 2, sw + 1, ew + 1, m.name⟩ ts 0
            ((junk 1024).take 1024) 1024 with ⟨e, h5⟩ | ⟨ps, ⟨b, c⟩, h5⟩
          · exact .inl ⟨e, fun C => by simp [bind, Except.bind, h2, h3, h4, h5]⟩
          · refine .inr ⟨ps, fun C => by simp [bind, Except.bind, h2, h3, h4, h5], ?_⟩
            have : Part.painted noColours = Part.text := by
              funext p; cases p <;> simp [Part.painted, Part.text, noColours]
            simp [bind, Except.bind, h2, h3, h4, h5, this]

open Verif.Print in
theorem unpaint_part (p : Part) (x : List UInt8) (h : 27 ∉ p.text) :
    unpaint false (p.painted ansiColours ++ x) = p.text ++ unpaint false x := by
  have e1 : ∀ x, unpaint false (27 :: (ascii "[36m" ++ x)) = unpaint false x := fun x => rfl
  have e2 : ∀ x, unpaint false (27 :: (ascii "[33m" ++ x)) = unpaint false x := fun x => rfl
  have e3 : ∀ x, unpaint false (27 :: (ascii "[1m" ++ x)) = unpaint false x := fun x => rfl
  have e4 : ∀ x, unpaint false (27 :: (ascii "[0m" ++ x)) = unpaint false x := fun x => rfl
  cases p <;>
    simp only [Part.painted, Part.text, ansiColours, List.append_assoc, List.nil_append, List.cons_append,
      List.append_nil] at h ⊢ <;>
    simp only [e1, e2, e3, unpaint_append _ _ h, e4]

theorem unpaint_parts : ∀ (ps : List Part), (27 ∉ ps.flatMap Part.text) →
    unpaint false (ps.flatMap (Part.painted Print.ansiColours)) = ps.flatMap Part.text
  | [], _ => rfl
  | p :: ps, h => by
    simp only [List.flatMap_cons, List.mem_append, not_or] at h ⊢
    rw [unpaint_part p _ h.1, unpaint_parts ps h.2]

open Verif.Print in
/-- C50, fourth part. If no ESC is printed without colors, then leaving out the escape sequences from what
is printed with the ANSI colors gives what is printed without. -/
theorem printed_ansi_strip (junk : Nat → List UInt8) (render : Nat) (ts : List Tree) {out : List UInt8}
    (h : fprintv junk noColours render ts = .ok out) (hE : 27 ∉ out) :
    ∃ out', fprintv junk ansiColours render ts = .ok out' ∧ unpaint false out' = out := by
  rcases printed_colors junk render ts with ⟨e, h1⟩ | ⟨ps, h1, h2⟩
  · rw [h1] at h; cases h
  · rw [h2] at h
    cases h
    exact ⟨_, h1 _, unpaint_parts ps hE⟩

/-! ## Examples -/

/-- All segments of the two runs in one list. -/
example : ∃ r, StopsWith streamSource (ascii "return 1 +; x")
      (fun k s => (0, k ++ [s.reword (paint ansiColorization)])) [] plainCfg false false r ∧
    StopsWith streamSource (ascii "return 1 +; x") (fun k s => (0, k ++ [s])) []
      ⟨⟨1, 1, 0⟩, 0, ansiColorization⟩ false false r :=
  colors_decorate (stream_delivers _) (fun k s => (0, k ++ [s])) [] ⟨1, 1, 0⟩ 0 ansiColorization false false

/-- A message with the ANSI colors, and what remains of it. -/
example : (match collect streamSource (ascii "(") ⟨⟨1, 1, 0⟩, 0, ansiColorization⟩ false false 60 with
    | some (.ok (0, _, L)) => L.map (fun s => s.errors.map (·.msg)) ==
        [[ascii ("\x1b[1m\x1b[31mInvalid input\x1b[0m \x1b[1m'('\x1b[0m: " ++
          "\x1b[1mexpected ';', ':', a statement option, a query hint, a clause or a schema command\x1b[0m")]]
    | _ => false) = true := by decide +kernel

example : unpaint false (ascii "\x1b[1m\x1b[31mInvalid input\x1b[0m \x1b[1m'('\x1b[0m: ") =
    ascii "Invalid input '(': " := by decide +kernel

/-- An ESC in the text is not taken for the start of an escape sequence. -/
example : unpaint false (messageSpec ansiColorization 27 [ascii "a clause"]) =
    ascii "Invalid input '\x1b': expected a clause" := by decide +kernel

private def zeroCells (n : Nat) : List UInt8 := replicate (n + 1) 0
private def rangeOf (a b : Nat) : Range := ⟨⟨1, a + 1, a⟩, ⟨1, b + 1, b⟩⟩
private def sampleTree : List Print.Tree :=
  [.node .binaryOperator (rangeOf 7 11) 0 [.fmt (ascii "@1 + @2")]
    [.node .integer (rangeOf 7 8) 1 [.fmt (ascii "1")] [],
      .node .string (rangeOf 10 11) 2 [.fmt [34, 10, 34]] []]]

/-- A printed tree without its colors. -/
example : ∃ out, Print.fprintv zeroCells Print.ansiColours 40 sampleTree = .ok out ∧ 27 ∈ out ∧
    Print.fprintv zeroCells Print.noColours 40 sampleTree = .ok (unpaint false out) := by
  have h : (match Print.fprintv zeroCells Print.noColours 40 sampleTree with
    | .ok out => decide (27 ∉ out) | _ => false) = true := by decide +kernel
  have h' : (match Print.fprintv zeroCells Print.ansiColours 40 sampleTree with
    | .ok out => decide (27 ∈ out) | _ => false) = true := by decide +kernel
  cases h1 : Print.fprintv zeroCells Print.noColours 40 sampleTree with
  | error e => rw [h1] at h; cases h
  | ok out =>
    rw [h1] at h
    obtain ⟨out', h2, h3⟩ := printed_ansi_strip _ _ _ h1 (of_decide_eq_true h)
    rw [h2] at h'
    exact ⟨out', h2, of_decide_eq_true h', by rw [h3]⟩

end Verif
