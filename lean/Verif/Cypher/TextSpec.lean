import Verif.Quick.Facts
/-!
# What the texts of the tree should be

Specifications on byte strings only; nothing here refers to the grammar or to the machine.
-/
namespace Verif.Text
open Verif.Quick (Blank)

/-- A letter or `_`. -/
def NameStart (c : UInt8) : Prop := (65 ≤ c ∧ c ≤ 90) ∨ (97 ≤ c ∧ c ≤ 122) ∨ c = 95
/-- A decimal digit. -/
def Digit (c : UInt8) : Prop := 48 ≤ c ∧ c ≤ 57
/-- A letter, a digit, `_` or `$`. -/
def NameChar (c : UInt8) : Prop := NameStart c ∨ Digit c ∨ c = 36

/-- A name and its source: as it stands, or between backquotes. -/
inductive Name : List UInt8 → List UInt8 → Prop
  | plain {c cs} : NameStart c → (∀ d ∈ cs, NameChar d) → Name (c :: cs) (c :: cs)
  | quoted {t} : 96 ∉ t → Name (96 :: (t ++ [96])) t

/-- A name after a colon. -/
inductive Colon : List UInt8 → List UInt8 → Prop
  | mk {b s t} : Blank b → Name s t → Colon (58 :: (b ++ s)) t

/-- The name of a parameter: a name, or a number that does not start with 0. -/
inductive ParamName : List UInt8 → List UInt8 → Prop
  | name {s t} : Name s t → ParamName s t
  | number {c cs} : Digit c → c ≠ 48 → (∀ d ∈ cs, Digit d) → ParamName (c :: cs) (c :: cs)

/-- `$name` or `{name}`. -/
inductive Param : List UInt8 → List UInt8 → Prop
  | dollar {b s t} : Blank b → ParamName s t → Param (36 :: (b ++ s)) t
  | braces {b s b' t} : Blank b → ParamName s t → Blank b' → Param (123 :: (b ++ (s ++ (b' ++ [125])))) t

/-- Names with dots between them; the blanks around the dots are not part of the text. -/
inductive Dotted : List UInt8 → List UInt8 → Prop
  | one {s t} : Name s t → Dotted s t
  | dot {s t b b' s' t'} : Name s t → Blank b → Blank b' → Dotted s' t' →
      Dotted (s ++ (b ++ 46 :: (b' ++ s'))) (t ++ 46 :: t')

/-- A digit and then letters, digits, `_` and `$` (hexadecimal numbers are among these). -/
inductive IntText : List UInt8 → Prop
  | mk {c cs} : Digit c → (∀ d ∈ cs, NameChar d) → IntText (c :: cs)

/-- Digits, perhaps with a point, then `e` or `E`, perhaps a sign, a digit and whatever may follow; or
perhaps digits, a point, a digit and whatever may follow. -/
inductive FloatText : List UInt8 → Prop
  | exp {ds pt es e sg d cs} : ds ≠ [] → (∀ x ∈ ds, Digit x) → (pt = [] ∨ pt = [46]) →
      (∀ x ∈ es, Digit x) → (e = 101 ∨ e = 69) → (sg = [] ∨ sg = [43] ∨ sg = [45]) → Digit d →
      (∀ x ∈ cs, NameChar x) → FloatText (ds ++ (pt ++ (es ++ e :: (sg ++ d :: cs))))
  | point {ds d cs} : (∀ x ∈ ds, Digit x) → Digit d → (∀ x ∈ cs, NameChar x) →
      FloatText (ds ++ 46 :: d :: cs)

/-- The characters that mean something after a backslash, and what. -/
def escapeTable : List (UInt8 × UInt8) :=
  [(97, 7), (98, 8), (102, 12), (110, 10), (114, 13), (116, 9), (118, 11), (92, 92), (39, 39), (34, 34),
    (63, 63)]

def escape (c : UInt8) : Option UInt8 := escapeTable.lookup c

/-- The value of a string as written: `m` is the quote one is inside of. Outside of quotes a semicolon
can be escaped too; a backslash that escapes nothing stands for itself. -/
def unquote : Option UInt8 → List UInt8 → List UInt8
  | _, [] => []
  | none, [c] => if c = 39 ∨ c = 34 then [] else [c]
  | some q, [c] => if c = q then [] else [c]
  | none, c :: d :: s =>
    if c = 92 ∧ (escape d).isSome then (escape d).getD 0 :: unquote none s
    else if c = 92 ∧ d = 59 then 59 :: unquote none s
    else if c = 39 ∨ c = 34 then unquote (some c) (d :: s)
    else c :: unquote none (d :: s)
  | some q, c :: d :: s =>
    if c = 92 ∧ (escape d).isSome then (escape d).getD 0 :: unquote (some q) s
    else if c = q then unquote none (d :: s)
    else c :: unquote (some q) (d :: s)

/-- What may stand between quotes `q`, and the string it stands for: bytes as they are, escapes, and
backslashes that escape nothing. -/
inductive Quoted (q : UInt8) : List UInt8 → List UInt8 → Prop
  | nil : Quoted q [] []
  | char {c t s} : c ≠ q → c ≠ 92 → Quoted q t s → Quoted q (c :: t) (c :: s)
  | escape {d v t s} : escape d = some v → Quoted q t s → Quoted q (92 :: d :: t) (v :: s)
  | lone {d t s} : Text.escape d = none → Quoted q (d :: t) s → Quoted q (92 :: d :: t) (92 :: s)

/-- One way to write a string between quotes `q`. -/
def quote (q : UInt8) : List UInt8 → List UInt8
  | [] => []
  | c :: s => if c = q ∨ c = 92 then 92 :: c :: quote q s else c :: quote q s

theorem quote_quoted {q : UInt8} (hq : q = 39 ∨ q = 34) : ∀ s, Quoted q (quote q s) s
  | [] => .nil
  | c :: s => by
    unfold quote
    split
    · rename_i h
      refine .escape ?_ (quote_quoted hq s)
      rcases h with rfl | rfl
      · rcases hq with rfl | rfl <;> decide
      · decide
    · rename_i h
      exact .char (fun e => h (.inl e)) (fun e => h (.inr e)) (quote_quoted hq s)

/-- `*/` does not occur. -/
def NoEnd (t : List UInt8) : Prop := ∀ i : Nat, ¬ (t[i]? = some 42 ∧ t[i + 1]? = some 47)

/-- `isspace`. -/
def Space (c : UInt8) : Prop := c = 32 ∨ (9 ≤ c ∧ c ≤ 13)

/-- `t` is `s` without the white space around it. -/
def Trimmed (s t : List UInt8) : Prop :=
  ∃ a b, s = a ++ (t ++ b) ∧ (∀ c ∈ a, Space c) ∧ (∀ c ∈ b, Space c) ∧
    (∀ c, t.head? = some c → ¬ Space c) ∧ (∀ c, t.getLast? = some c → ¬ Space c)

/-! ## Properties of `unquote` -/

theorem unquote_esc {m : Option UInt8} {d v : UInt8} {s : List UInt8} (h : escape d = some v) :
    unquote m (92 :: d :: s) = v :: unquote m s := by
  cases m <;> simp [unquote, h]

theorem unquote_semi {s : List UInt8} : unquote none (92 :: 59 :: s) = 59 :: unquote none s := by
  simp [unquote, show escape 59 = none by decide]

theorem escape_quote {q : UInt8} (hq : q = 39 ∨ q = 34) : q ≠ 92 := by
  rcases hq with rfl | rfl <;> decide

theorem unquote_open {q : UInt8} (hq : q = 39 ∨ q = 34) {s : List UInt8} :
    unquote none (q :: s) = unquote (some q) s := by
  have := escape_quote hq
  cases s with
  | nil => simp [hq, unquote]
  | cons d s => simp [unquote, this, hq]

theorem unquote_close {q : UInt8} (hq : q = 39 ∨ q = 34) {s : List UInt8} :
    unquote (some q) (q :: s) = unquote none s := by
  have := escape_quote hq
  cases s with
  | nil => simp [unquote]
  | cons d s => simp [unquote, this]

/-- `92 :: s` does not start with an escape. -/
def Lone (s : List UInt8) : Prop := ∀ d v, s.head? = some d → escape d ≠ some v

theorem unquote_plain {q c : UInt8} {s : List UInt8} (hc : c ≠ q) (h : c = 92 → Lone s) :
    unquote (some q) (c :: s) = c :: unquote (some q) s := by
  cases s with
  | nil => simp [hc, unquote]
  | cons d s =>
    have : ¬ (c = 92 ∧ (escape d).isSome) := by
      rintro ⟨h1, h2⟩
      obtain ⟨v, hv⟩ := Option.isSome_iff_exists.1 h2
      exact h h1 d v rfl hv
    simp [unquote, this, hc]

theorem unquote_bare {c : UInt8} {s : List UInt8} (h1 : c ≠ 39) (h2 : c ≠ 34) (h3 : c ≠ 92) :
    unquote none (c :: s) = c :: unquote none s := by
  cases s with
  | nil => simp [h1, h2, unquote]
  | cons d s => simp [unquote, h1, h2, h3]

end Verif.Text
