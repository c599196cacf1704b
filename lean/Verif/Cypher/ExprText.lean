import Verif.Cypher.ExprCells
/-!
# Expressions on cells

Every operand and operator of the grammar of expressions consists of the cells given for it.
-/
namespace Verif.Exprs
open Verif.Peg Verif.Cypher Verif.Cypher.Win Verif.Stmts
open Verif.Ops (words bytes upper)

variable {w : List UInt8}

/-! ## Bytes -/

theorem imp_byte {P Q : UInt8 → Bool} (h : (List.range 256).all (fun n => !P n.toUInt8 || Q n.toUInt8) = true) {c : UInt8}
    (hc : P c = true) : Q c = true := by
  have := every_byte (P := fun c => !P c || Q c) h c
  simpa [hc] using this

theorem digit_kind {c : UInt8} : digit c = true → kDigit.mem c = true := imp_byte (by decide +kernel)
theorem sym_mem {c : UInt8} : sym c = true → symPart.mem c = true := imp_byte (by decide +kernel)
theorem digit_sym {c : UInt8} : digit c = true → sym c = true := imp_byte (by decide +kernel)
theorem start_mem {c : UInt8} (h : letter c = true ∨ c = 95) : kStart.mem c = true :=
  imp_byte (P := fun c => letter c || c == 95) (by decide +kernel) (by simpa using h)
theorem start_sym {c : UInt8} (h : letter c = true ∨ c = 95) : sym c = true :=
  imp_byte (P := fun c => letter c || c == 95) (Q := sym) (by decide +kernel) (by simpa using h)
theorem any_mem (c : UInt8) : (kAny (upper c)).mem c = true :=
  every_byte (P := fun c => (kAny (upper c)).mem c) (by decide +kernel) c
theorem tail_sym {c : UInt8} (h : kTail.mem c = true) (h' : sym c = false) : kTailSym.mem c = true :=
  imp_byte (P := fun c => kTail.mem c && !sym c) (by decide +kernel) (by simp [h, h'])
theorem tail_num {c : UInt8} (h : kTail.mem c = true) (h' : sym c = false) (h'' : c ≠ 46) : kTailNum.mem c = true :=
  imp_byte (P := fun c => kTail.mem c && !sym c && c != 46) (by decide +kernel) (by simp [h, h', h''])
theorem head_sym {c : UInt8} (h : kHead.mem c = true) (h' : sym c = false) : kHeadSym.mem c = true :=
  imp_byte (P := fun c => kHead.mem c && !sym c) (by decide +kernel) (by simp [h, h'])

/-! ## Beginnings -/

/-- An expression may begin so. -/
def HeadText (t : List UInt8) : Prop := Solid t ∧ ∃ c r, t = c :: r ∧ kHead.mem c = true
/-- So may begin what follows an operand. -/
def TailText (t : List UInt8) : Prop := Solid t ∧ (t = [] ∨ ∃ c r, t = c :: r ∧ kTail.mem c = true)

theorem HeadText.of {c : UInt8} {r : List UInt8} (h : kHead.mem c = true) : HeadText (c :: r) := by
  have : (c != 32 && c != 9 && c != 10 && c != 13 && c != 47) = true :=
    imp_byte (P := fun c => kHead.mem c) (Q := fun c => c != 32 && c != 9 && c != 10 && c != 13 && c != 47)
      (by decide +kernel) h
  simp only [Bool.and_eq_true, bne_iff_ne] at this
  obtain ⟨⟨⟨⟨h1, h2⟩, h3⟩, h4⟩, h5⟩ := this
  exact ⟨.inr ⟨c, r, rfl, h1, h2, h3, h4, fun h => absurd h h5⟩, c, r, rfl, h⟩

theorem TailText.of {c : UInt8} {r : List UInt8} (h : kTail.mem c = true)
    (h' : c = 47 → ∃ d r', r = d :: r' ∧ d ≠ 47 ∧ d ≠ 42) : TailText (c :: r) := by
  have : (c != 32 && c != 9 && c != 10 && c != 13) = true :=
    imp_byte (P := fun c => kTail.mem c) (Q := fun c => c != 32 && c != 9 && c != 10 && c != 13)
      (by decide +kernel) h
  simp only [Bool.and_eq_true, bne_iff_ne] at this
  obtain ⟨⟨⟨h1, h2⟩, h3⟩, h4⟩ := this
  exact ⟨.inr ⟨c, r, rfl, h1, h2, h3, h4, h'⟩, .inr ⟨c, r, rfl, h⟩⟩

/-- After a slash that is not the beginning of a comment. -/
theorem Gap.quiet {b t : List UInt8} (hb : Gap b) (ht : HeadText t) : ∃ d r', b ++ t = d :: r' ∧ d ≠ 47 ∧ d ≠ 42 := by
  cases hb with
  | nil =>
    obtain ⟨-, c, r, rfl, h⟩ := ht
    have : (c != 47 && c != 42) = true :=
      imp_byte (P := fun c => kHead.mem c) (Q := fun c => c != 47 && c != 42) (by decide +kernel) h
    simp only [Bool.and_eq_true, bne_iff_ne] at this
    exact ⟨c, r, rfl, this⟩
  | char hc _ => exact ⟨_, _, rfl, by rcases hc with rfl | rfl | rfl <;> decide, by rcases hc with rfl | rfl | rfl <;> decide⟩
  | crlf _ => exact ⟨_, _, rfl, by decide, by decide⟩

/-- White space and the byte after it. -/
theorem gap_lay {b t : List UInt8} (hb : Gap b) {c : UInt8} {r : List UInt8} (ht : Solid t) (hc : t = c :: r) {K : CharSet}
    (hK : K.mem c = true) {ne : Bool} (hne : ne = true → b ≠ []) {p : Nat} (h : Here w p (b ++ t)) (p' : Nat) :
    Lay w [.ws ne, .hole K] p [p + b.length, p'] := by
  refine .cons (.of_gap hb ht h hne) (.cons ?_ .nil)
  have := h.right
  rw [hc] at this
  exact .of_hole this hK

theorem fin_lay {b : List UInt8} (hb : Gap b) {p : Nat} (h : Here w p (b ++ [])) (p' : Nat) :
    Lay w [.ws false, .fin] p [p + b.length, p'] :=
  .cons (.of_gap hb (.inl rfl) h (by simp)) (.cons (.of_fin h.right) .nil)

theorem tail_word {b t : List UInt8} (hb : Gap b) (ht : TailText t) (ha : b = [] → t.head?.any sym = false)
    {p : Nat} (h : Here w p (b ++ t)) (p' : Nat) : ∃ B ∈ tails .word, Lay w B p [p + b.length, p'] := by
  obtain ⟨h1, rfl | ⟨c, r, rfl, h2⟩⟩ := ht
  · exact ⟨_, by simp [tails], fin_lay hb h p'⟩
  by_cases hb0 : b = []
  · exact ⟨[.ws false, .hole kTailSym], by simp [tails], gap_lay hb h1 rfl (tail_sym h2 (by simpa using ha hb0)) (by simp) h p'⟩
  · exact ⟨[.ws true, .hole kTail], by simp [tails], gap_lay hb h1 rfl h2 (fun _ => hb0) h p'⟩

theorem tail_number {b t : List UInt8} (hb : Gap b) (ht : TailText t) (ha : b = [] → t.head?.any sym = false)
    (hd : b = [] → t.head? ≠ some 46) {p : Nat} (h : Here w p (b ++ t)) (p' : Nat) :
    ∃ B ∈ tails .number, Lay w B p [p + b.length, p'] := by
  obtain ⟨h1, rfl | ⟨c, r, rfl, h2⟩⟩ := ht
  · exact ⟨_, by simp [tails], fin_lay hb h p'⟩
  by_cases hb0 : b = []
  · exact ⟨[.ws false, .hole kTailNum], by simp [tails],
      gap_lay hb h1 rfl (tail_num h2 (by simpa using ha hb0) (by simpa using hd hb0)) (by simp) h p'⟩
  · exact ⟨[.ws true, .hole kTail], by simp [tails], gap_lay hb h1 rfl h2 (fun _ => hb0) h p'⟩

theorem tail_other {b t : List UInt8} (hb : Gap b) (ht : TailText t)
    {p : Nat} (h : Here w p (b ++ t)) (p' : Nat) : ∃ B ∈ tails .other, Lay w B p [p + b.length, p'] := by
  obtain ⟨h1, rfl | ⟨c, r, rfl, h2⟩⟩ := ht
  · exact ⟨_, by simp [tails], fin_lay hb h p'⟩
  · exact ⟨[.ws false, .hole kTail], by simp [tails], gap_lay hb h1 rfl h2 (by simp) h p'⟩

theorem head_lay {b t : List UInt8} (hb : Gap b) (ht : HeadText t) {wordy : Bool}
    (ha : wordy = true → b = [] → t.head?.any sym = false)
    {p : Nat} (h : Here w p (b ++ t)) (p' : Nat) : ∃ B ∈ afters wordy, Lay w B p [p + b.length, p'] := by
  obtain ⟨h1, c, r, rfl, h2⟩ := ht
  cases wordy with
  | false => exact ⟨[.ws false, .hole kHead], by simp [afters], gap_lay hb h1 rfl h2 (by simp) h p'⟩
  | true =>
    by_cases hb0 : b = []
    · exact ⟨[.ws false, .hole kHeadSym], by simp [afters],
        gap_lay hb h1 rfl (head_sym h2 (by simpa using ha rfl hb0)) (by simp) h p'⟩
    · exact ⟨[.ws true, .hole kHead], by simp [afters], gap_lay hb h1 rfl h2 (fun _ => hb0) h p'⟩

/-! ## Words -/

theorem Span.word {x s t : List UInt8} (h : s.map upper = x) {p : Nat} (hh : Here w p (s ++ t)) :
    Span w (wordCells x) p (p + s.length) := by
  have : wordCells x = (x.map kAny).map .byte := by simp [wordCells]
  rw [this]
  refine Span.bytes ?_ hh
  subst h
  clear hh this
  induction s with
  | nil => exact .nil
  | cons c s ih => exact .cons (any_mem c) ih

theorem solid_letter {c : UInt8} {r : List UInt8} (h : letter (upper c) = true) : Solid (c :: r) := by
  have : (c != 32 && c != 9 && c != 10 && c != 13 && c != 47) = true :=
    imp_byte (P := fun c => letter (upper c)) (Q := fun c => c != 32 && c != 9 && c != 10 && c != 13 && c != 47)
      (by decide +kernel) h
  simp only [Bool.and_eq_true, bne_iff_ne] at this
  obtain ⟨⟨⟨⟨h1, h2⟩, h3⟩, h4⟩, h5⟩ := this
  exact .inr ⟨c, r, rfl, h1, h2, h3, h4, fun h => absurd h h5⟩

/-- The first word of an operator comes first. -/
theorem Spelled.first {x : List UInt8} {xs : List (List UInt8)} {s : List UInt8} (h : Spelled (x :: xs) s) :
    ∃ s1 s2, s = s1 ++ s2 ∧ s1.map upper = x := by
  cases h with
  | last h => exact ⟨s, [], by simp, h⟩
  | more h _ _ _ => exact ⟨_, _, rfl, h⟩

theorem Spelled.byte {x : UInt8} {xs : List UInt8} {ys : List (List UInt8)} {s : List UInt8}
    (h : Spelled ((x :: xs) :: ys) s) : ∃ c r, s = c :: r ∧ upper c = x := by
  obtain ⟨s1, s2, e, h1⟩ := h.first
  cases s1 with
  | nil => cases h1
  | cons c s1 =>
    simp only [List.map_cons, List.cons.injEq] at h1
    exact ⟨c, s1 ++ s2, e, h1.1⟩

theorem Span.spelled {xs : List (List UInt8)} {s : List UInt8} (h : Spelled xs s)
    (hx : xs.tail.all (fun x => x.head?.any letter) = true) :
    ∀ {p : Nat} {t : List UInt8}, Here w p (s ++ t) → Span w (opCells xs) p (p + s.length) := by
  induction h with
  | last h => intro p t hh; exact Span.word h hh
  | @more x y xs s b s' h1 h2 h3 h4 ih =>
    intro p t hh
    simp only [List.tail_cons, List.all_cons, Bool.and_eq_true] at hx
    rw [List.append_assoc] at hh
    have hs := hh.right
    have hb := hs
    rw [List.append_assoc] at hs
    have hs2 := hs.right
    have hsolid : Solid (s' ++ t) := by
      cases y with
      | nil => simp at hx
      | cons y0 y =>
        obtain ⟨c, r, rfl, h⟩ := h4.byte
        exact solid_letter (by rw [h]; simpa using hx.1)
    have := ih hx.2 hs2
    rw [show p + (s ++ (b ++ s')).length = p + s.length + b.length + s'.length by simp; omega]
    exact (Span.word h1 hh).append (.cons (.of_gap h2 hsolid hs (fun _ => h3)) this)

theorem Writes.span {o : Op} {s t : List UInt8} (h : Writes o s) {p : Nat} (hh : Here w p (s ++ t)) :
    Span w (opText o) p (p + s.length) :=
  Span.spelled h (by cases o <;> decide +kernel) hh

/-- The text ends with a byte of a word. -/
def EndsSym (s : List UInt8) : Prop := s.getLast?.any sym = true

theorem EndsSym.append {s t : List UInt8} (h : EndsSym t) : EndsSym (s ++ t) := by
  unfold EndsSym at *
  cases ht : t.getLast? with
  | none => rw [ht] at h; cases h
  | some c => rw [ht] at h; rw [List.getLast?_append, ht]; exact h
theorem EndsSym.of {c : UInt8} {s : List UInt8} (h : ∀ d ∈ c :: s, sym d = true) : EndsSym (c :: s) := by
  unfold EndsSym
  rw [List.getLast?_eq_some_getLast (by simp)]
  exact h _ (List.getLast_mem _)

theorem word_ends {x s : List UInt8} (h : s.map upper = x) (hx : x.all letter = true) (hn : x ≠ []) : EndsSym s := by
  subst h
  cases s with
  | nil => exact absurd rfl hn
  | cons c s =>
    refine .of fun d hd => ?_
    rw [List.all_eq_true] at hx
    have := hx (upper d) (List.mem_map_of_mem hd)
    exact imp_byte (P := fun d => letter (upper d)) (by decide +kernel) this

theorem Spelled.ends {xs : List (List UInt8)} {s : List UInt8} (h : Spelled xs s)
    (hx : xs.all (fun x => x.all letter && !x.isEmpty) = true) : EndsSym s := by
  induction h with
  | last h =>
    simp only [List.all_cons, List.all_nil, Bool.and_true, Bool.and_eq_true, Bool.not_eq_true', List.isEmpty_eq_false_iff] at hx
    exact word_ends h hx.1 hx.2
  | more _ _ _ _ ih =>
    rw [List.all_cons, Bool.and_eq_true] at hx
    exact (ih hx.2).append.append

theorem Writes.ends {o : Op} {s : List UInt8} (h : Writes o s) (ho : isWord o = true) : EndsSym s := by
  refine Spelled.ends h ?_
  revert ho
  cases o <;> decide +kernel

theorem Writes.first {o : Op} {s : List UInt8} (h : Writes o s) :
    ∃ c r, s = c :: r ∧ ((words o).map bytes).head?.bind List.head? = some (upper c) := by
  have : ∃ x xs ys, (words o).map bytes = (x :: xs) :: ys := by cases o <;> exact ⟨_, _, _, rfl⟩
  obtain ⟨x, xs, ys, e⟩ := this
  unfold Writes at h
  rw [e] at h
  obtain ⟨c, r, rfl, h1⟩ := h.byte
  exact ⟨c, r, rfl, by rw [e, h1]; rfl⟩

theorem Writes.head {o : Op} {s : List UInt8} (h : Writes o s) (ho : o ∈ prefixes) :
    ∃ c r, s = c :: r ∧ kHead.mem c = true := by
  obtain ⟨c, r, rfl, h1⟩ := h.first
  refine ⟨c, r, rfl, ?_⟩
  exact imp_byte (P := fun c => prefixes.any fun o => ((words o).map bytes).head?.bind List.head? == some (upper c))
    (Q := fun c => kHead.mem c) (by decide +kernel) (by rw [List.any_eq_true]; exact ⟨o, ho, by rw [h1, beq_self_eq_true]⟩)

theorem Writes.tail {o : Op} {s : List UInt8} (h : Writes o s) (ho : o ∈ infixes ∨ o ∈ postfixes) :
    ∃ c r, s = c :: r ∧ kTail.mem c = true ∧ (c = 47 → r = []) := by
  have hdiv : o = .div ∨ ((words o).map bytes).head?.bind List.head? ≠ some 47 := by
    have : ∀ o ∈ infixes ++ postfixes, o = .div ∨ ((words o).map bytes).head?.bind List.head? ≠ some 47 := by
      decide +kernel
    exact this o (by simpa using ho)
  obtain ⟨c, r, rfl, h1⟩ := h.first
  refine ⟨c, r, rfl, ?_, ?_⟩
  · exact imp_byte (P := fun c => (infixes ++ postfixes).any fun o => ((words o).map bytes).head?.bind List.head? == some (upper c))
      (Q := fun c => kTail.mem c) (by decide +kernel) (by rw [List.any_eq_true]; exact ⟨o, by simpa using ho, by rw [h1, beq_self_eq_true]⟩)
  · intro hc
    rcases hdiv with rfl | hd
    · cases h with
      | last h =>
        have := congrArg List.length h
        rw [List.length_map] at this
        exact List.length_eq_zero_iff.1 (by
          have h2 : (bytes "/").length = 1 := by decide
          rw [h2] at this
          simpa using this)
    · rw [h1, hc] at hd
      exact absurd (by decide) hd

/-! ## Chains -/

/-- A list of pieces: `Chain true` where an operand is expected, `Chain false` after an operand. -/
inductive Chain : Bool → List Piece → Prop
  | done : Chain false []
  | operand {s b X} : Prim s → Gap b → Chain false X → Chain true (⟨.operand, s, b⟩ :: X)
  | pre {o s b X} : o ∈ prefixes → Writes o s → Gap b → Chain true X → Chain true (⟨.pre o, s, b⟩ :: X)
  | post {o s b X} : o ∈ postfixes → Writes o s → Gap b → Chain false X → Chain false (⟨.post o, s, b⟩ :: X)
  | inf {o s b X} : o ∈ infixes → Writes o s → Gap b → Chain true X → Chain false (⟨.inf o, s, b⟩ :: X)
  | property {s b b' X} : Gap b' → Symbolic s → Gap b → Chain false X →
      Chain false (⟨.post .property, 46 :: (b' ++ s), b⟩ :: X)
  | subscript {b b' F X} : Gap b' → Exprn F → Spaced F → Gap b → Chain false X →
      Chain false (⟨.post .subscript, 91 :: (b' ++ (render F ++ [93])), b⟩ :: X)

theorem Chain.append {v : Bool} {X Y : List Piece} (h : Chain v X) (h' : Chain false Y) : Chain v (X ++ Y) := by
  induction h with
  | done => exact h'
  | operand h1 h2 _ ih => exact .operand h1 h2 ih
  | pre h1 h2 h3 _ ih => exact .pre h1 h2 h3 ih
  | post h1 h2 h3 _ ih => exact .post h1 h2 h3 ih
  | inf h1 h2 h3 _ ih => exact .inf h1 h2 h3 ih
  | property h1 h2 h3 _ ih => exact .property h1 h2 h3 ih
  | subscript h1 h2 h3 h4 _ ih => exact .subscript h1 h2 h3 h4 ih

/-- Every expression is such a list. -/
theorem Exprn.chain : ∀ {n : Nat} {E : List Piece}, E.length ≤ n → Exprn E → Chain true E := by
  intro n
  induction n with
  | zero =>
    intro E hn h
    cases h <;> simp at hn
  | succ n ih =>
    intro E hn h
    cases h with
    | operand h1 h2 => exact .operand h1 h2 .done
    | pre h1 h2 h3 h4 => exact .pre h1 h2 h3 (ih (by simpa using hn) h4)
    | post h1 h2 h3 h4 => exact (ih (by simpa using hn) h4).append (.post h1 h2 h3 .done)
    | inf h1 h2 h3 h4 h5 =>
      simp only [List.length_append, List.length_cons] at hn
      exact (ih (by omega) h4).append (.inf h1 h2 h3 (ih (by omega) h5))
    | property h1 h2 h3 h4 => exact (ih (by simpa using hn) h1).append (.property h2 h3 h4 .done)
    | subscript h1 h2 h3 h4 h5 => exact (ih (by simpa using hn) h1).append (.subscript h2 h3 h4 h5 .done)

theorem Symbolic.start {s : List UInt8} (h : Symbolic s) : ∃ c r, s = c :: r ∧ (letter c = true ∨ c = 95) ∧
    ∀ d ∈ r, sym d = true := by
  cases h with
  | mk h1 h2 => exact ⟨_, _, rfl, h1, h2⟩
theorem Symbolic.ends {s : List UInt8} (h : Symbolic s) : EndsSym s := by
  obtain ⟨c, r, rfl, h1, h2⟩ := h.start
  refine .of fun d hd => ?_
  rcases List.mem_cons.1 hd with rfl | hd
  · exact start_sym h1
  · exact h2 d hd
theorem Symbolic.solid {s t : List UInt8} (h : Symbolic s) : Solid (s ++ t) := by
  obtain ⟨c, r, rfl, h1, h2⟩ := h.start
  have : (c != 32 && c != 9 && c != 10 && c != 13 && c != 47) = true :=
    imp_byte (P := fun c => sym c) (Q := fun c => c != 32 && c != 9 && c != 10 && c != 13 && c != 47)
      (by decide +kernel) (start_sym h1)
  simp only [Bool.and_eq_true, bne_iff_ne] at this
  obtain ⟨⟨⟨⟨h1, h2⟩, h3⟩, h4⟩, h5⟩ := this
  exact .inr ⟨c, _, rfl, h1, h2, h3, h4, fun h => absurd h h5⟩
theorem Symbolic.all {s : List UInt8} (h : Symbolic s) : ∀ c ∈ s, sym c = true := by
  obtain ⟨h1, h2⟩ := h
  intro c hc
  rcases List.mem_cons.1 hc with rfl | hc
  · exact start_sym h1
  · exact h2 c hc
theorem Name.symbolic {s : List UInt8} (h : Name s) : Symbolic s := by
  obtain ⟨h, -⟩ := h
  exact h

theorem Symbolic.span {s t : List UInt8} (h : Symbolic s) {p : Nat} (hh : Here w p (s ++ t)) :
    Span w [.byte kStart, .run symPart] p (p + s.length) := by
  obtain ⟨c, r, rfl, h1, h2⟩ := h.start
  rw [show p + (c :: r).length = p + 1 + r.length by simp; omega]
  exact .cons (.of_byte hh (start_mem h1)) (.cons (.of_run hh.tail fun d hd => sym_mem (h2 d hd)) .nil)

theorem Name.head {s : List UInt8} (h : Name s) : ∃ c r, s = c :: r ∧ kHead.mem c = true := by
  obtain ⟨c, r, rfl, h, -⟩ := h.symbolic.start
  exact ⟨c, r, rfl, imp_byte (P := fun c => letter c || c == 95) (by decide +kernel) (by simpa using h)⟩

theorem unlike_mem {c d : UInt8} (h1 : upper c ≠ d) (h2 : d ∈ capitals) : (unlike d).mem c = true := by
  have h : (capitals.all fun d => (List.range 256).all fun n => upper n.toUInt8 == d || (unlike d).mem n.toUInt8) = true := by
    decide +kernel
  simp only [List.all_eq_true, List.mem_range, Bool.or_eq_true, beq_iff_eq] at h
  have := h d h2 c.toNat c.toNat_lt
  simpa [h1] using this

theorem minus_mem {c : UInt8} : ∀ {ds : List UInt8} {K : CharSet}, K.mem c = true → (∀ d ∈ ds, d ∈ capitals) →
    upper c ∉ ds → (minus K ds).mem c = true
  | [], _, h, _, _ => h
  | d :: ds, K, h, h1, h2 => by
    refine minus_mem (ds := ds) (K := ⟨K.mask &&& (unlike d).mask⟩) ?_ (fun e he => h1 e (by simp [he])) (fun e => h2 (by simp [e]))
    have h3 := unlike_mem (c := c) (d := d) (fun e => h2 (by simp [e])) (h1 d (by simp))
    unfold CharSet.mem at *
    rw [Nat.testBit_and, h, h3]
    rfl

theorem kids_capitals {Ws : List (List UInt8)} : ∀ d ∈ kids Ws, d ∈ capitals := fun _ hd => (List.mem_filter.1 hd).1
theorem kids_mem {Ws : List (List UInt8)} {d : UInt8} : d ∈ kids Ws ↔ d ∈ capitals ∧ ∃ W, d :: W ∈ Ws := by
  simp only [kids, List.mem_filter, List.any_eq_true, beq_iff_eq]
  refine and_congr_right fun _ => ⟨fun ⟨W, h1, h2⟩ => ?_, fun ⟨W, h⟩ => ⟨_, h, rfl⟩⟩
  cases W with
  | nil => cases h2
  | cons c W => exact ⟨W, by simp only [List.head?_cons, Option.some.injEq] at h2; exact h2 ▸ h1⟩
theorem rest_mem {Ws : List (List UInt8)} {d : UInt8} {W : List UInt8} : W ∈ rest Ws d ↔ d :: W ∈ Ws := by
  simp only [rest, List.mem_filterMap]
  refine ⟨fun ⟨V, h1, h2⟩ => ?_, fun h => ⟨_, h, by simp⟩⟩
  cases V with
  | nil => cases h2
  | cons c V =>
    simp only at h2
    split at h2
    · next h => cases h2; exact h ▸ h1
    · cases h2

theorem trie_span : ∀ (n : Nat) {Ws : List (List UInt8)} {s t : List UInt8} {p : Nat}, 0 < n → (∀ W ∈ Ws, W.length < n) →
    (∀ W ∈ Ws, ∀ c ∈ W, c ∈ capitals) → (∀ c ∈ s, sym c = true) → s.map upper ∉ Ws → Here w p (s ++ t) →
    ∃ A ∈ trie n Ws, Span w A p (p + s.length) := by
  intro n
  induction n with
  | zero => intro _ _ _ _ h; cases h
  | succ n ih =>
    intro Ws s t p _ hl hc hs hn hh
    cases s with
    | nil => exact ⟨[], by simp only [trie]; rw [if_neg (by simpa using hn)]; simp, .nil⟩
    | cons c s =>
      rw [show p + (c :: s).length = p + 1 + s.length by simp; omega]
      by_cases hk : upper c ∈ kids Ws
      · obtain ⟨W, hW⟩ := (kids_mem.1 hk).2
        have := hl _ hW
        simp only [List.length_cons] at this
        obtain ⟨A, hA, h1⟩ := ih (Ws := rest Ws (upper c)) (s := s) (t := t) (p := p + 1) (by omega)
          (fun V hV => by have := hl _ (rest_mem.1 hV); simp only [List.length_cons] at this; omega)
          (fun V hV d hd => hc _ (rest_mem.1 hV) d (by simp [hd])) (fun d hd => hs d (by simp [hd]))
          (fun h => hn (by simpa using rest_mem.1 h)) hh.tail
        refine ⟨.byte (kAny (upper c)) :: A, ?_, .cons (.of_byte hh (any_mem c)) h1⟩
        simp only [trie, List.mem_cons, List.mem_append, List.mem_flatMap, List.mem_map]
        exact .inr (.inr ⟨_, hk, A, hA, rfl⟩)
      · refine ⟨[.byte (minus symPart (kids Ws)), .run symPart], by simp [trie], ?_⟩
        exact .cons (.of_byte hh (minus_mem (sym_mem (hs c (by simp))) kids_capitals hk))
          (.cons (.of_run hh.tail fun d hd => sym_mem (hs d (by simp [hd]))) .nil)

theorem const_head {s : List UInt8} (h : s.map upper ∈ consts) : ∃ c r, s = c :: r ∧ kHead.mem c = true := by
  have h0 : ∀ x ∈ consts, ∃ c r, x = c :: r ∧ (c = 84 ∨ c = 70 ∨ c = 78) := by
    intro x hx
    simp only [consts, List.map_cons, List.map_nil, List.mem_cons, List.not_mem_nil, or_false] at hx
    rcases hx with rfl | rfl | rfl
    · exact ⟨84, bytes "RUE", by decide, .inl rfl⟩
    · exact ⟨70, bytes "ALSE", by decide, .inr (.inl rfl)⟩
    · exact ⟨78, bytes "ULL", by decide, .inr (.inr rfl)⟩
  obtain ⟨c, r, e, hc⟩ := h0 _ h
  cases s with
  | nil => cases e
  | cons d s =>
    simp only [List.map_cons, List.cons.injEq] at e
    refine ⟨d, s, rfl, ?_⟩
    rw [← e.1] at hc
    exact imp_byte (P := fun d => upper d == 84 || upper d == 70 || upper d == 78) (by decide +kernel)
      (by simpa [or_assoc] using hc)

theorem const_sym {s : List UInt8} (h : s.map upper ∈ consts) : ∀ d ∈ s, sym d = true := by
  have h0 : ∀ x ∈ consts, x.all letter = true := by decide +kernel
  intro d hd
  have := h0 _ h
  rw [List.all_eq_true] at this
  exact imp_byte (P := fun d => letter (upper d)) (by decide +kernel) (this _ (List.mem_map_of_mem hd))

theorem const_ends {s : List UInt8} (h : s.map upper ∈ consts) : EndsSym s := by
  obtain ⟨c, r, rfl, -⟩ := const_head h
  exact .of (const_sym h)

/-! ## Operands of several pieces -/

theorem key_first {x : String} {k : Piece} {d : UInt8} {ds : List UInt8} (h : Key x k) (hx : bytes x = d :: ds) :
    ∃ c s, k.text = c :: s ∧ upper c = d := by
  obtain ⟨h, -⟩ := h
  rw [hx] at h
  rename_i s b
  cases s with
  | nil => cases h
  | cons c s => exact ⟨c, s, rfl, by simpa using (List.cons.inj h).1⟩
/-- A sign that is one byte. -/
theorem key_sign {x : String} {k : Piece} {d : UInt8} (h : Key x k) (hx : bytes x = [d]) (hd : letter d = false) : k.text = [d] := by
  obtain ⟨h, -⟩ := h
  rw [hx] at h
  rename_i s b
  cases s with
  | nil => cases h
  | cons c s =>
    simp only [List.map_cons, List.cons.injEq, List.map_eq_nil_iff] at h
    have : (letter (upper c) || c == upper c) = true := every_byte (P := fun c => letter (upper c) || c == upper c) (by decide +kernel) c
    rw [h.1, hd] at this
    have h1 : c = d := by simpa using this
    rw [h.2, h1]

theorem _root_.Verif.Stmts.FnName.first {N : List Piece} {k : Piece} {Y : List Piece} (hN : FnName N) (hk : Key "(" k) :
    ∃ s b c r, render (N ++ k :: Y) = s ++ (b ++ c :: r) ∧ Name s ∧ Gap b ∧ (c = 40 ∨ c = 46) := by
  cases hN with
  | one hx =>
    obtain ⟨h1, h2⟩ := hx
    have := key_sign hk (d := 40) (by decide +kernel) (by decide)
    exact ⟨_, _, 40, k.blank ++ render Y, by simp [render, this], h1, h2, .inl rfl⟩
  | @more x k' X hx hk' _ =>
    obtain ⟨h1, h2⟩ := hx
    have := key_sign hk' (d := 46) (by decide +kernel) (by decide)
    exact ⟨_, _, 46, k'.blank ++ render (X ++ k :: Y), by simp [render, this], h1, h2, .inr rfl⟩

theorem Compound.first {P : List Piece → Prop} {X : List Piece} (h : Compound P X) :
    (∃ s b c r, render X = s ++ (b ++ c :: r) ∧ Name s ∧ Gap b ∧ (c = 40 ∨ c = 46)) ∨
    ∃ c r, render X = c :: r ∧ kHead.mem c = true ∧ kNoD.mem c = true := by
  have word : ∀ {x : String} {k : Piece} {d : UInt8} {ds : List UInt8} {Y : List Piece}, Key x k → bytes x = d :: ds →
      d ∈ bytes "CAENSFR[" → ∃ c r, render (k :: Y) = c :: r ∧ kHead.mem c = true ∧ kNoD.mem c = true := by
    intro x k d ds Y hk hx hd
    obtain ⟨c, s, e, hc⟩ := key_first hk hx
    have := imp_byte (P := fun c => (bytes "CAENSFR[").contains (upper c)) (Q := fun c => kHead.mem c && kNoD.mem c) (by decide +kernel)
      (c := c) (by rw [hc]; simpa using hd)
    simp only [Bool.and_eq_true] at this
    exact ⟨c, _, by simp [render, e]; rfl, this⟩
  cases h with
  | call h1 h2 | callAll h1 h2 => exact .inl (h1.first h2)
  | cases h | caseOf h => exact .inr (word h (d := 67) (ds := bytes "ASE") (by decide +kernel) (by decide +kernel))
  | each hx h =>
    simp only [List.mem_cons, List.not_mem_nil, or_false] at hx
    rcases hx with rfl | rfl | rfl | rfl | rfl
    · exact .inr (word h (d := 65) (ds := bytes "LL") (by decide +kernel) (by decide +kernel))
    · exact .inr (word h (d := 65) (ds := bytes "NY") (by decide +kernel) (by decide +kernel))
    · exact .inr (word h (d := 78) (ds := bytes "ONE") (by decide +kernel) (by decide +kernel))
    · exact .inr (word h (d := 83) (ds := bytes "INGLE") (by decide +kernel) (by decide +kernel))
    · exact .inr (word h (d := 70) (ds := bytes "ILTER") (by decide +kernel) (by decide +kernel))
  | extract h => exact .inr (word h (d := 69) (ds := bytes "XTRACT") (by decide +kernel) (by decide +kernel))
  | reduce h => exact .inr (word h (d := 82) (ds := bytes "EDUCE") (by decide +kernel) (by decide +kernel))
  | list h => exact .inr (word h (d := 91) (ds := []) (by decide +kernel) (by decide +kernel))

theorem Prim.head {s : List UInt8} (h : Prim s) : ∃ c r, s = c :: r ∧ kHead.mem c = true := by
  have hd : ∀ c, digit c = true → kHead.mem c = true := fun c => imp_byte (by decide +kernel)
  cases h with
  | number h1 h2 =>
    cases s with
    | nil => exact absurd rfl h1
    | cons c r => exact ⟨c, r, rfl, hd c (h2 c (by simp))⟩
  | @decimal s t h1 h2 =>
    cases s with
    | nil => exact absurd rfl h1
    | cons c r => exact ⟨c, _, rfl, hd c (h2 c (by simp))⟩
  | quoted h _ => exact ⟨_, _, rfl, by rcases h with rfl | rfl <;> decide⟩
  | const h => exact const_head h
  | name h => exact h.head
  | param _ => exact ⟨_, _, rfl, by decide⟩
  | paren => exact ⟨_, _, rfl, by decide⟩
  | compound h _ _ =>
    rcases h.first with ⟨s, b, c, r, e, h1, -⟩ | ⟨c, r, e, h1, -⟩
    · obtain ⟨d, r', rfl, h2⟩ := h1.head
      exact ⟨d, _, e, h2⟩
    · exact ⟨c, r, e, h1⟩
  | empty | one | more => exact ⟨_, _, rfl, by decide⟩
  | map h => cases h <;> exact ⟨_, _, rfl, by decide⟩

theorem Chain.head {X : List Piece} {t : List UInt8} (h : Chain true X) : HeadText (render X ++ t) := by
  cases h with
  | operand h1 _ _ =>
    obtain ⟨c, r, rfl, h⟩ := h1.head
    exact .of h
  | pre h1 h2 _ _ =>
    obtain ⟨c, r, rfl, h⟩ := h2.head h1
    exact .of h

theorem render_cons {x : Piece} {X : List Piece} {t : List UInt8} :
    render (x :: X) ++ t = x.text ++ (x.blank ++ (render X ++ t)) := by simp [render]

theorem gap_head {b t : List UInt8} (hb : Gap b) (ht : b = [] → t.head?.any sym = false) : (b ++ t).head?.any sym = false := by
  cases hb with
  | nil => exact ht rfl
  | char hc _ => rcases hc with rfl | rfl | rfl <;> rfl
  | crlf _ => rfl

/-- What follows a word. -/
theorem word_stops {t : List UInt8} {p : Nat} (ht : t.head?.any sym = false) (hh : Here w p t) :
    ∃ B ∈ wordStops, Lay w B p [p] := by
  cases t with
  | nil => exact ⟨[.fin], by simp [wordStops], .cons (.of_fin hh) .nil⟩
  | cons c t =>
    refine ⟨[.hole _], by simp [wordStops]; rfl, .cons (.of_hole hh ?_) .nil⟩
    exact imp_byte (P := fun c => !sym c) (by decide +kernel) (by simpa using ht)

/-- A name is none of the words. -/
theorem Name.words {s t : List UInt8} (h : Name s) {p : Nat} (hh : Here w p (s ++ t)) (ht : t.head?.any sym = false) :
    ∀ r ∈ wordRule, Shuns w (.nt r none) p := by
  intro r hr
  obtain ⟨x, hx, rfl⟩ := List.mem_map.1 hr
  have h0 : ∀ x ∈ wordRules, x.2 ∈ reserved ∧ x.2.length < 18 ∧ ∀ c ∈ x.2, c ∈ capitals := by decide +kernel
  obtain ⟨g1, g2, g3⟩ := h0 x hx
  obtain ⟨h, hn⟩ := h
  obtain ⟨A, hA, h1⟩ := trie_span (w := w) 18 (Ws := [x.2]) (s := s) (t := t) (p := p) (by omega) (by simpa using g2) (by simpa using g3) h.all
    (fun e => hn (by rw [List.mem_singleton.1 e]; exact g1)) hh
  obtain ⟨B, hB, h2⟩ := word_stops ht hh.right
  exact Win.shuns (name_word x hx A hA B hB) h1 h2 (by simp) (by simp) (by simp)
theorem Name.distinct {s t : List UInt8} (h : Name s) {p : Nat} (hh : Here w p (s ++ t)) (ht : t.head?.any sym = false) :
    Shuns w (.nt .r_DISTINCT none) p :=
  h.words hh ht _ (by decide)
theorem no_distinct {c : UInt8} {t : List UInt8} {p : Nat} (hh : Here w p (c :: t)) (h : kNoD.mem c = true) :
    Shuns w (.nt .r_DISTINCT none) p :=
  Win.shuns other_distinct .nil (qs := [p]) (.cons (.of_hole hh h) .nil) (by simp) (by simp) (by simp)

/-- No operand is the word DISTINCT. -/
theorem Prim.distinct {s t : List UInt8} (h : Prim s) {p : Nat} (hh : Here w p (s ++ t))
    (ht : EndsSym s → t.head?.any sym = false) : Shuns w (.nt .r_DISTINCT none) p := by
  have hd : ∀ c, digit c = true → kNoD.mem c = true := fun c => imp_byte (by decide +kernel)
  cases h with
  | number h1 h2 =>
    cases s with
    | nil => exact absurd rfl h1
    | cons c r => exact no_distinct hh (hd c (h2 c (by simp)))
  | @decimal s t h1 h2 =>
    cases s with
    | nil => exact absurd rfl h1
    | cons c r => exact no_distinct hh (hd c (h2 c (by simp)))
  | quoted h _ => exact no_distinct hh (by rcases h with rfl | rfl <;> decide)
  | const h =>
    have h0 : ∀ x ∈ consts, x.head?.any (fun c => c == 84 || c == 70 || c == 78) = true := by decide +kernel
    have := h0 _ h
    cases s with
    | nil => cases this
    | cons c s =>
      exact no_distinct hh (imp_byte (P := fun d => upper d == 84 || upper d == 70 || upper d == 78) (by decide +kernel)
        (by simpa using this))
  | name h => exact h.distinct hh (ht h.symbolic.ends)
  | param _ => exact no_distinct hh (by decide)
  | paren => exact no_distinct hh (by decide)
  | compound h _ _ =>
    rcases h.first with ⟨s, b, c, r, e, h1, h2, h3⟩ | ⟨c, r, e, -, h1⟩
    · rw [e, List.append_assoc, List.append_assoc] at hh
      refine h1.distinct hh (gap_head h2 fun _ => ?_)
      rcases h3 with rfl | rfl <;> rfl
    · rw [e] at hh
      exact no_distinct hh h1
  | empty | one | more => exact no_distinct hh (by decide)
  | map h => cases h <;> exact no_distinct hh (by decide)

theorem Chain.tail {X : List Piece} {t : List UInt8} (h : Chain false X) (ht : TailText t) : TailText (render X ++ t) := by
  cases h with
  | done => exact ht
  | @post o s b X h1 h2 _ _ =>
    obtain ⟨c, r, rfl, h, h'⟩ := h2.tail (.inr h1)
    rw [render_cons]
    refine TailText.of h fun hc => ?_
    subst hc
    have : ∀ o ∈ postfixes, ((words o).map bytes).head?.bind List.head? ≠ some 47 := by decide +kernel
    obtain ⟨c, r, e, h3⟩ := h2.first
    cases e
    exact absurd (by rw [h3]; decide) (this o h1)
  | @inf o s b X h1 h2 h3 h4 =>
    obtain ⟨c, r, rfl, h, h'⟩ := h2.tail (.inl h1)
    rw [render_cons]
    refine TailText.of h fun hc => ?_
    rw [h' hc]
    exact h3.quiet h4.head
  | property => exact TailText.of (by decide) (by simp)
  | subscript => exact TailText.of (by decide) (by simp)

end Verif.Exprs
