import Verif.Peg.Lines
import Verif.Data.Errors
/-!
# Line, column and offset of a position

`input_position` (parser.c:866-887, quick_parser.c:359-380) computes these from the stack of line
starts; with a right stack this is what counting gives.
-/
namespace Verif.Peg

/-- `input_position`.  `off` is `position_offset`; the loop finds the last offset not beyond `pos`.
When there is none, `depth` reaches 0 and `assert(depth > 0)` fails. -/
def inputPosition (off : Pos) (lines : List Nat) (pos : Nat) : Except Fault Pos :=
  match backtrackL pos lines with
  | [] => .error .assertion
  | l :: ls =>
    .ok ⟨ls.length + off.line, pos - l + (if ls = [] then off.column else 1), pos + off.offset⟩

/-- Moving over one byte. -/
def _root_.Verif.Pos.step (p : Pos) (c : UInt8) : Pos :=
  if c = 10 then ⟨p.line + 1, 1, p.offset + 1⟩ else ⟨p.line, p.column + 1, p.offset + 1⟩

/-- The position after the given bytes, counting newlines. -/
def _root_.Verif.Pos.after (p : Pos) (l : List UInt8) : Pos := l.foldl Pos.step p

theorem _root_.Verif.Pos.after_append (p : Pos) (a b : List UInt8) : Pos.after p (a ++ b) = Pos.after (Pos.after p a) b := by
  simp [Pos.after, List.foldl_append]

/-- The line starts of `w` up to `q`, latest first. -/
def startsTo (w : List UInt8) : Nat → List Nat
  | 0 => [0]
  | q + 1 => if w[q]? = some 10 then (q + 1) :: startsTo w q else startsTo w q

theorem startsTo_spec (w : List UInt8) : ∀ q, (startsTo w q).Pairwise (fun a b => b < a) ∧
    (∀ x, x ∈ startsTo w q ↔ LineStart w x ∧ x ≤ q) := by
  intro q
  induction q with
  | zero =>
    refine ⟨by simp [startsTo], fun x => ?_⟩
    simp only [startsTo, List.mem_singleton]
    constructor
    · rintro rfl; exact ⟨Or.inl rfl, Nat.le_refl _⟩
    · rintro ⟨-, h⟩; omega
  | succ q ih =>
    obtain ⟨h1, h2⟩ := ih
    simp only [startsTo]
    split
    · rename_i h
      refine ⟨List.pairwise_cons.2 ⟨fun a ha => by have := ((h2 a).1 ha).2; omega, h1⟩, fun x => ?_⟩
      rw [List.mem_cons, h2]
      constructor
      · rintro (rfl | ⟨h3, h4⟩)
        · exact ⟨Or.inr ⟨q, rfl, h⟩, Nat.le_refl _⟩
        · exact ⟨h3, by omega⟩
      · rintro ⟨h3, h4⟩
        rcases Nat.lt_or_eq_of_le h4 with h5 | h5
        · exact Or.inr ⟨h3, by omega⟩
        · exact Or.inl h5
    · rename_i h
      refine ⟨h1, fun x => ?_⟩
      rw [h2]
      constructor
      · rintro ⟨h3, h4⟩; exact ⟨h3, by omega⟩
      · rintro ⟨h3, h4⟩
        refine ⟨h3, ?_⟩
        rcases Nat.lt_or_eq_of_le h4 with h5 | h5
        · omega
        · exfalso
          rcases h3 with h3 | ⟨p, h3, h6⟩
          · omega
          · have : p = q := by omega
            subst this; exact h h6

/-- Two strictly decreasing lists with the same members are equal. -/
theorem sorted_ext {L M : List Nat} (hL : L.Pairwise (fun a b => b < a))
    (hM : M.Pairwise (fun a b => b < a)) (h : ∀ x, x ∈ L ↔ x ∈ M) : L = M := by
  induction L generalizing M with
  | nil =>
    cases M with
    | nil => rfl
    | cons b M => have := (h b).2 (by simp); simp at this
  | cons a L ih =>
    cases M with
    | nil => have := (h a).1 (by simp); simp at this
    | cons b M =>
      rw [List.pairwise_cons] at hL hM
      have hab : a = b := by
        have h1 := (h a).1 (by simp)
        have h2 := (h b).2 (by simp)
        rcases List.mem_cons.1 h1 with h3 | h3
        · exact h3
        · rcases List.mem_cons.1 h2 with h4 | h4
          · exact h4.symm
          · have := hL.1 b h4; have := hM.1 a h3; omega
      subst hab
      congr 1
      refine ih hL.2 hM.2 (fun x => ?_)
      constructor
      · intro hx
        rcases List.mem_cons.1 ((h x).1 (by simp [hx])) with h3 | h3
        · have := hL.1 x hx; omega
        · exact h3
      · intro hx
        rcases List.mem_cons.1 ((h x).2 (by simp [hx])) with h3 | h3
        · have := hM.1 x hx; omega
        · exact h3

theorem LInv.starts {w : List UInt8} {p q : Nat} {L : List Nat} (h : LInv w p L) (hq : q ≤ p) :
    backtrackL q L = startsTo w q := by
  refine sorted_ext (h.sorted.sublist (List.dropWhile_suffix _).sublist) (startsTo_spec w q).1
    (fun x => ?_)
  rw [mem_backtrackL h.sorted, (startsTo_spec w q).2]
  constructor
  · rintro ⟨h1, h2⟩; exact ⟨h.sound x h1, h2⟩
  · rintro ⟨h1, h2⟩; exact ⟨h.complete x h1 (by omega), h2⟩

theorem starts_position (w : List UInt8) (off : Pos) : ∀ q, q ≤ w.length →
    ∃ l ls, startsTo w q = l :: ls ∧ l ≤ q ∧ off.after (w.take q) =
      ⟨ls.length + off.line, q - l + (if ls = [] then off.column else 1), q + off.offset⟩ := by
  intro q
  induction q with
  | zero => intro _; exact ⟨0, [], rfl, Nat.le_refl _, by simp [Pos.after]⟩
  | succ q ih =>
    intro hq
    obtain ⟨l, ls, h1, h2, h3⟩ := ih (by omega)
    rw [List.take_add_one, List.getElem?_eq_getElem (by omega), Pos.after_append, h3]
    simp only [startsTo, h1]
    have hw : w[q]? = some w[q] := List.getElem?_eq_getElem (by omega)
    by_cases hc : w[q] = 10
    · rw [if_pos (by rw [hw, hc])]
      refine ⟨_, _, rfl, Nat.le_refl _, ?_⟩
      simp [Pos.after, Pos.step, hc]
      omega
    · rw [if_neg (by rw [hw]; simpa using hc)]
      refine ⟨_, _, rfl, by omega, ?_⟩
      simp only [Option.toList_some, Pos.after, List.foldl_cons, List.foldl_nil, Pos.step, hc, if_false]
      congr 1 <;> omega

/-- With a right stack, `input_position` counts newlines. -/
theorem inputPosition_eq {w : List UInt8} {p q : Nat} {L : List Nat} (h : LInv w p L) (hq : q ≤ p)
    (hw : q ≤ w.length) (off : Pos) : inputPosition off L q = .ok (off.after (w.take q)) := by
  obtain ⟨l, ls, h1, -, h3⟩ := starts_position w off q hw
  unfold inputPosition
  rw [h.starts hq, h1, h3]

end Verif.Peg
