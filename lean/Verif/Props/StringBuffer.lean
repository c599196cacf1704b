import Verif.Data.StringBuffer
import Verif.Props.Vector
/-!
# C02: string buffers hold the concatenation of what was appended since the last reset
-/
namespace Verif

/-- Specification: the text appended since the last reset. -/
def textSinceReset : List SBOp → List UInt8 → List UInt8
  | [], acc => acc
  | .append s :: ops, acc => textSinceReset ops (acc ++ s)
  | .reset :: ops, _ => textSinceReset ops []

structure SBuf.Rep (sb : SBuf) (t : List UInt8) : Prop where
  len : sb.length = t.length
  le : sb.length ≤ sb.capacity
  cap : (sb.mem.getD []).length = sb.capacity
  cells : (sb.mem.getD []).take sb.length = t.map some

theorem SBuf.append_rep {sb : SBuf} {t : List UInt8} (h : sb.Rep t) (s : List UInt8) :
    ∃ sb', sb.append true s = .ok (some sb') ∧ sb'.Rep (t ++ s) ∧ sb'.length < sb'.capacity := by
  obtain ⟨hlen, hle, hcap, hcells⟩ := h
  unfold SBuf.append
  rw [if_neg (by omega)]
  simp only [not_true, and_false, if_false]
  -- the buffer after growing
  generalize hsb : (if sb.length + s.length ≥ sb.capacity then
      ({ sb with mem := some (CVec.realloc sb.mem (((sb.length + s.length + 3 * 8 / 2) / 8) * 8)),
                 capacity := ((sb.length + s.length + 3 * 8 / 2) / 8) * 8 } : SBuf)
      else sb) = sb'
  have hl : sb'.length = sb.length := by subst hsb; split <;> rfl
  have hlt : sb.length + s.length < sb'.capacity := by
    subst hsb; split
    · simp only []; omega
    · omega
  have hc : (sb'.mem.getD []).length = sb'.capacity := by
    subst hsb; split
    · simp [CVec.realloc_length]
    · exact hcap
  have hcl : (sb'.mem.getD []).take sb.length = t.map some := by
    subst hsb; split
    · simp only [Option.getD_some, CVec.realloc]
      rw [List.take_take, Nat.min_eq_left (by omega), List.take_append_of_le_length (by omega)]
      exact hcells
    · exact hcells
  simp only [hl]
  rw [if_neg (by omega)]
  have hfit : sb.length + s.length ≤ (sb'.mem.getD []).length := by omega
  simp only [SBuf.memcpyTo, hfit, if_true]
  refine ⟨_, rfl, ⟨by simp [hlen], by simp; omega, by simp; omega, ?_⟩, by simpa using hlt⟩
  simp only [Option.getD_some]
  rw [hcl, List.take_append_of_le_length (by simp [hlen]), List.take_of_length_le (by simp [hlen])]
  simp

theorem SBuf.read_rep {sb : SBuf} {t : List UInt8} (h : sb.Rep t) : sb.read = .ok t := by
  unfold SBuf.read
  rw [if_pos (by have := h.cap; have := h.le; omega), h.cells]
  have : (t.map some).mapM id = some t := by
    clear h
    induction t with
    | nil => rfl
    | cons a t ih => simp [List.mapM_cons, ih]
  rw [this]

theorem SBuf.run_rep (ops : List SBOp) : ∀ {sb : SBuf} {t : List UInt8}, sb.Rep t →
    ∃ sb', sb.run ops = .ok sb' ∧ sb'.Rep (textSinceReset ops t) := by
  induction ops with
  | nil => intro sb t h; exact ⟨sb, rfl, h⟩
  | cons op ops ih =>
    intro sb t h
    cases op with
    | append s =>
      obtain ⟨sb', h1, h2, _⟩ := SBuf.append_rep h s
      simp only [SBuf.run, h1]
      exact ih h2
    | reset =>
      exact ih (t := []) ⟨rfl, by simp [SBuf.reset], h.cap, by simp [SBuf.reset]⟩

/-- **C02.** After any history of appends and resets on a fresh buffer, no memory fault or assertion
failure has happened and reading the buffer yields exactly the text appended since the last
reset. -/
theorem string_buffer_concat (ops : List SBOp) :
    ∃ sb, SBuf.init.run ops = .ok sb ∧ sb.read = .ok (textSinceReset ops []) := by
  obtain ⟨sb, h1, h2⟩ := SBuf.run_rep ops (sb := SBuf.init) (t := [])
    ⟨rfl, by simp [SBuf.init], rfl, by simp [SBuf.init]⟩
  exact ⟨sb, h1, SBuf.read_rep h2⟩

/-- **C02 (room for a terminator).** The buffer always keeps at least one spare cell after a
non-failing append, so appending a NUL is always possible. -/
theorem string_buffer_spare {sb : SBuf} {t s : List UInt8} (h : sb.Rep t) :
    ∀ sb', sb.append true s = .ok (some sb') → sb'.length < sb'.capacity := by
  intro sb' h'
  obtain ⟨sb'', h1, _, h2⟩ := SBuf.append_rep h s
  rw [h1] at h'
  simp only [Except.ok.injEq, Option.some.injEq] at h'
  exact h' ▸ h2

/-- **C02 (allocation failure).** If the allocation fails the append reports it and the buffer is
left as it was (the caller still holds `sb`). -/
theorem string_buffer_oom {sb : SBuf} {t s : List UInt8} (h : sb.Rep t) :
    (∃ sb', sb.append false s = .ok (some sb') ∧ sb'.Rep (t ++ s)) ∨ sb.append false s = .ok none := by
  by_cases hg : sb.length + s.length ≥ sb.capacity
  · right; unfold SBuf.append; rw [if_neg (by have := h.le; omega)]; simp [hg]
  · left
    obtain ⟨sb', h1, h2, _⟩ := SBuf.append_rep h s
    refine ⟨sb', ?_, h2⟩
    rw [← h1]; unfold SBuf.append
    simp [hg]

example : ∃ sb, SBuf.init.run [.append [1,2,3,4,5,6,7], .reset, .append [8,9], .append [10]] = .ok sb
    ∧ sb.read = .ok [8, 9, 10] := string_buffer_concat _

example : (SBuf.init).Rep [] := ⟨rfl, by simp [SBuf.init], rfl, by simp [SBuf.init]⟩

end Verif
