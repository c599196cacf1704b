import Verif.Data.Vector
/-!
# C01: vectors behave as lists
-/
namespace Verif

/-- Specification: the operations on a plain list, last element at the end. -/
def listStep {α : Type} (d : α) (l : List α) : VecOp α → VecObs α × List α
  | .push a => (.unit, l ++ [a])
  | .pop => (.val (l.getLastD d), l.dropLast)
  | .npop n => (.unit, l.take (l.length - n))
  | .get i => (.val (l.getD i d), l)
  | .last => (.val (l.getLastD d), l)
  | .size => (.num l.length, l)
  | .clear => (.unit, [])

/-- Specification: observations of a whole history, starting from a list. -/
def listRun {α : Type} (d : α) (l : List α) : List (VecOp α) → List (VecObs α)
  | [] => []
  | op :: ops => (listStep d l op).1 :: listRun d (listStep d l op).2 ops

/-- `v` represents `l`. -/
structure CVec.Rep {α : Type} (v : CVec α) (l : List α) : Prop where
  len : v.length = l.length
  le : v.length ≤ v.capacity
  cap : (v.mem.getD []).length = v.capacity
  cells : ∀ (i : Nat) (a : α), l[i]? = some a → (v.mem.getD [])[i]? = some (some a)

theorem CVec.Rep.load {α : Type} {v : CVec α} {l : List α} (h : v.Rep l) {i : Nat} {a : α}
    (hi : l[i]? = some a) : CVec.load v.mem i = .ok a := by
  have := h.cells i a hi
  unfold CVec.load
  cases hm : v.mem with
  | none => simp [hm] at this
  | some m => simp only [hm, Option.getD_some] at this; simp [this]

theorem CVec.realloc_length {α : Type} (mem : Option (List (Option α))) (n : Nat) :
    (CVec.realloc mem n).length = n := by
  simp [CVec.realloc]; omega

theorem CVec.push_rep {α : Type} {v : CVec α} {l : List α} (h : v.Rep l) (a : α) :
    ∃ v', v.push true a = .ok v' ∧ v'.Rep (l ++ [a]) := by
  obtain ⟨hlen, hle, hcap, hcells⟩ := h
  have hn : ¬ ¬ v.length ≤ v.capacity := by omega
  unfold CVec.push
  rw [if_neg hn]
  by_cases hg : v.length ≥ v.capacity
  · simp only [hg, if_true]
    generalize hnc : (if v.capacity = 0 then CVec.blockSize else v.capacity * 2) = nc
    have hnc' : v.length < nc := by
      subst hnc; simp only [CVec.blockSize]; split <;> omega
    have h2 : ¬ ¬ v.length < nc := by omega
    have hl : (CVec.realloc v.mem nc).length = nc := CVec.realloc_length _ _
    have h3 : v.length < (CVec.realloc v.mem nc).length := by omega
    simp only [h2, if_false, CVec.store, h3, if_true]
    refine ⟨_, rfl, ⟨by simp [hlen], by simp; omega, by simp [hl], ?_⟩⟩
    intro i b hi
    simp only [Option.getD_some]
    rw [List.getElem?_set]
    by_cases hil : i = l.length
    · subst hil
      simp at hi
      rw [if_pos hlen, if_pos h3, hi]
    · rw [if_neg (by omega)]
      have : l[i]? = some b := by
        rw [List.getElem?_append] at hi
        split at hi
        · exact hi
        · rw [List.getElem?_singleton] at hi
          split at hi <;> simp_all; omega
      have hc := hcells i b this
      have hilt : i < l.length := (List.getElem?_eq_some_iff.1 this).1
      simp only [CVec.realloc]
      rw [List.getElem?_take, if_pos (by omega), List.getElem?_append, if_pos (by omega), hc]
  · have h2 : ¬ ¬ v.length < v.capacity := by omega
    simp only [hg, if_false, h2]
    cases hm : v.mem with
    | none => simp [hm] at hcap; omega
    | some m =>
      simp only [hm, Option.getD_some] at hcap hcells
      have h3 : v.length < m.length := by omega
      simp only [CVec.store, h3, if_true]
      refine ⟨_, rfl, ⟨by simp [hlen], by simp; omega, by simp [hcap], ?_⟩⟩
      intro i b hi
      simp only [Option.getD_some]
      rw [List.getElem?_set]
      by_cases hil : i = l.length
      · subst hil
        simp at hi
        rw [if_pos hlen, if_pos h3, hi]
      · rw [if_neg (by omega)]
        refine hcells i b ?_
        rw [List.getElem?_append] at hi
        split at hi
        · exact hi
        · rw [List.getElem?_singleton] at hi
          split at hi <;> simp_all; omega

/-- Every single operation simulates the list operation. -/
theorem CVec.step_rep {α : Type} (d : α) {v : CVec α} {l : List α} (h : v.Rep l) (op : VecOp α) :
    ∃ v', v.step d op = .ok ((listStep d l op).1, v') ∧ v'.Rep (listStep d l op).2 := by
  cases op with
  | push a =>
    obtain ⟨v', h1, h2⟩ := CVec.push_rep h a
    exact ⟨v', by simp [CVec.step, h1, Except.map, listStep], h2⟩
  | pop =>
    simp only [CVec.step, CVec.pop, listStep]
    by_cases hz : v.length > 0
    · have hl : l ≠ [] := by intro e; simp [e] at h; have := h.len; simp at this; omega
      have hg : l[v.length - 1]? = some (l.getLast hl) := by
        rw [h.len, ← List.getLast?_eq_getElem?]; exact List.getLast?_eq_some_getLast hl
      simp only [hz, if_true, h.load hg, Except.map]
      refine ⟨_, by rw [List.getLastD_eq_getLast?, List.getLast?_eq_some_getLast hl]; rfl, ?_⟩
      refine ⟨by simp [h.len], by simp; have := h.le; omega, h.cap, ?_⟩
      intro i a hi
      refine h.cells i a ?_
      rw [List.getElem?_dropLast] at hi
      split at hi <;> simp_all
    · have hl : l = [] := by
        have := h.len; exact List.eq_nil_of_length_eq_zero (by omega)
      subst hl
      refine ⟨v, by simp [hz, Except.map], by simpa using h⟩
  | npop n =>
    refine ⟨_, rfl, ?_⟩
    have := h.len; have := h.le
    refine ⟨?_, ?_, h.cap, ?_⟩
    · simp only [CVec.npop, listStep, List.length_take]; split <;> omega
    · simp only [CVec.npop]; split <;> omega
    · intro i a hi
      simp only [listStep, List.getElem?_take] at hi
      split at hi
      · exact h.cells i a hi
      · simp at hi
  | get i =>
    simp only [CVec.step, CVec.get, listStep]
    by_cases hi : i < v.length
    · have hi' : i < l.length := by have := h.len; omega
      have : l[i]? = some l[i] := List.getElem?_eq_getElem hi'
      simp only [hi, if_true, h.load this, Except.map]
      exact ⟨v, by simp [List.getD, this], h⟩
    · have hi' : ¬ i < l.length := by have := h.len; omega
      have : l[i]? = none := List.getElem?_eq_none (by omega)
      simp only [hi, if_false, Except.map]
      exact ⟨v, by simp [List.getD, this], h⟩
  | last =>
    simp only [CVec.step, CVec.last, listStep]
    by_cases hz : v.length > 0
    · have hl : l ≠ [] := by intro e; have := h.len; simp [e] at this; omega
      have hg : l[v.length - 1]? = some (l.getLast hl) := by
        rw [h.len, ← List.getLast?_eq_getElem?]; exact List.getLast?_eq_some_getLast hl
      simp only [hz, if_true, h.load hg, Except.map]
      exact ⟨v, by rw [List.getLastD_eq_getLast?, List.getLast?_eq_some_getLast hl]; rfl, h⟩
    · have hl : l = [] := by
        have := h.len; exact List.eq_nil_of_length_eq_zero (by omega)
      subst hl
      exact ⟨v, by simp [hz, Except.map], h⟩
  | size => exact ⟨v, by simp [CVec.step, CVec.size, listStep, h.len], h⟩
  | clear =>
    refine ⟨_, rfl, ⟨by simp [CVec.clear, listStep], by simp [CVec.clear], h.cap, ?_⟩⟩
    intro i a hi; simp [listStep] at hi

theorem CVec.run_rep {α : Type} (d : α) (ops : List (VecOp α)) :
    ∀ {v : CVec α} {l : List α}, v.Rep l → v.run d ops = .ok (listRun d l ops) := by
  induction ops with
  | nil => intros; rfl
  | cons op ops ih =>
    intro v l h
    obtain ⟨v', h1, h2⟩ := CVec.step_rep d h op
    simp [CVec.run, h1, ih h2, Except.map, listRun]

/-- **C01.** Every history of vector operations, starting from an initialised vector, runs without
memory fault or assertion failure and lets the caller observe exactly what the same history on a
plain list shows. -/
theorem vector_refines_list {α : Type} (d : α) (ops : List (VecOp α)) :
    CVec.run d CVec.init ops = .ok (listRun d [] ops) :=
  CVec.run_rep d ops ⟨rfl, by simp [CVec.init], rfl, by simp⟩

/-- Non-trivial instance: nine pushes cross the first growth boundary. -/
example : CVec.run 0 CVec.init
    ((List.range 9).map VecOp.push ++ [.size, .last, .get 8, .get 9, .pop, .npop 3, .size]) =
    .ok (List.replicate 9 .unit ++
      [.num 9, .val 8, .val 8, .val 0, .val 8, .unit, .num 5]) := by
  simp [vector_refines_list]; decide

/-- **C01 (allocation failure, negation).** When `realloc` fails, a push that needs to grow does not
report failure: it writes through a NULL pointer (vector.c:71 tests the wrong variable). -/
theorem vector_push_oom_faults {α : Type} (v : CVec α) (a : α)
    (hfull : v.length = v.capacity) : v.push false a = .error .outOfBounds := by
  unfold CVec.push
  have h1 : ¬ ¬ v.length ≤ v.capacity := by omega
  have h2 : v.length ≥ v.capacity := by omega
  rw [if_neg h1]
  simp only [h2, if_true]
  have : ¬ ¬ v.length < (if v.capacity = 0 then CVec.blockSize else v.capacity * 2) := by
    simp only [CVec.blockSize]; split <;> omega
  simp [this, CVec.store]

example : (CVec.init : CVec Nat).push false 7 = .error .outOfBounds :=
  vector_push_oom_faults _ _ rfl

end Verif
