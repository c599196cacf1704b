import Verif.Cypher.Cost
import Verif.Peg.CostBound
import Verif.Props.Cypher
/-!
# C35: parsing takes exponential time, and no more than that
-/
namespace Verif
open Verif.Peg Verif.Cypher

variable {σ : Type}

/-- The number of rules applied in the first call of the grammar made by `parse_each`. -/
def FirstCost (S : Source σ) (src : σ) (cfg : Config) (only : Bool) (n : Nat) : Prop :=
  ∃ r, Cost grammar (chost S) (.nt (startRule only) none)
    ⟨0, [], ((PCtx.init cfg src).reader, (PCtx.init cfg src).st)⟩ r n

/-- There is one such number. -/
theorem firstCost_unique {S : Source σ} {src : σ} {cfg : Config} {only : Bool} {n m : Nat}
    (h : FirstCost S src cfg only n) (h' : FirstCost S src cfg only m) : n = m := by
  obtain ⟨r, h⟩ := h
  obtain ⟨r', h'⟩ := h'
  exact (h.unique _ _ h').2

theorem init_fresh (cfg : Config) (src : σ) : Fresh (PCtx.init cfg src).st := ⟨rfl, rfl, rfl⟩

/-- The first call always ends, so there is such a number. -/
theorem firstCost_exists {S : Source σ} {src : σ} {w : List UInt8} (h : Delivers S src w)
    (cfg : Config) (only : Bool) : ∃ n, FirstCost S src cfg only n := by
  obtain ⟨D, hf, hi⟩ := h
  obtain ⟨r, hs, -⟩ := match_total hf only hi (st := (PCtx.init cfg src).st) (by simp [PCtx.init])
  obtain ⟨n, hn⟩ := hs.cost
  exact ⟨n, _, hn⟩

theorem weight_le (r : Rule) : weight (grammar r).body + 1 ≤ 245 := by
  have h : ∀ r ∈ Rule.all, weight (grammar r).body + 1 ≤ 245 := by decide +kernel
  exact h r (Rule.mem_all r)

theorem rankT_le (r : Rule) : rankT r ≤ 9 := by
  have h : ∀ r ∈ Rule.all, rankT r ≤ 9 := by decide +kernel
  exact h r (Rule.mem_all r)

/-- C35 (weaker form). The number of rules applied is bounded by an exponential in the length of the input, whatever
the bytes are. -/
theorem cost_exponential_partial {S : Source σ} {src : σ} {w : List UInt8} (h : Delivers S src w) (cfg : Config)
    (only : Bool) {n : Nat} (hn : FirstCost S src cfg only n) : n ≤ 2 ^ (80 * (w.length + 1)) := by
  obtain ⟨D, hf, hi⟩ := h
  obtain ⟨r, hr⟩ := hn
  have h1 := Cost.bound (hf.readsAs w (cpred (σ := σ))) (chost_preds S) ruleOk_all rankT_le weight_le (by decide)
    (startRule only) none _ hi hr
  refine Nat.le_trans h1 ?_
  have h2 := rankT_le (startRule only)
  simp only [Nat.sub_zero]
  calc 245 ^ (w.length * (9 + 1) + rankT (startRule only) + 1) ≤ 245 ^ (10 * (w.length + 1)) :=
        Nat.pow_le_pow_right (by decide) (by omega)
    _ ≤ (2 ^ 8) ^ (10 * (w.length + 1)) := Nat.pow_le_pow_left (by decide) _
    _ = 2 ^ (80 * (w.length + 1)) := by rw [← Nat.pow_mul, ← Nat.mul_assoc]

theorem nested_length (k : Nat) : (nested k).length = 2 * k + 9 := by
  simp [nested]; omega

theorem nested_no_quote (k : Nat) : 96 ∉ nested k := by
  simp [nested, List.mem_replicate]

/-- C35 (negation). Parsing `RETURN ((..(1)..));` applies at least `2 ^ k` rules, where `k` is the number of opening
parentheses. -/
theorem nested_exponential {S : Source σ} {src : σ} {k : Nat} (h : Delivers S src (nested k)) (cfg : Config)
    (only : Bool) {n : Nat} (hn : FirstCost S src cfg only n) : 2 ^ k ≤ n := by
  obtain ⟨D, hf, hi⟩ := h
  obtain ⟨s, hs, -⟩ := match_ok hf only (nested_no_quote k) hi (init_fresh cfg src)
  obtain ⟨m, hm⟩ := hs.cost
  obtain rfl := firstCost_unique hn ⟨_, hm⟩
  have := SkC.of_cost (hf.readsAs (nested k) (cpred (σ := σ))) hm hi
  obtain ⟨ts, -, hk⟩ := this
  by_cases h0 : k = 0
  · subst h0
    cases hk
    simp
  · exact start_cost h0 hk

/-- Powers of two outgrow polynomials. -/
theorem outgrows (c d : Nat) : ∃ k, c * (2 * k + 9 + 1) ^ d < 2 ^ k := by
  -- `k = 2 ^ m` with `m = 3 j`
  obtain ⟨j, hj⟩ : ∃ j, c + d + 10 = j := ⟨_, rfl⟩
  have h1 : j < 2 ^ j := Nat.lt_two_pow_self
  have h2 : (3 * j + 5) * d + c < 2 ^ (3 * j) := by
    have e : 2 ^ (3 * j) = 2 ^ j * 2 ^ j * 2 ^ j := by rw [← Nat.pow_add, ← Nat.pow_add]; congr 1; omega
    rw [e]
    have a1 : j * j ≤ 2 ^ j * 2 ^ j := Nat.mul_le_mul (Nat.le_of_lt h1) (Nat.le_of_lt h1)
    have a2 : j * j * 10 ≤ 2 ^ j * 2 ^ j * 2 ^ j := Nat.mul_le_mul a1 (by omega)
    have a3 : (3 * j + 5) * d ≤ (3 * j + 5) * j := Nat.mul_le_mul_left _ (by omega)
    have a4 : (3 * j + 5) * j = 3 * (j * j) + 5 * j := by rw [Nat.add_mul, Nat.mul_assoc]
    have a5 : 10 * j ≤ j * j := Nat.mul_le_mul_right _ (by omega)
    omega
  refine ⟨2 ^ (3 * j), ?_⟩
  have b1 : 2 * 2 ^ (3 * j) + 9 + 1 ≤ 2 ^ (3 * j + 5) := by
    have : 2 ^ (3 * j + 5) = 2 ^ (3 * j) * 32 := by rw [Nat.pow_add]
    have := Nat.one_le_two_pow (n := 3 * j)
    omega
  have b2 : (2 * 2 ^ (3 * j) + 9 + 1) ^ d ≤ 2 ^ ((3 * j + 5) * d) := by
    rw [Nat.pow_mul 2 (3 * j + 5) d]; exact Nat.pow_le_pow_left b1 d
  calc c * (2 * 2 ^ (3 * j) + 9 + 1) ^ d ≤ 2 ^ c * 2 ^ ((3 * j + 5) * d) :=
        Nat.mul_le_mul (Nat.le_of_lt Nat.lt_two_pow_self) b2
    _ = 2 ^ ((3 * j + 5) * d + c) := by rw [← Nat.pow_add, Nat.add_comm]
    _ < 2 ^ 2 ^ (3 * j) := Nat.pow_lt_pow_right (by omega) h2

/-- C35 (negation). No polynomial in the length of the input bounds the number of rules applied. -/
theorem not_polynomial (cfg : Config) (only : Bool) : ¬ ∃ c d : Nat, ∀ (w : List UInt8) (n : Nat),
    FirstCost streamSource w cfg only n → n ≤ c * (w.length + 1) ^ d := by
  rintro ⟨c, d, h⟩
  obtain ⟨k, hk⟩ := outgrows c d
  obtain ⟨n, hn⟩ := firstCost_exists (stream_delivers (nested k)) cfg only
  have h1 := nested_exponential (stream_delivers (nested k)) cfg only hn
  have h2 := h _ _ hn
  rw [nested_length] at h2
  omega

/-- These inputs are proper statements. -/
example : nested 3 = ascii "RETURN (((1)));" := rfl
example : ∃ L, YieldsP streamSource (ascii "RETURN (((1)));") plainCfg false L ∧
    ∃ s ∈ L, s.errors = [] ∧ s.directive.isSome = true := by
  obtain ⟨L, h1, h2⟩ := yields_of_test (S := streamSource)
    (src := ascii "RETURN (((1)));") (cfg := plainCfg) (only := false) (fuel := 300)
    (fun L => L.any fun s => s.errors.isEmpty && s.directive.isSome) (by decide +kernel)
  simp only [List.any_eq_true, Bool.and_eq_true, List.isEmpty_iff] at h2
  exact ⟨L, h1, h2⟩

end Verif
