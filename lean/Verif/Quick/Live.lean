import Verif.Quick.Den
/-!
# Where a quick statement ends

`live` is the specification: a left to right scan for the first `;` outside quotes, comments and
escapes.  The lemmas show that the rules of the grammar follow it.
-/
namespace Verif.Quick
open Verif.Peg

/-- What the scan is inside of. -/
inductive Mode where
  | normal
  | quote (q : UInt8)
  | line
  | block
  deriving DecidableEq, Repr

/-- The characters that may follow a backslash in an escape: `a b f n r t v " ' ? \`. -/
def isEsc (c : UInt8) : Bool := [97, 98, 102, 110, 114, 116, 118, 34, 39, 63, 92].contains c

/-- Distance to the first `;` outside quotes, comments and escapes (or to the end). The number says
how many bytes of a two-byte token are still to be passed over. -/
def live : Mode → Nat → List UInt8 → Nat
  | _, _, [] => 0
  | m, k + 1, _ :: l => 1 + live m k l
  | .normal, 0, c :: l =>
    if c = 59 then 0
    else if c = 47 ∧ l.head? = some 47 then 1 + live .line 1 l
    else if c = 47 ∧ l.head? = some 42 then 1 + live .block 1 l
    else if c = 92 ∧ l.head?.any isEsc = true then 1 + live .normal 1 l
    else if c = 39 ∨ c = 34 then 1 + live (.quote c) 0 l
    else 1 + live .normal 0 l
  | .line, 0, c :: l => if c = 10 then 1 + live .normal 0 l else 1 + live .line 0 l
  | .block, 0, c :: l =>
    if c = 42 ∧ l.head? = some 47 then 1 + live .normal 1 l else 1 + live .block 0 l
  | .quote q, 0, c :: l =>
    if c = q then 1 + live .normal 0 l
    else if c = 92 ∧ l.head?.any isEsc = true then 1 + live (.quote q) 1 l
    else 1 + live (.quote q) 0 l

/-- Passing over `n` bytes of `l` takes the scan from one mode to another without meeting a live
`;`. -/
def Step (m m' : Mode) (l : List UInt8) (n : Nat) : Prop :=
  live m 0 l = n + live m' 0 (l.drop n) ∧ n ≤ l.length

theorem Step.zero (m : Mode) (l : List UInt8) : Step m m l 0 := ⟨by simp, Nat.zero_le _⟩

theorem Step.trans {m m' m'' : Mode} {l : List UInt8} {n k : Nat} (h1 : Step m m' l n)
    (h2 : Step m' m'' (l.drop n) k) : Step m m'' l (n + k) := by
  obtain ⟨a, b⟩ := h1
  obtain ⟨c, d⟩ := h2
  rw [List.length_drop] at d
  exact ⟨by rw [a, c, List.drop_drop]; omega, by omega⟩

theorem Step.star {m : Mode} {f : List UInt8 → Option Nat}
    (h : ∀ l n, l ≠ [] → f l = some n → Step m m l n) (l : List UInt8) : Step m m l (starD f l) :=
  starD_ind (Q := Step m m) (fun l => .zero m l) (fun l n _ hl hf _ ih => (h l n hl hf).trans ih) l

theorem single_mem (c d : UInt8) : (CharSet.single c).mem d = decide (d = c) := by
  unfold CharSet.single CharSet.mem
  rw [Nat.testBit_two_pow]
  by_cases h : d = c
  · subst h; simp
  · have : ¬ c.toNat = d.toNat := fun h' => h (UInt8.toNat_inj.1 h'.symm)
    simp [h, this]

theorem esc_mem (c : UInt8) : (CharSet.mk 0x544046100000008000008400000000).mem c = isEsc c := by
  have h : ∀ n : Fin 256, (CharSet.mk 0x544046100000008000008400000000).mem (UInt8.ofNat n.val) =
      isEsc (UInt8.ofNat n.val) := by decide +kernel
  have := h ⟨c.toNat, c.toNat_lt⟩
  simpa using this

theorem hws_mem (c : UInt8) : (CharSet.mk 0x100000200).mem c = decide (c = 32 ∨ c = 9) := by
  have h : ∀ n : Fin 256, (CharSet.mk 0x100000200).mem (UInt8.ofNat n.val) =
      decide (UInt8.ofNat n.val = 32 ∨ UInt8.ofNat n.val = 9) := by decide +kernel
  have := h ⟨c.toNat, c.toNat_lt⟩
  simpa using this

/-! ## The small rules -/

theorem eof_eq (l : List UInt8) : env .r_EOF l = if l = [] then some 0 else none := by
  rw [env_eq]
  cases l with
  | nil => rfl
  | cons c l => simp [grammar, r_EOF, den, Expr.dot, any_mem]

theorem d_EOL_10 (l : List UInt8) : env .r_EOL (10 :: l) = some 1 := by
  simp [env_eq .r_EOL, env_eq .r__line_start_, grammar, r_EOL, r__line_start_, den, Expr.chr,
    single_mem]

theorem d_EOL_13 (l : List UInt8) : env .r_EOL (13 :: 10 :: l) = some 2 := by
  simp [env_eq .r_EOL, env_eq .r__line_start_, grammar, r_EOL, r__line_start_, den, Expr.chr,
    single_mem]

theorem d_EOL_some {l : List UInt8} {n : Nat} (h : env .r_EOL l = some n) :
    (∃ t, l = 10 :: t ∧ n = 1) ∨ (∃ t, l = 13 :: 10 :: t ∧ n = 2) := by
  rw [env_eq] at h
  cases l with
  | nil => simp [grammar, r_EOL, den, Expr.chr] at h
  | cons c l =>
    by_cases hc : c = 10
    · subst hc
      rw [← env_eq, d_EOL_10] at h
      exact Or.inl ⟨l, rfl, by simpa using h.symm⟩
    · cases l with
      | nil => simp [grammar, r_EOL, den, Expr.chr, single_mem, hc] at h
      | cons d l =>
        by_cases hd : c = 13 ∧ d = 10
        · obtain ⟨rfl, rfl⟩ := hd
          rw [← env_eq, d_EOL_13] at h
          exact Or.inr ⟨l, rfl, by simpa using h.symm⟩
        · have h2 : ¬ (13 = c ∧ 10 = d) := fun h => hd ⟨h.1.symm, h.2.symm⟩
          simp [grammar, r_EOL, den, Expr.chr, single_mem, hc, h2] at h

theorem d_EOL_none {c : UInt8} {l : List UInt8} (h : env .r_EOL (c :: l) = none) : c ≠ 10 := by
  rintro rfl
  rw [d_EOL_10] at h; simp at h

theorem d_esc (l : List UInt8) : env .r_escaped_char l = match l with
    | c :: d :: _ => if c = 92 ∧ isEsc d = true then some 2 else none
    | _ => none := by
  rw [env_eq]
  match l with
  | [] => rfl
  | [c] =>
    simp only [grammar, r_escaped_char, den, Expr.chr, single_mem]
    by_cases hc : c = 92 <;> simp [hc]
  | c :: d :: l =>
    simp only [grammar, r_escaped_char, den, Expr.chr, single_mem, esc_mem]
    by_cases hc : c = 92
    · cases hd : isEsc d <;> simp [hc, hd]
    · simp [hc]

theorem any_one (l : List UInt8) (env : Rule → List UInt8 → Option Nat) :
    den (P := Pred) (A := Act) env .dot l = if l = [] then none else some 1 := by
  cases l <;> simp [Expr.dot, den, any_mem]

/-! ## Comments -/

theorem step_EOL_block {l : List UInt8} {n : Nat} (h : env .r_EOL l = some n) :
    Step .block .block l n := by
  rcases d_EOL_some h with ⟨t, rfl, rfl⟩ | ⟨t, rfl, rfl⟩
  · exact ⟨by simp [live], by simp⟩
  · exact ⟨by simp [live]; omega, by simp⟩

theorem step_EOL_quote {q : UInt8} (hq : q = 39 ∨ q = 34) {l : List UInt8} {n : Nat}
    (h : env .r_EOL l = some n) : Step (.quote q) (.quote q) l n := by
  rcases d_EOL_some h with ⟨t, rfl, rfl⟩ | ⟨t, rfl, rfl⟩
  · refine ⟨?_, by simp⟩
    rcases hq with rfl | rfl <;> simp [live]
  · refine ⟨?_, by simp⟩
    rcases hq with rfl | rfl <;> simp [live] <;> omega

theorem step_EOL_normal {l : List UInt8} {n : Nat} (h : env .r_EOL l = some n) :
    Step .normal .normal l n := by
  rcases d_EOL_some h with ⟨t, rfl, rfl⟩ | ⟨t, rfl, rfl⟩
  · exact ⟨by simp [live], by simp⟩
  · exact ⟨by simp [live]; omega, by simp⟩

theorem den_chr_some {env : Rule → List UInt8 → Option Nat} {c : UInt8} {l : List UInt8} {n : Nat} :
    den env (.chr c : E) l = some n ↔ ∃ t, l = c :: t ∧ n = 1 := by
  cases l with
  | nil => simp [Expr.chr, den]
  | cons d t =>
    simp only [Expr.chr, den, single_mem, decide_eq_true_eq, List.cons.injEq]
    by_cases h : d = c
    · simp [h, eq_comm (a := (1 : Nat))]
    · simp [h]

theorem den_chr_none {env : Rule → List UInt8 → Option Nat} {c : UInt8} {l : List UInt8} :
    den env (.chr c : E) l = none ↔ ¬ ∃ t, l = c :: t := by
  cases l with
  | nil => simp [Expr.chr, den]
  | cons d t =>
    simp only [Expr.chr, den, single_mem, decide_eq_true_eq, List.cons.injEq]
    by_cases h : d = c <;> simp [h]

theorem den_str2_some {env : Rule → List UInt8 → Option Nat} {c d : UInt8} {l : List UInt8}
    {n : Nat} : den env (.str [c, d] : E) l = some n ↔ ∃ t, l = c :: d :: t ∧ n = 2 := by
  match l with
  | [] => simp [den]
  | [x] => simp [den]
  | x :: y :: t =>
    simp only [den]
    by_cases h : x = c
    · by_cases h2 : y = d
      · simp [h, h2, eq_comm (a := (2 : Nat))]
      · have : ¬ d = y := fun e => h2 e.symm
        simp [h, h2, this]
    · have : ¬ c = x := fun e => h e.symm
      simp [h, this]

theorem den_str2_none {env : Rule → List UInt8 → Option Nat} {c d : UInt8} {l : List UInt8} :
    den env (.str [c, d] : E) l = none ↔ ¬ ∃ t, l = c :: d :: t := by
  cases h : den env (.str [c, d] : E) l with
  | none =>
    simp only [true_iff]
    rintro ⟨t, ht⟩
    have := (den_str2_some (env := env) (n := 2)).2 ⟨t, ht, rfl⟩
    rw [h] at this; simp at this
  | some n =>
    obtain ⟨t, ht, -⟩ := den_str2_some.1 h
    simp [ht]

theorem den_dot_some {env : Rule → List UInt8 → Option Nat} {l : List UInt8} {n : Nat} :
    den env (.dot : E) l = some n ↔ ∃ c t, l = c :: t ∧ n = 1 := by
  rw [any_one]
  cases l <;> simp [eq_comm]

theorem den_dot_none {env : Rule → List UInt8 → Option Nat} {l : List UInt8} :
    den env (.dot : E) l = none ↔ l = [] := by
  rw [any_one]
  cases l <;> simp

theorem d_EOF_some {l : List UInt8} {n : Nat} : env .r_EOF l = some n ↔ l = [] ∧ n = 0 := by
  rw [eof_eq]
  split <;> simp [*, eq_comm]

theorem d_EOF_none {l : List UInt8} : env .r_EOF l = none ↔ l ≠ [] := by
  rw [eof_eq]
  split <;> simp [*]

/-- In the line comment's loop. -/
theorem lc_step (t : List UInt8) : Step .line .line t (starD (den (P := Pred) (A := Act) env
    (.seq (.npeek (.nt .r_EOL none)) .dot)) t) := by
  refine Step.star (fun l n hl h => ?_) t
  obtain ⟨i, j, h1, h2, rfl⟩ := den_seq_some.1 h
  obtain ⟨h3, rfl⟩ := den_npeek_some.1 h1
  obtain ⟨c, t, h4, rfl⟩ := den_dot_some.1 h2
  rw [List.drop_zero] at h4
  subst h4
  have := d_EOL_none h3
  exact ⟨by simp [live, this], by simp⟩

/-- A line comment always matches after `//`, up to and including the end of the line. -/
theorem lc_none {l : List UInt8} (h : env .r_line_comment l = none) : ¬ ∃ t, l = 47 :: 47 :: t := by
  rw [env_eq] at h
  rcases den_seq_none.1 h with h1 | ⟨i, h1, h2⟩
  · exact den_str2_none.1 h1
  · exfalso
    rcases den_seq_none.1 h2 with h3 | ⟨j, h3, h4⟩
    · simp [den] at h3
    · rw [den_star] at h3
      subst h3
      obtain ⟨h5, h6⟩ := den_alt_none.1 h4
      rw [den_nt] at h5 h6
      have hne := d_EOF_none.1 h6
      rcases starD_exit (den (P := Pred) (A := Act) env (.seq (.npeek (.nt .r_EOL none)) .dot))
        (l.drop i) with h7 | h7 | h7
      · rcases den_seq_none.1 h7 with h8 | ⟨k, h8, h9⟩
        · obtain ⟨n, h9⟩ := den_npeek_none.1 h8
          rw [den_nt, h5] at h9; simp at h9
        · obtain ⟨h10, rfl⟩ := den_npeek_some.1 h8
          exact hne (den_dot_none.1 h9)
      · obtain ⟨x, y, h8, h9, h10⟩ := den_seq_some.1 h7
        obtain ⟨c, t, -, rfl⟩ := den_dot_some.1 h9
        omega
      · exact hne h7

theorem lc_some {l : List UInt8} {n : Nat} (h : env .r_line_comment l = some n) :
    2 ≤ n ∧ Step .normal .normal l n := by
  rw [env_eq] at h
  obtain ⟨i, j, h1, h2, rfl⟩ := den_seq_some.1 h
  obtain ⟨t, rfl, rfl⟩ := den_str2_some.1 h1
  obtain ⟨x, y, h3, h4, rfl⟩ := den_seq_some.1 h2
  rw [den_star] at h3
  subst h3
  simp only [List.drop_succ_cons, List.drop_zero] at h4 ⊢
  refine ⟨by omega, Step.trans (m' := .line) ⟨by simp [live]; omega, by simp⟩ (Step.trans (lc_step t) ?_)⟩
  simp only [List.drop_succ_cons, List.drop_zero] at h4 ⊢
  rcases den_alt_some.1 h4 with h5 | ⟨-, h5⟩
  · rw [den_nt] at h5
    rcases d_EOL_some h5 with ⟨u, h6, rfl⟩ | ⟨u, h6, rfl⟩
    · rw [h6]; exact ⟨by simp [live], by simp⟩
    · rw [h6]; exact ⟨by simp [live]; omega, by simp⟩
  · rw [den_nt] at h5
    obtain ⟨h6, rfl⟩ := d_EOF_some.1 h5
    rw [h6]; exact ⟨by simp [live], by simp⟩

/-- The loop of both kinds of block comment. -/
abbrev bcLoop : E := .alt (.nt .r_EOL none) (.seq (.npeek (.str [42, 47])) .dot)

theorem bc_step (t : List UInt8) : Step .block .block t (starD (den env bcLoop) t) := by
  refine Step.star (fun l n hl h => ?_) t
  rcases den_alt_some.1 h with h1 | ⟨-, h1⟩
  · exact step_EOL_block h1
  · obtain ⟨i, j, h6, h2, rfl⟩ := den_seq_some.1 h1
    obtain ⟨h3, rfl⟩ := den_npeek_some.1 h6
    obtain ⟨c, t, h4, rfl⟩ := den_dot_some.1 h2
    rw [List.drop_zero] at h4
    subst h4
    have h5 := den_str2_none.1 h3
    refine ⟨?_, by simp⟩
    cases t with
    | nil => simp [live]
    | cons d t =>
      have : ¬ (c = 42 ∧ d = 47) := by rintro ⟨rfl, rfl⟩; exact h5 ⟨t, rfl⟩
      simp [live, this]

theorem bc_exit (t : List UInt8) : t.drop (starD (den env bcLoop) t) = [] ∨
    ∃ u, t.drop (starD (den env bcLoop) t) = 42 :: 47 :: u := by
  rcases starD_exit (den env bcLoop) t with h7 | h7 | h7
  · obtain ⟨h8, h9⟩ := den_alt_none.1 h7
    rcases den_seq_none.1 h9 with h9 | ⟨k, h9, h10⟩
    · obtain ⟨n, h9⟩ := den_npeek_none.1 h9
      obtain ⟨u, h10, -⟩ := den_str2_some.1 h9
      exact Or.inr ⟨u, h10⟩
    · obtain ⟨-, rfl⟩ := den_npeek_some.1 h9
      exact Or.inl (den_dot_none.1 h10)
  · exfalso
    rcases den_alt_some.1 h7 with h8 | ⟨-, h8⟩
    · rcases d_EOL_some h8 with ⟨u, -, h⟩ | ⟨u, -, h⟩ <;> simp at h
    · obtain ⟨x, y, h8, h9, h10⟩ := den_seq_some.1 h8
      obtain ⟨c, t, -, rfl⟩ := den_dot_some.1 h9
      omega
  · exact Or.inl h7

theorem bc_some {l : List UInt8} {n : Nat} (h : env .r_block_comment l = some n) :
    2 ≤ n ∧ Step .normal .normal l n := by
  rw [env_eq] at h
  obtain ⟨i, j, h1, h2, rfl⟩ := den_seq_some.1 h
  obtain ⟨t, rfl, rfl⟩ := den_str2_some.1 h1
  obtain ⟨x, y, h3, h4, rfl⟩ := den_seq_some.1 h2
  rw [den_star] at h3
  subst h3
  simp only [List.drop_succ_cons, List.drop_zero] at h4 ⊢
  refine ⟨by omega, Step.trans (m' := .block) ⟨by simp [live]; omega, by simp⟩ (Step.trans (bc_step t) ?_)⟩
  obtain ⟨u, h5, rfl⟩ := den_str2_some.1 h4
  simp only [List.drop_succ_cons, List.drop_zero]
  rw [h5]; exact ⟨by simp [live]; omega, by simp⟩

theorem ubc_some {l : List UInt8} {n : Nat} (h : env .r_unclosed_block_comment l = some n) :
    2 ≤ n ∧ Step .normal .normal l n := by
  rw [env_eq] at h
  obtain ⟨i, j, h1, h2, rfl⟩ := den_seq_some.1 h
  obtain ⟨t, rfl, rfl⟩ := den_str2_some.1 h1
  obtain ⟨x, y, h3, h4, rfl⟩ := den_seq_some.1 h2
  rw [den_star] at h3
  subst h3
  simp only [List.drop_succ_cons, List.drop_zero] at h4 ⊢
  refine ⟨by omega, Step.trans (m' := .block) ⟨by simp [live]; omega, by simp⟩ (Step.trans (bc_step t) ?_)⟩
  rw [den_nt] at h4
  obtain ⟨h5, rfl⟩ := d_EOF_some.1 h4
  simp only [List.drop_succ_cons, List.drop_zero]
  rw [h5]; exact ⟨by simp [live], by simp⟩

theorem bc_none {l : List UInt8} (h1 : env .r_block_comment l = none)
    (h2 : env .r_unclosed_block_comment l = none) : ¬ ∃ t, l = 47 :: 42 :: t := by
  rw [env_eq] at h1 h2
  rintro ⟨t, rfl⟩
  have h0 : den env (.str [47, 42] : E) (47 :: 42 :: t) = some 2 :=
    den_str2_some.2 ⟨t, rfl, rfl⟩
  rcases den_seq_none.1 h1 with h3 | ⟨i, h3, h4⟩
  · rw [h0] at h3; simp at h3
  · rw [h0, Option.some.injEq] at h3
    subst h3
    rcases den_seq_none.1 h2 with h5 | ⟨i, h5, h6⟩
    · rw [h0] at h5; simp at h5
    · rw [h0, Option.some.injEq] at h5
      subst h5
      simp only [List.drop_succ_cons, List.drop_zero] at h4 h6
      rcases den_seq_none.1 h4 with h7 | ⟨i, h7, h8⟩
      · simp [den] at h7
      · rcases den_seq_none.1 h6 with h9 | ⟨j, h9, h10⟩
        · simp [den] at h9
        · rw [den_star] at h7 h9
          subst h7; subst h9
          rcases bc_exit t with h11 | ⟨u, h11⟩
          · rw [den_nt] at h10
            exact d_EOF_none.1 h10 h11
          · exact den_str2_none.1 h8 ⟨u, h11⟩

theorem comment_some {l : List UInt8} {n : Nat} (h : env .r_comment l = some n) :
    2 ≤ n ∧ Step .normal .normal l n := by
  rw [env_eq] at h
  rcases den_alt_some.1 h with h | ⟨-, h⟩
  · exact lc_some h
  · exact bc_some h

/-! ## Quoted text -/

theorem esc_some {l : List UInt8} {n : Nat} (h : env .r_escaped_char l = some n) :
    ∃ d t, l = 92 :: d :: t ∧ isEsc d = true ∧ n = 2 := by
  rw [d_esc] at h
  match l with
  | [] => simp at h
  | [c] => simp at h
  | c :: d :: t =>
    simp only at h
    split at h
    · rename_i hc
      obtain ⟨rfl, hd⟩ := hc
      exact ⟨d, t, rfl, hd, by simpa using h.symm⟩
    · simp at h

theorem esc_none {l : List UInt8} (h : env .r_escaped_char l = none) :
    ∀ c t, l = c :: t → ¬ (c = 92 ∧ t.head?.any isEsc = true) := by
  rw [d_esc] at h
  rintro c t rfl ⟨rfl, h2⟩
  cases t with
  | nil => simp at h2
  | cons d t =>
    simp only [List.head?_cons, Option.any_some] at h2
    simp [h2] at h

theorem esc_step {m : Mode} (hm : m = .normal ∨ m = .quote 39 ∨ m = .quote 34) {l : List UInt8}
    {n : Nat} (h : env .r_escaped_char l = some n) : Step m m l n := by
  obtain ⟨d, t, rfl, hd, rfl⟩ := esc_some h
  refine ⟨?_, by simp⟩
  rcases hm with rfl | rfl | rfl <;> simp [live, hd] <;> omega

/-- The loop of quoted text. -/
abbrev qLoop (q : UInt8) : E :=
  .alt (.nt .r_escaped_char none) (.alt (.nt .r_EOL none) (.seq (.npeek (.chr q)) .dot))

/-- A quoted piece. -/
abbrev qBody (q : UInt8) : E := .seq (.chr q) (.seq (.star (qLoop q)) (.alt (.chr q) (.nt .r_EOF none)))

theorem q_step {q : UInt8} (hq : q = 39 ∨ q = 34) (t : List UInt8) :
    Step (.quote q) (.quote q) t (starD (den env (qLoop q)) t) := by
  refine Step.star (fun l n hl h => ?_) t
  rcases den_alt_some.1 h with h1 | ⟨h0, h1⟩
  · refine esc_step ?_ h1
    rcases hq with rfl | rfl <;> simp
  · rcases den_alt_some.1 h1 with h2 | ⟨-, h2⟩
    · exact step_EOL_quote hq h2
    · obtain ⟨i, j, h3, h4, rfl⟩ := den_seq_some.1 h2
      obtain ⟨h5, rfl⟩ := den_npeek_some.1 h3
      obtain ⟨c, t, h6, rfl⟩ := den_dot_some.1 h4
      rw [List.drop_zero] at h6
      subst h6
      have h7 := den_chr_none.1 h5
      have h8 := esc_none h0 c t rfl
      have h9 : c ≠ q := by rintro rfl; exact h7 ⟨t, rfl⟩
      refine ⟨?_, by simp⟩
      simp only [live, h9, h8, if_false, Nat.zero_add, List.drop_succ_cons, List.drop_zero]

theorem q_exit {q : UInt8} (t : List UInt8) : t.drop (starD (den env (qLoop q)) t) = [] ∨
    ∃ u, t.drop (starD (den env (qLoop q)) t) = q :: u := by
  rcases starD_exit (den env (qLoop q)) t with h7 | h7 | h7
  · obtain ⟨-, h8⟩ := den_alt_none.1 h7
    obtain ⟨-, h9⟩ := den_alt_none.1 h8
    rcases den_seq_none.1 h9 with h9 | ⟨k, h9, h10⟩
    · obtain ⟨n, h9⟩ := den_npeek_none.1 h9
      obtain ⟨u, h10, -⟩ := den_chr_some.1 h9
      exact Or.inr ⟨u, h10⟩
    · obtain ⟨-, rfl⟩ := den_npeek_some.1 h9
      exact Or.inl (den_dot_none.1 h10)
  · exfalso
    rcases den_alt_some.1 h7 with h8 | ⟨-, h8⟩
    · obtain ⟨_, _, _, _, h⟩ := esc_some h8; simp at h
    · rcases den_alt_some.1 h8 with h8 | ⟨-, h8⟩
      · rcases d_EOL_some h8 with ⟨u, -, h⟩ | ⟨u, -, h⟩ <;> simp at h
      · obtain ⟨x, y, h8, h9, h10⟩ := den_seq_some.1 h8
        obtain ⟨c, t, -, rfl⟩ := den_dot_some.1 h9
        omega
  · exact Or.inl h7

theorem q_some {q : UInt8} (hq : q = 39 ∨ q = 34) {l : List UInt8} {n : Nat}
    (h : den env (qBody q) l = some n) : 1 ≤ n ∧ Step .normal .normal l n := by
  obtain ⟨i, j, h1, h2, rfl⟩ := den_seq_some.1 h
  obtain ⟨t, rfl, rfl⟩ := den_chr_some.1 h1
  obtain ⟨x, y, h3, h4, rfl⟩ := den_seq_some.1 h2
  rw [den_star] at h3
  subst h3
  simp only [List.drop_succ_cons, List.drop_zero] at h4 ⊢
  refine ⟨by omega, Step.trans (m' := .quote q) ⟨?_, by simp⟩ (Step.trans (q_step hq t) ?_)⟩
  · rcases hq with rfl | rfl <;> simp [live]
  simp only [List.drop_succ_cons, List.drop_zero]
  rcases den_alt_some.1 h4 with h5 | ⟨-, h5⟩
  · obtain ⟨u, h6, rfl⟩ := den_chr_some.1 h5
    rw [h6]; exact ⟨by simp [live], by simp⟩
  · rw [den_nt] at h5
    obtain ⟨h6, rfl⟩ := d_EOF_some.1 h5
    rw [h6]; exact ⟨by simp [live], by simp⟩

theorem q_none {q : UInt8} {l : List UInt8} (h : den env (qBody q) l = none) :
    ¬ ∃ t, l = q :: t := by
  rcases den_seq_none.1 h with h1 | ⟨i, h1, h2⟩
  · exact den_chr_none.1 h1
  · exfalso
    rcases den_seq_none.1 h2 with h3 | ⟨j, h3, h4⟩
    · simp [den] at h3
    · rw [den_star] at h3
      subst h3
      obtain ⟨h5, h6⟩ := den_alt_none.1 h4
      rw [den_nt] at h6
      rcases q_exit (q := q) (l.drop i) with h7 | h7
      · exact d_EOF_none.1 h6 h7
      · exact den_chr_none.1 h5 h7

theorem quoted_some {l : List UInt8} {n : Nat} (h : env .r_quoted l = some n) :
    1 ≤ n ∧ Step .normal .normal l n := by
  rw [env_eq] at h
  rcases den_alt_some.1 h with h | ⟨-, h⟩
  · rw [den_nt, env_eq] at h; exact q_some (Or.inl rfl) h
  · rw [den_nt, env_eq] at h; exact q_some (Or.inr rfl) h

theorem quoted_none {l : List UInt8} (h : env .r_quoted l = none) :
    ∀ c t, l = c :: t → ¬ (c = 39 ∨ c = 34) := by
  rw [env_eq] at h
  obtain ⟨h1, h2⟩ := den_alt_none.1 h
  rw [den_nt, env_eq] at h1 h2
  rintro c t rfl (rfl | rfl)
  · exact q_none (q := 39) h1 ⟨t, rfl⟩
  · exact q_none (q := 34) h2 ⟨t, rfl⟩

/-! ## White space and statements -/

theorem WS_some {l : List UInt8} {n : Nat} (h : env .r_WS l = some n) :
    1 ≤ n ∧ Step .normal .normal l n := by
  rw [env_eq] at h
  rcases den_alt_some.1 h with h | ⟨-, h⟩
  · rw [den_nt, env_eq] at h
    cases l with
    | nil => simp [grammar, r_HWS, den] at h
    | cons c t =>
      simp only [grammar, r_HWS, den, hws_mem, decide_eq_true_eq] at h
      split at h
      · rename_i hc
        simp only [Option.some.injEq] at h
        subst h
        refine ⟨by omega, ?_, by simp⟩
        rcases hc with rfl | rfl <;> simp [live]
      · simp at h
  · rw [den_nt] at h
    refine ⟨?_, step_EOL_normal h⟩
    rcases d_EOL_some h with ⟨t, -, rfl⟩ | ⟨t, -, rfl⟩ <;> omega

/-- What `-` matches. -/
def ws (l : List UInt8) : Nat := starD (den env (.alt (.nt .r_WS none) (.nt .r_comment none) : E)) l

theorem ws_eq (l : List UInt8) : env .r_ws l = some (ws l) := by rw [env_eq]; rfl

theorem ws_step (l : List UInt8) : Step .normal .normal l (ws l) := by
  refine Step.star (fun l n hl h => ?_) l
  rcases den_alt_some.1 h with h | ⟨-, h⟩
  · exact (WS_some h).2
  · exact (comment_some h).2

/-- One round of a statement's body. -/
abbrev sLoop : E := .alt (.nt .r_comment none) (.alt (.nt .r_quoted none) (.alt (.nt
    .r_unclosed_block_comment none) (.alt (.nt .r_escaped_char none) (.seq (.npeek (.seq (.nt
    .r_ws none) (.chr 59))) .dot))))

/-- What `statement-body` matches. -/
def stBody (l : List UInt8) : Nat := starD (den env sLoop) l

theorem stBody_eq (l : List UInt8) : env .r_statement_body l = some (stBody l) := by
  rw [env_eq]; rfl

theorem sLoop_step {l : List UInt8} {n : Nat} (h : den env sLoop l = some n) :
    1 ≤ n ∧ Step .normal .normal l n := by
  rcases den_alt_some.1 h with h1 | ⟨h0, h1⟩
  · exact ⟨by have := (comment_some h1).1; omega, (comment_some h1).2⟩
  rcases den_alt_some.1 h1 with h2 | ⟨hq, h2⟩
  · exact quoted_some h2
  rcases den_alt_some.1 h2 with h3 | ⟨hu, h3⟩
  · exact ⟨by have := (ubc_some h3).1; omega, (ubc_some h3).2⟩
  rcases den_alt_some.1 h3 with h4 | ⟨he, h4⟩
  · refine ⟨?_, esc_step (Or.inl rfl) h4⟩
    obtain ⟨_, _, _, _, rfl⟩ := esc_some h4; omega
  obtain ⟨i, j, h5, h6, rfl⟩ := den_seq_some.1 h4
  obtain ⟨h7, rfl⟩ := den_npeek_some.1 h5
  obtain ⟨c, t, h8, rfl⟩ := den_dot_some.1 h6
  rw [List.drop_zero] at h8
  subst h8
  refine ⟨by omega, ?_, by simp⟩
  rw [den_nt, env_eq] at h0
  obtain ⟨h0a, h0b⟩ := den_alt_none.1 h0
  have n1 : ¬ (c = 47 ∧ t.head? = some 47) := by
    rintro ⟨rfl, hh⟩
    cases t with
    | nil => simp at hh
    | cons d t => simp only [List.head?_cons, Option.some.injEq] at hh; subst hh; exact lc_none h0a ⟨t, rfl⟩
  have n2 : ¬ (c = 47 ∧ t.head? = some 42) := by
    rintro ⟨rfl, hh⟩
    cases t with
    | nil => simp at hh
    | cons d t => simp only [List.head?_cons, Option.some.injEq] at hh; subst hh; exact bc_none h0b hu ⟨t, rfl⟩
  have n3 := esc_none he c t rfl
  have n4 := quoted_none hq c t rfl
  have n5 : c ≠ 59 := by
    rintro rfl
    rcases den_seq_none.1 h7 with h9 | ⟨i, h9, h10⟩
    · rw [den_nt, ws_eq] at h9; simp at h9
    · rw [den_nt, ws_eq] at h9
      have : ws (59 :: t) = 0 := by
        have := (ws_step (59 :: t)).1
        simp only [live, if_true] at this
        omega
      simp only [Option.some.injEq] at h9
      rw [← h9, this] at h10
      exact den_chr_none.1 h10 ⟨t, rfl⟩
  simp only [live, n1, n2, n3, n4, n5, if_false, Nat.zero_add, List.drop_succ_cons, List.drop_zero]

theorem stBody_step (l : List UInt8) : Step .normal .normal l (stBody l) :=
  Step.star (fun _ _ _ h => (sLoop_step h).2) l

/-- The body ends where white space leads to a `;`, or at the end. -/
theorem stBody_exit (l : List UInt8) : l.drop (stBody l) = [] ∨
    ∃ u, (l.drop (stBody l)).drop (ws (l.drop (stBody l))) = 59 :: u := by
  rcases starD_exit (den env sLoop) l with h | h | h
  · obtain ⟨-, h⟩ := den_alt_none.1 h
    obtain ⟨-, h⟩ := den_alt_none.1 h
    obtain ⟨-, h⟩ := den_alt_none.1 h
    obtain ⟨-, h⟩ := den_alt_none.1 h
    rcases den_seq_none.1 h with h9 | ⟨k, h9, h10⟩
    · obtain ⟨n, h9⟩ := den_npeek_none.1 h9
      obtain ⟨i, j, h1, h2, -⟩ := den_seq_some.1 h9
      rw [den_nt, ws_eq, Option.some.injEq] at h1
      obtain ⟨u, h3, -⟩ := den_chr_some.1 h2
      subst h1
      exact Or.inr ⟨u, h3⟩
    · obtain ⟨-, rfl⟩ := den_npeek_some.1 h9
      exact Or.inl (den_dot_none.1 h10)
  · have := (sLoop_step h).1; omega
  · exact Or.inl h

theorem ws_nil : ws [] = 0 := by
  have := (ws_step []).2
  simpa using this

/-- Where the text of a statement begins and ends, and where its terminator is. -/
def stBegin (l : List UInt8) : Nat := ws l
def stEnd (l : List UInt8) : Nat := stBegin l + stBody (l.drop (stBegin l))
def stTerm (l : List UInt8) : Nat := stEnd l + ws (l.drop (stEnd l))

theorem stTerm_step (l : List UInt8) : Step .normal .normal l (stTerm l) := by
  have h1 : Step .normal .normal l (stEnd l) := Step.trans (ws_step l) (stBody_step _)
  exact h1.trans (ws_step _)

/-- The terminator is the first live `;`, or the end. -/
theorem stTerm_live (l : List UInt8) : stTerm l = live .normal 0 l ∧
    (l[stTerm l]? = some 59 ∨ stTerm l = l.length) := by
  obtain ⟨h1, h2⟩ := stTerm_step l
  have hx : l.drop (stTerm l) = [] ∨ ∃ u, l.drop (stTerm l) = 59 :: u := by
    rcases stBody_exit (l.drop (stBegin l)) with h | ⟨u, h⟩
    · rw [List.drop_drop] at h
      left
      unfold stTerm
      have h' : l.drop (stEnd l) = [] := h
      rw [h', ws_nil]; exact h
    · simp only [List.drop_drop] at h
      right
      refine ⟨u, ?_⟩
      rw [← h]; unfold stTerm stEnd
      congr 1
  rcases hx with h | ⟨u, h⟩
  · rw [h] at h1
    refine ⟨by simpa [live] using h1.symm, Or.inr ?_⟩
    rw [List.drop_eq_nil_iff] at h; omega
  · rw [h] at h1
    refine ⟨by simpa [live] using h1.symm, Or.inl ?_⟩
    have := congrArg List.head? h
    rw [List.head?_drop] at this
    simpa using this

theorem stEnd_le (l : List UInt8) : stBegin l ≤ stEnd l ∧ stEnd l ≤ stTerm l ∧
    stTerm l ≤ l.length :=
  ⟨Nat.le_add_right _ _, Nat.le_add_right _ _, (stTerm_step l).2⟩

end Verif.Quick
