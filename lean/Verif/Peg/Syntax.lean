import Verif.Data.Vector
/-!
# Parsers generated by `leg`: syntax and runtime

Both parsers of the library are generated by `leg` from `lib/src/quick_parser.leg` and
`lib/src/parser.leg`.  The generator itself is not part of `/repo`; this file models what its
output does, from knowledge of peg/leg 0.1.x (see DESIGN.md, trusted base).

`R` are rule names, `P` inline predicates (`&{..}`, `~{..}`, `<`, `>`), `A` deferred actions.
-/
namespace Verif.Peg

/-- A set of bytes, as a bit mask (`yymatchClass` tests bit `c` of a 256 bit table). -/
structure CharSet where
  mask : Nat
  deriving DecidableEq, Repr

namespace CharSet
def mem (m : CharSet) (c : UInt8) : Bool := m.mask.testBit c.toNat
/-- A single byte (`yymatchChar`). -/
def single (c : UInt8) : CharSet := ⟨2 ^ c.toNat⟩
/-- Every byte (`yymatchDot`). -/
def any : CharSet := ⟨2 ^ 256 - 1⟩
/-- A list of bytes. -/
def ofList (l : List UInt8) : CharSet := ⟨l.foldl (fun m c => m ||| 2 ^ c.toNat) 0⟩
end CharSet

/-- Grammar expressions.  `plus`, `opt`, literals of one byte, classes and `.` are definitions
below: `leg` compiles them to the same code. -/
inductive Expr (R P A : Type) where
  /-- nothing (the empty alternative) -/
  | eps
  /-- one byte in the given set: `yymatchChar`, `yymatchClass`, `yymatchDot` -/
  | one (m : CharSet)
  /-- a literal of at least two bytes: `yymatchString` -/
  | str (s : List UInt8)
  /-- a rule, `r` or `v:r` -/
  | nt (r : R) (var : Option Nat)
  | seq (a b : Expr R P A)
  | alt (a b : Expr R P A)
  | star (a : Expr R P A)
  /-- `&e` -/
  | peek (a : Expr R P A)
  /-- `!e` -/
  | npeek (a : Expr R P A)
  /-- `&{..}`, `<` and `>` -/
  | pred (p : P)
  /-- `{..}` -/
  | act (a : A)
  /-- `e ~{..}` -/
  | onfail (a : Expr R P A) (p : P)
  deriving DecidableEq, Repr

namespace Expr
variable {R P A : Type}
/-- A literal of one byte. -/
def chr (c : UInt8) : Expr R P A := .one (.single c)
/-- `.` -/
def dot : Expr R P A := .one .any
/-- `e?`: save, try, restore on failure; the same code as `(e | )`. -/
def opt (a : Expr R P A) : Expr R P A := .alt a .eps
/-- `e+`: `e e*`. -/
def plus (a : Expr R P A) : Expr R P A := .seq a (.star a)
/-- Sequence of several. -/
def seqs : List (Expr R P A) → Expr R P A
  | [] => .eps
  | [e] => e
  | e :: es => .seq e (seqs es)
/-- Ordered choice of several. -/
def alts : List (Expr R P A) → Expr R P A
  | [] => .eps
  | [e] => e
  | e :: es => .alt e (alts es)
end Expr

/-- A rule: the number of its variables (`v:` names) and its body. -/
structure RuleDef (R P A : Type) where
  nvars : Nat
  body : Expr R P A

/-- Deferred work (`yythunk`): the entries made by `yyDo`.  For an action the position at which it
was recorded is kept (a ghost for ordinary actions, the `begin` field for block actions). -/
inductive Thunk (A : Type) where
  | push (n : Nat)
  | pop (n : Nat)
  | set (i : Nat)
  | act (a : A) (pos : Nat)
  deriving DecidableEq, Repr

/-- What surrounds the generated code: how to read the byte at a position (refilling the buffer
when needed), and what the inline predicates do (answer, new state, thunks recorded). `γ` is all
mutable state that is *not* restored when backtracking. -/
structure Host (P A γ : Type) where
  peek : Nat → γ → Option UInt8 × γ
  pred : P → Nat → γ → Except Fault (Bool × γ × List (Thunk A))

/-- Parser state: `__pos`, the thunks recorded so far (latest first), the rest. -/
structure St (A γ : Type) where
  pos : Nat
  thunks : List (Thunk A)
  g : γ

/-- Outcome: success, failure (with the state as it was left, not yet restored), or a fault in an
inline predicate. -/
inductive Res (A γ : Type) where
  | ok (s : St A γ)
  | fail (s : St A γ)
  | fault (f : Fault)

variable {R P A γ : Type}

/-- `yy->__pos= yyposN; yy->__thunkpos= yythunkposN`: truncating the thunk array to the saved length
gives the saved list, as thunks are only ever appended in between. -/
def St.restore (saved now : St A γ) : St A γ := ⟨saved.pos, saved.thunks, now.g⟩

/-- Entry of a rule with `n` variables: `yyDo(yy, yyPush, n, 0)`. -/
def St.enter (n : Nat) (s : St A γ) : St A γ :=
  if n = 0 then s else { s with thunks := .push n :: s.thunks }

/-- End of a rule with `n` variables: `yyDo(yy, yyPop, n, 0)`, then, at a call `v:r`,
`yyDo(yy, yySet, offset of v, 0)`. -/
def St.leave (n : Nat) (var : Option Nat) (s : St A γ) : St A γ :=
  let s := if n = 0 then s else { s with thunks := .pop n :: s.thunks }
  match var with
  | none => s
  | some i => { s with thunks := .set i :: s.thunks }

@[simp] theorem St.enter_pos (n : Nat) (s : St A γ) : (s.enter n).pos = s.pos := by
  unfold St.enter; split <;> rfl
@[simp] theorem St.enter_g (n : Nat) (s : St A γ) : (s.enter n).g = s.g := by
  unfold St.enter; split <;> rfl
@[simp] theorem St.leave_pos (n : Nat) (v : Option Nat) (s : St A γ) :
    (s.leave n v).pos = s.pos := by
  unfold St.leave; cases v <;> simp only <;> split <;> rfl
@[simp] theorem St.leave_g (n : Nat) (v : Option Nat) (s : St A γ) : (s.leave n v).g = s.g := by
  unfold St.leave; cases v <;> simp only <;> split <;> rfl

/-- `yymatchString`: on a mismatch the position is put back, but when the input ends inside the
literal it stays where it is. -/
def matchStr (H : Host P A γ) (start : Nat) : List UInt8 → Nat → γ → Bool × Nat × γ
  | [], pos, g => (true, pos, g)
  | c :: cs, pos, g =>
    match H.peek pos g with
    | (none, g') => (false, pos, g')
    | (some d, g') => if d = c then matchStr H start cs (pos + 1) g' else (false, start, g')

/-- The generated code for an expression, with fuel (`none`: out of fuel). -/
def run (G : R → RuleDef R P A) (H : Host P A γ) : Nat → Expr R P A → St A γ → Option (Res A γ)
  | 0, _, _ => none
  | n + 1, e, s =>
    match e with
    | .eps => some (.ok s)
    | .one m =>
      match H.peek s.pos s.g with
      | (none, g') => some (.fail { s with g := g' })
      | (some c, g') =>
        if m.mem c then some (.ok { s with pos := s.pos + 1, g := g' })
        else some (.fail { s with g := g' })
    | .str l =>
      match matchStr H s.pos l s.pos s.g with
      | (true, p, g') => some (.ok { s with pos := p, g := g' })
      | (false, p, g') => some (.fail { s with pos := p, g := g' })
    | .nt r var =>
      match run G H n (G r).body (s.enter (G r).nvars) with
      | some (.ok s1) => some (.ok (s1.leave (G r).nvars var))
      | some (.fail s1) => some (.fail (s.restore s1))
      | some (.fault f) => some (.fault f)
      | none => none
    | .seq a b =>
      match run G H n a s with
      | some (.ok s1) => run G H n b s1
      | r => r
    | .alt a b =>
      match run G H n a s with
      | some (.fail s1) => run G H n b (s.restore s1)
      | r => r
    | .star a =>
      match run G H n a s with
      | some (.ok s1) => run G H n (.star a) s1
      | some (.fail s1) => some (.ok (s.restore s1))
      | r => r
    | .peek a =>
      match run G H n a s with
      | some (.ok s1) => some (.ok (s.restore s1))
      | r => r
    | .npeek a =>
      match run G H n a s with
      | some (.ok s1) => some (.fail s1)
      | some (.fail s1) => some (.ok (s.restore s1))
      | r => r
    | .pred p =>
      match H.pred p s.pos s.g with
      | .ok (true, g', ts) => some (.ok { s with thunks := ts ++ s.thunks, g := g' })
      | .ok (false, g', ts) => some (.fail { s with thunks := ts ++ s.thunks, g := g' })
      | .error f => some (.fault f)
    | .act a => some (.ok { s with thunks := .act a s.pos :: s.thunks })
    | .onfail a p =>
      match run G H n a s with
      | some (.fail s1) =>
        match H.pred p s1.pos s1.g with
        | .ok (_, g', ts) => some (.fail { s1 with thunks := ts ++ s1.thunks, g := g' })
        | .error f => some (.fault f)
      | r => r

/-- The same as a relation: `Eval G H e s r` when evaluating `e` from `s` ends with `r`. -/
inductive Eval (G : R → RuleDef R P A) (H : Host P A γ) : Expr R P A → St A γ → Res A γ → Prop
  | eps {s} : Eval G H .eps s (.ok s)
  | one_end {m s g'} : H.peek s.pos s.g = (none, g') →
      Eval G H (.one m) s (.fail { s with g := g' })
  | one_ok {m s c g'} : H.peek s.pos s.g = (some c, g') → m.mem c = true →
      Eval G H (.one m) s (.ok { s with pos := s.pos + 1, g := g' })
  | one_no {m s c g'} : H.peek s.pos s.g = (some c, g') → m.mem c = false →
      Eval G H (.one m) s (.fail { s with g := g' })
  | str_ok {l s p g'} : matchStr H s.pos l s.pos s.g = (true, p, g') →
      Eval G H (.str l) s (.ok { s with pos := p, g := g' })
  | str_no {l s p g'} : matchStr H s.pos l s.pos s.g = (false, p, g') →
      Eval G H (.str l) s (.fail { s with pos := p, g := g' })
  | nt_ok {r var s s1} : Eval G H (G r).body (s.enter (G r).nvars) (.ok s1) →
      Eval G H (.nt r var) s (.ok (s1.leave (G r).nvars var))
  | nt_no {r var s s1} : Eval G H (G r).body (s.enter (G r).nvars) (.fail s1) →
      Eval G H (.nt r var) s (.fail (s.restore s1))
  | nt_fault {r var s f} : Eval G H (G r).body (s.enter (G r).nvars) (.fault f) →
      Eval G H (.nt r var) s (.fault f)
  | seq_ok {a b s s1 r} : Eval G H a s (.ok s1) → Eval G H b s1 r → Eval G H (.seq a b) s r
  | seq_no {a b s s1} : Eval G H a s (.fail s1) → Eval G H (.seq a b) s (.fail s1)
  | seq_fault {a b s f} : Eval G H a s (.fault f) → Eval G H (.seq a b) s (.fault f)
  | alt_ok {a b s s1} : Eval G H a s (.ok s1) → Eval G H (.alt a b) s (.ok s1)
  | alt_no {a b s s1 r} : Eval G H a s (.fail s1) → Eval G H b (s.restore s1) r →
      Eval G H (.alt a b) s r
  | alt_fault {a b s f} : Eval G H a s (.fault f) → Eval G H (.alt a b) s (.fault f)
  | star_more {a s s1 r} : Eval G H a s (.ok s1) → Eval G H (.star a) s1 r →
      Eval G H (.star a) s r
  | star_end {a s s1} : Eval G H a s (.fail s1) → Eval G H (.star a) s (.ok (s.restore s1))
  | star_fault {a s f} : Eval G H a s (.fault f) → Eval G H (.star a) s (.fault f)
  | peek_ok {a s s1} : Eval G H a s (.ok s1) → Eval G H (.peek a) s (.ok (s.restore s1))
  | peek_no {a s s1} : Eval G H a s (.fail s1) → Eval G H (.peek a) s (.fail s1)
  | peek_fault {a s f} : Eval G H a s (.fault f) → Eval G H (.peek a) s (.fault f)
  | npeek_ok {a s s1} : Eval G H a s (.ok s1) → Eval G H (.npeek a) s (.fail s1)
  | npeek_no {a s s1} : Eval G H a s (.fail s1) → Eval G H (.npeek a) s (.ok (s.restore s1))
  | npeek_fault {a s f} : Eval G H a s (.fault f) → Eval G H (.npeek a) s (.fault f)
  | pred_ok {p s g' ts} : H.pred p s.pos s.g = .ok (true, g', ts) →
      Eval G H (.pred p) s (.ok { s with thunks := ts ++ s.thunks, g := g' })
  | pred_no {p s g' ts} : H.pred p s.pos s.g = .ok (false, g', ts) →
      Eval G H (.pred p) s (.fail { s with thunks := ts ++ s.thunks, g := g' })
  | pred_fault {p s f} : H.pred p s.pos s.g = .error f → Eval G H (.pred p) s (.fault f)
  | act {a s} : Eval G H (.act a) s (.ok { s with thunks := .act a s.pos :: s.thunks })
  | onfail_ok {a p s s1} : Eval G H a s (.ok s1) → Eval G H (.onfail a p) s (.ok s1)
  | onfail_no {a p s s1 b g' ts} : Eval G H a s (.fail s1) →
      H.pred p s1.pos s1.g = .ok (b, g', ts) →
      Eval G H (.onfail a p) s (.fail { s1 with thunks := ts ++ s1.thunks, g := g' })
  | onfail_no_fault {a p s s1 f} : Eval G H a s (.fail s1) → H.pred p s1.pos s1.g = .error f →
      Eval G H (.onfail a p) s (.fault f)
  | onfail_fault {a p s f} : Eval G H a s (.fault f) → Eval G H (.onfail a p) s (.fault f)

/-- What the function computes, the relation holds. -/
theorem Eval.of_run {G : R → RuleDef R P A} {H : Host P A γ} : ∀ (n : Nat) (e : Expr R P A)
    (s : St A γ) (r : Res A γ), run G H n e s = some r → Eval G H e s r := by
  intro n
  induction n with
  | zero => intro e s r h; simp [run] at h
  | succ n ih =>
    intro e s r h
    cases e with
    | eps => simp only [run, Option.some.injEq] at h; subst h; exact .eps
    | one m =>
      simp only [run] at h
      split at h
      · cases h; exact .one_end (by assumption)
      · split at h
        · cases h; exact .one_ok (by assumption) (by assumption)
        · rename_i hm; cases h; exact .one_no (by assumption) (by simpa using hm)
    | str l =>
      simp only [run] at h
      split at h
      · cases h; exact .str_ok (by assumption)
      · cases h; exact .str_no (by assumption)
    | nt q var =>
      simp only [run] at h
      split at h
      · rename_i h1; cases h; exact .nt_ok (ih _ _ _ h1)
      · rename_i h1; cases h; exact .nt_no (ih _ _ _ h1)
      · rename_i h1; cases h; exact .nt_fault (ih _ _ _ h1)
      · simp at h
    | seq a b =>
      simp only [run] at h
      split at h
      · rename_i h1; exact .seq_ok (ih _ _ _ h1) (ih _ _ _ h)
      · cases r with
        | ok s1 => simp_all
        | fail s1 => exact .seq_no (ih _ _ _ h)
        | fault f => exact .seq_fault (ih _ _ _ h)
    | alt a b =>
      simp only [run] at h
      split at h
      · rename_i h1; exact .alt_no (ih _ _ _ h1) (ih _ _ _ h)
      · cases r with
        | ok s1 => exact .alt_ok (ih _ _ _ h)
        | fail s1 => simp_all
        | fault f => exact .alt_fault (ih _ _ _ h)
    | star a =>
      simp only [run] at h
      split at h
      · rename_i h1; exact .star_more (ih _ _ _ h1) (ih _ _ _ h)
      · rename_i h1; cases h; exact .star_end (ih _ _ _ h1)
      · cases r with
        | ok s1 => simp_all
        | fail s1 => simp_all
        | fault f => exact .star_fault (ih _ _ _ h)
    | peek a =>
      simp only [run] at h
      split at h
      · rename_i h1; cases h; exact .peek_ok (ih _ _ _ h1)
      · cases r with
        | ok s1 => simp_all
        | fail s1 => exact .peek_no (ih _ _ _ h)
        | fault f => exact .peek_fault (ih _ _ _ h)
    | npeek a =>
      simp only [run] at h
      split at h
      · rename_i h1; cases h; exact .npeek_ok (ih _ _ _ h1)
      · rename_i h1; cases h; exact .npeek_no (ih _ _ _ h1)
      · cases r with
        | ok s1 => simp_all
        | fail s1 => simp_all
        | fault f => exact .npeek_fault (ih _ _ _ h)
    | pred p =>
      simp only [run] at h
      split at h
      · cases h; exact .pred_ok (by assumption)
      · cases h; exact .pred_no (by assumption)
      · cases h; exact .pred_fault (by assumption)
    | act a => simp only [run, Option.some.injEq] at h; subst h; exact .act
    | onfail a p =>
      simp only [run] at h
      split at h
      · rename_i h1
        split at h
        · cases h; exact .onfail_no (ih _ _ _ h1) (by assumption)
        · cases h; exact .onfail_no_fault (ih _ _ _ h1) (by assumption)
      · cases r with
        | ok s1 => exact .onfail_ok (ih _ _ _ h)
        | fail s1 => simp_all
        | fault f => exact .onfail_fault (ih _ _ _ h)

/-- More fuel does not change an outcome. -/
theorem run_mono {G : R → RuleDef R P A} {H : Host P A γ} : ∀ (n : Nat) (e : Expr R P A)
    (s : St A γ) (r : Res A γ), run G H n e s = some r → ∀ m, n ≤ m → run G H m e s = some r := by
  intro n
  induction n with
  | zero => intro e s r h; simp [run] at h
  | succ n ih =>
    intro e s r h m hm
    obtain ⟨m, rfl⟩ : ∃ k, m = k + 1 := ⟨m - 1, by omega⟩
    have ih' : ∀ e s r, run G H n e s = some r → run G H m e s = some r :=
      fun e s r h => ih e s r h m (by omega)
    cases e with
    | eps => simpa [run] using h
    | one c => simpa [run] using h
    | str l => simpa [run] using h
    | pred p => simpa [run] using h
    | act a => simpa [run] using h
    | nt q var =>
      simp only [run] at h ⊢
      split at h <;> rename_i h1 <;> first | (rw [ih' _ _ _ h1]; exact h) | simp at h
    | seq a b =>
      simp only [run] at h ⊢
      split at h
      · rename_i h1; rw [ih' _ _ _ h1]; exact ih' _ _ _ h
      · rw [ih' _ _ _ h]; cases r <;> simp_all
    | alt a b =>
      simp only [run] at h ⊢
      split at h
      · rename_i h1; rw [ih' _ _ _ h1]; exact ih' _ _ _ h
      · rw [ih' _ _ _ h]; cases r <;> simp_all
    | star a =>
      simp only [run] at h ⊢
      split at h
      · rename_i h1; rw [ih' _ _ _ h1]; exact ih' _ _ _ h
      · rename_i h1; rw [ih' _ _ _ h1]; exact h
      · rw [ih' _ _ _ h]; cases r <;> simp_all
    | peek a =>
      simp only [run] at h ⊢
      split at h
      · rename_i h1; rw [ih' _ _ _ h1]; exact h
      · rw [ih' _ _ _ h]; cases r <;> simp_all
    | npeek a =>
      simp only [run] at h ⊢
      split at h
      · rename_i h1; rw [ih' _ _ _ h1]; exact h
      · rename_i h1; rw [ih' _ _ _ h1]; exact h
      · rw [ih' _ _ _ h]; cases r <;> simp_all
    | onfail a p =>
      simp only [run] at h ⊢
      split at h
      · rename_i h1; rw [ih' _ _ _ h1]; exact h
      · rw [ih' _ _ _ h]; cases r <;> simp_all

/-- What the relation says, the function computes with enough fuel. -/
theorem Eval.to_run {G : R → RuleDef R P A} {H : Host P A γ} {e : Expr R P A} {s : St A γ}
    {r : Res A γ} (h : Eval G H e s r) : ∃ n, run G H n e s = some r := by
  induction h with
  | eps => exact ⟨1, rfl⟩
  | one_end h => exact ⟨1, by simp [run, h]⟩
  | one_ok h hm => exact ⟨1, by simp [run, h, hm]⟩
  | one_no h hm => exact ⟨1, by simp [run, h, hm]⟩
  | str_ok h => exact ⟨1, by simp [run, h]⟩
  | str_no h => exact ⟨1, by simp [run, h]⟩
  | nt_ok _ ih => obtain ⟨n, hn⟩ := ih; exact ⟨n + 1, by simp only [run, hn]⟩
  | nt_no _ ih => obtain ⟨n, hn⟩ := ih; exact ⟨n + 1, by simp only [run, hn]⟩
  | nt_fault _ ih => obtain ⟨n, hn⟩ := ih; exact ⟨n + 1, by simp only [run, hn]⟩
  | seq_ok _ _ ih1 ih2 =>
    obtain ⟨n, hn⟩ := ih1; obtain ⟨m, hm⟩ := ih2
    exact ⟨max n m + 1, by
      simp only [run, run_mono _ _ _ _ hn _ (Nat.le_max_left n m),
        run_mono _ _ _ _ hm _ (Nat.le_max_right n m)]⟩
  | seq_no _ ih => obtain ⟨n, hn⟩ := ih; exact ⟨n + 1, by simp only [run, hn]⟩
  | seq_fault _ ih => obtain ⟨n, hn⟩ := ih; exact ⟨n + 1, by simp only [run, hn]⟩
  | alt_ok _ ih => obtain ⟨n, hn⟩ := ih; exact ⟨n + 1, by simp only [run, hn]⟩
  | alt_no _ _ ih1 ih2 =>
    obtain ⟨n, hn⟩ := ih1; obtain ⟨m, hm⟩ := ih2
    exact ⟨max n m + 1, by
      simp only [run, run_mono _ _ _ _ hn _ (Nat.le_max_left n m),
        run_mono _ _ _ _ hm _ (Nat.le_max_right n m)]⟩
  | alt_fault _ ih => obtain ⟨n, hn⟩ := ih; exact ⟨n + 1, by simp only [run, hn]⟩
  | star_more _ _ ih1 ih2 =>
    obtain ⟨n, hn⟩ := ih1; obtain ⟨m, hm⟩ := ih2
    exact ⟨max n m + 1, by
      simp only [run, run_mono _ _ _ _ hn _ (Nat.le_max_left n m),
        run_mono _ _ _ _ hm _ (Nat.le_max_right n m)]⟩
  | star_end _ ih => obtain ⟨n, hn⟩ := ih; exact ⟨n + 1, by simp only [run, hn]⟩
  | star_fault _ ih => obtain ⟨n, hn⟩ := ih; exact ⟨n + 1, by simp only [run, hn]⟩
  | peek_ok _ ih => obtain ⟨n, hn⟩ := ih; exact ⟨n + 1, by simp only [run, hn]⟩
  | peek_no _ ih => obtain ⟨n, hn⟩ := ih; exact ⟨n + 1, by simp only [run, hn]⟩
  | peek_fault _ ih => obtain ⟨n, hn⟩ := ih; exact ⟨n + 1, by simp only [run, hn]⟩
  | npeek_ok _ ih => obtain ⟨n, hn⟩ := ih; exact ⟨n + 1, by simp only [run, hn]⟩
  | npeek_no _ ih => obtain ⟨n, hn⟩ := ih; exact ⟨n + 1, by simp only [run, hn]⟩
  | npeek_fault _ ih => obtain ⟨n, hn⟩ := ih; exact ⟨n + 1, by simp only [run, hn]⟩
  | pred_ok h => exact ⟨1, by simp [run, h]⟩
  | pred_no h => exact ⟨1, by simp [run, h]⟩
  | pred_fault h => exact ⟨1, by simp [run, h]⟩
  | act => exact ⟨1, rfl⟩
  | onfail_ok _ ih => obtain ⟨n, hn⟩ := ih; exact ⟨n + 1, by simp only [run, hn]⟩
  | onfail_no _ h ih => obtain ⟨n, hn⟩ := ih; exact ⟨n + 1, by simp only [run, hn, h]⟩
  | onfail_no_fault _ h ih => obtain ⟨n, hn⟩ := ih; exact ⟨n + 1, by simp only [run, hn, h]⟩
  | onfail_fault _ ih => obtain ⟨n, hn⟩ := ih; exact ⟨n + 1, by simp only [run, hn]⟩

theorem Eval.det {G : R → RuleDef R P A} {H : Host P A γ} {e : Expr R P A} {s : St A γ}
    {r r' : Res A γ} (h : Eval G H e s r) (h' : Eval G H e s r') : r = r' := by
  obtain ⟨n, hn⟩ := h.to_run
  obtain ⟨m, hm⟩ := h'.to_run
  have h1 := run_mono _ _ _ _ hn (max n m) (Nat.le_max_left _ _)
  have h2 := run_mono _ _ _ _ hm (max n m) (Nat.le_max_right _ _)
  rw [h1] at h2
  exact Option.some.inj h2

end Verif.Peg
