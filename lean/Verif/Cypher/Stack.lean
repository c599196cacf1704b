import Verif.Cypher.Host
import Verif.Peg.Called
/-!
# The operator register and the precedence stack

Neither `op` nor `precedences` is restored when the generated parser backtracks. The analyses below
follow them through successes and failures.
-/
namespace Verif.Cypher
open Verif.Peg

variable {σ : Type}

/-- Predicates that always answer yes. -/
def Pred.sure : Pred → Bool
  | .no | .precChk => false
  | _ => true

theorem cpred_sure {x : Pred} {p : Nat} {r : Reader σ} {q q' : CState} {b : Bool}
    {ts : List (Peg.Thunk Act)} (hx : x.sure = true) (h : cpred x p r q = .ok (b, q', ts)) : b = true := by
  cases x <;> simp only [cpred] at h <;> (try split at h) <;> (try split at h) <;>
    simp_all [Pred.sure]

/-! ## The depth of the precedence stack -/

/-- What a predicate does to the stack of precedences. -/
inductive PrecOp where | push | pop | keep
  deriving DecidableEq

def Pred.precOp : Pred → PrecOp
  | .precPush | .precPushTop => .push
  | .precPop => .pop
  | _ => .keep

def PrecOp.app : PrecOp → Nat → Option Nat
  | .push, n => some (n + 1)
  | .pop, 0 => none
  | .pop, n + 1 => some n
  | .keep, n => some n

/-- Both ways of reaching a point must agree. -/
def joinD : Option Nat → Option Nat → Option (Option Nat)
  | none, y => some y
  | x, none => some x
  | some a, some b => bif a == b then some (some a) else none

/-- The number, if there is one, is `n`. -/
def isN : Option Nat → Nat → Bool
  | none, _ => true
  | some k, n => k == n

/-- From `n` entries above those at the start of the rule: the number after success and after
failure (`none` inside: cannot happen); outer `none`: no definite answer. Rules are balanced. -/
def depthTr : E → Nat → Option (Option Nat × Option Nat)
  | .eps, n | .act _, n => some (some n, none)
  | .one _, n | .str _, n | .nt _ _, n => some (some n, some n)
  | .seq a b, n =>
    match depthTr a n with
    | none => none
    | some (none, f) => some (none, f)
    | some (some k, f) =>
      match depthTr b k with
      | none => none
      | some (o, f') => match joinD f f' with
        | none => none
        | some f => some (o, f)
  | .alt a b, n =>
    match depthTr a n with
    | none => none
    | some (o, none) => some (o, none)
    | some (o, some k) =>
      match depthTr b k with
      | none => none
      | some (o', f) => match joinD o o' with
        | none => none
        | some o => some (o, f)
  | .star a, n =>
    match depthTr a n with
    | none => none
    | some (o, f) =>
      bif isN o n && isN f n then some (some n, none) else none
  | .peek a, n => depthTr a n
  | .npeek a, n => (depthTr a n).map fun (o, f) => (f, o)
  | .pred p, n =>
    match p.precOp.app n with
    | none => none
    | some k => some (some k, bif p.sure then none else some k)
  | .onfail a p, n =>
    match depthTr a n with
    | none => none
    | some (o, none) => some (o, none)
    | some (o, some k) => (p.precOp.app k).map fun f => (o, some f)

def depthOk (r : Rule) : Bool :=
  match depthTr (grammar r).body 0 with
  | none => false
  | some (o, f) => isN o 0 && isN f 0

theorem depthOk_all : ∀ r, depthOk r = true := by
  have h : ∀ r ∈ Rule.all, depthOk r = true := by decide +kernel
  exact fun r => h r (Rule.mem_all r)

/-- `ps` is `base` with `n` more entries. -/
def Above (base : List Nat) (n : Nat) (ps : List Nat) : Prop := ∃ xs, xs.length = n ∧ ps = xs ++ base

/-- What is claimed about a result. -/
def Res.Depth (base : List Nat) (d : Option Nat × Option Nat) : Res Act (Reader σ × CState) → Prop
  | .ok s => ∃ k, d.1 = some k ∧ Above base k s.g.2.precs
  | .fail s => ∃ k, d.2 = some k ∧ Above base k s.g.2.precs
  | .fault _ => True

theorem chost_peek_snd (S : Source σ) (p : Nat) (g : Reader σ × CState) :
    ((chost S).peek p g).2.2 = g.2 := by
  simp only [chost, mkHost]

theorem cpred_precs {x : Pred} {p : Nat} {r : Reader σ} {q q' : CState} {b : Bool}
    {ts : List (Peg.Thunk Act)} (h : cpred x p r q = .ok (b, q', ts)) {base : List Nat} {n k : Nat}
    (hn : Above base n q.precs) (hk : x.precOp.app n = some k) : Above base k q'.precs := by
  have hkeep : x.precOp = .keep → q'.precs = q.precs := by
    intro hx
    cases x <;> simp only [cpred] at h <;> (try split at h) <;> (try split at h) <;>
      simp_all [Pred.precOp] <;> (obtain ⟨-, h, -⟩ := h; subst h; rfl)
  cases hx : x.precOp with
  | keep =>
    rw [hx] at hk
    simp only [PrecOp.app, Option.some.injEq] at hk
    subst hk
    rw [hkeep hx]; exact hn
  | push =>
    rw [hx] at hk
    simp only [PrecOp.app, Option.some.injEq] at hk
    subst hk
    obtain ⟨xs, h1, h2⟩ := hn
    cases x <;> simp [Pred.precOp] at hx <;> simp only [cpred] at h <;> (try split at h) <;>
      simp at h <;> (obtain ⟨-, h, -⟩ := h; subst h; rw [h2]; exact ⟨_ :: xs, by simp [h1], rfl⟩)
  | pop =>
    rw [hx] at hk
    obtain ⟨xs, h1, h2⟩ := hn
    cases n with
    | zero => simp [PrecOp.app] at hk
    | succ n =>
      simp only [PrecOp.app, Option.some.injEq] at hk
      subst hk
      cases xs with
      | nil => simp at h1
      | cons y ys =>
        cases x <;> simp [Pred.precOp] at hx
        simp only [cpred, Except.ok.injEq, Prod.mk.injEq] at h
        obtain ⟨-, h, -⟩ := h
        subst h
        exact ⟨ys, by simpa using h1, by simp [h2]⟩

theorem joinD_left {x y z : Option Nat} {k : Nat} (h : joinD x y = some z) (hx : x = some k) :
    z = some k := by
  subst hx
  cases y with
  | none => simpa [joinD] using h.symm
  | some b =>
    simp only [joinD] at h
    cases hb : k == b with
    | true => rw [hb] at h; simpa using h.symm
    | false => rw [hb] at h; simp at h

theorem joinD_right {x y z : Option Nat} {k : Nat} (h : joinD x y = some z) (hy : y = some k) :
    z = some k := by
  subst hy
  cases x with
  | none => simpa [joinD] using h.symm
  | some b =>
    simp only [joinD] at h
    cases hb : b == k with
    | true => rw [hb] at h; simp only [beq_iff_eq] at hb; subst hb; simpa using h.symm
    | false => rw [hb] at h; simp at h

theorem matchStr_cstate {S : Source σ} {start : Nat} : ∀ (l : List UInt8) (p : Nat)
    (g : Reader σ × CState), (matchStr (chost S) start l p g).2.2.2 = g.2 := by
  intro l
  induction l with
  | nil => intro p g; rfl
  | cons c cs ih =>
    intro p g
    have h1 := chost_peek_snd S p g
    simp only [matchStr]
    split
    · rename_i heq; rw [heq] at h1; exact h1
    · rename_i heq
      rw [heq] at h1
      split
      · rw [ih]; exact h1
      · exact h1

/-- The stack of precedences is balanced. -/
theorem depth_sound {S : Source σ} {e : E} {s : St Act (Reader σ × CState)}
    {r : Res Act (Reader σ × CState)} (h : Eval grammar (chost S) e s r) :
    ∀ base n d, Above base n s.g.2.precs → depthTr e n = some d → Res.Depth base d r := by
  induction h with
  | eps | act =>
    intro base n d hn hd
    simp only [depthTr, Option.some.injEq] at hd
    subst hd
    exact ⟨_, rfl, hn⟩
  | @one_end m s g' hp | @one_no m s c g' hp _ | @one_ok m s c g' hp _ =>
    intro base n d hn hd
    simp only [depthTr, Option.some.injEq] at hd
    subst hd
    have := chost_peek_snd S s.pos s.g
    rw [hp] at this
    exact ⟨_, rfl, this ▸ hn⟩
  | @str_ok l s p g' hm | @str_no l s p g' hm =>
    intro base n d hn hd
    simp only [depthTr, Option.some.injEq] at hd
    subst hd
    have := matchStr_cstate (S := S) (start := s.pos) l s.pos s.g
    rw [hm] at this
    exact ⟨_, rfl, this ▸ hn⟩
  | @nt_ok q v s s1 _ ih =>
    intro base n d hn hd
    simp only [depthTr, Option.some.injEq] at hd
    subst hd
    have hq := depthOk_all q
    simp only [depthOk] at hq
    split at hq
    · simp at hq
    · rename_i o f hd
      obtain ⟨k, h1, xs, h2, h3⟩ := ih s.g.2.precs 0 _ ⟨[], rfl, by simp⟩ hd
      simp only at h1
      subst h1
      simp only [isN, Bool.and_eq_true, beq_iff_eq] at hq
      rw [hq.1] at h2
      cases xs with
      | nil => exact ⟨n, rfl, by rw [St.leave_g]; simpa [h3] using hn⟩
      | cons => simp at h2
  | @nt_no q v s s1 _ ih =>
    intro base n d hn hd
    simp only [depthTr, Option.some.injEq] at hd
    subst hd
    have hq := depthOk_all q
    simp only [depthOk] at hq
    split at hq
    · simp at hq
    · rename_i o f hd
      obtain ⟨k, h1, xs, h2, h3⟩ := ih s.g.2.precs 0 _ ⟨[], rfl, by simp⟩ hd
      simp only at h1
      subst h1
      simp only [isN, Bool.and_eq_true, beq_iff_eq] at hq
      rw [hq.2] at h2
      cases xs with
      | nil => exact ⟨n, rfl, by simpa [St.restore, h3] using hn⟩
      | cons => simp at h2
  | nt_fault | seq_fault | alt_fault | star_fault | peek_fault | npeek_fault | pred_fault
  | onfail_no_fault | onfail_fault => intros; trivial
  | @seq_ok a b s s1 r _ _ ih1 ih2 =>
    intro base n d hn hd
    simp only [depthTr] at hd
    split at hd
    · simp at hd
    · rename_i f ha
      obtain ⟨k, h1, -⟩ := ih1 base n _ hn ha
      simp at h1
    · rename_i k f ha
      obtain ⟨k', h1, h2⟩ := ih1 base n _ hn ha
      simp only [Option.some.injEq] at h1
      subst h1
      split at hd
      · simp at hd
      · rename_i o f' hb
        have h3 := ih2 base k _ h2 hb
        split at hd
        · simp at hd
        · rename_i z hj
          simp only [Option.some.injEq] at hd
          subst hd
          cases r with
          | fault => trivial
          | ok s2 => exact h3
          | fail s2 =>
            obtain ⟨k2, h4, h5⟩ := h3
            exact ⟨k2, joinD_right hj h4, h5⟩
  | @seq_no a b s s1 _ ih =>
    intro base n d hn hd
    simp only [depthTr] at hd
    split at hd
    · simp at hd
    · rename_i f ha
      simp only [Option.some.injEq] at hd
      subst hd
      exact ih base n _ hn ha
    · rename_i k f ha
      obtain ⟨k', h1, h2⟩ := ih base n _ hn ha
      split at hd
      · simp at hd
      · split at hd
        · simp at hd
        · rename_i z hj
          simp only [Option.some.injEq] at hd
          subst hd
          exact ⟨k', joinD_left hj h1, h2⟩
  | @alt_ok a b s s1 _ ih =>
    intro base n d hn hd
    simp only [depthTr] at hd
    split at hd
    · simp at hd
    · rename_i o ha
      simp only [Option.some.injEq] at hd
      subst hd
      exact ih base n _ hn ha
    · rename_i o k ha
      obtain ⟨k', h1, h2⟩ := ih base n _ hn ha
      split at hd
      · simp at hd
      · split at hd
        · simp at hd
        · rename_i z hj
          simp only [Option.some.injEq] at hd
          subst hd
          exact ⟨k', joinD_left hj h1, h2⟩
  | @alt_no a b s s1 r _ _ ih1 ih2 =>
    intro base n d hn hd
    simp only [depthTr] at hd
    split at hd
    · simp at hd
    · rename_i o ha
      obtain ⟨k, h1, -⟩ := ih1 base n _ hn ha
      simp at h1
    · rename_i o k ha
      obtain ⟨k', h1, h2⟩ := ih1 base n _ hn ha
      simp only [Option.some.injEq] at h1
      subst h1
      split at hd
      · simp at hd
      · rename_i o' f' hb
        have h3 := ih2 base k _ h2 hb
        split at hd
        · simp at hd
        · rename_i z hj
          simp only [Option.some.injEq] at hd
          subst hd
          cases r with
          | fault => trivial
          | fail s2 => exact h3
          | ok s2 =>
            obtain ⟨k2, h4, h5⟩ := h3
            exact ⟨k2, joinD_right hj h4, h5⟩
  | @star_more a s s1 r _ _ ih1 ih2 =>
    intro base n d hn hd
    refine ih2 base n d ?_ hd
    simp only [depthTr] at hd
    split at hd
    · simp at hd
    · rename_i o f ha
      obtain ⟨k, h1, h2⟩ := ih1 base n _ hn ha
      simp only at h1
      subst h1
      cases hc : isN (some k) n with
      | true => simp only [isN, beq_iff_eq] at hc; subst hc; exact h2
      | false => simp [hc] at hd
  | @star_end a s s1 _ ih =>
    intro base n d hn hd
    simp only [depthTr] at hd
    split at hd
    · simp at hd
    · rename_i o f ha
      obtain ⟨k, h1, h2⟩ := ih base n _ hn ha
      simp only at h1
      subst h1
      cases hc : isN (some k) n with
      | true =>
        cases hc2 : isN o n with
        | true =>
          simp [hc, hc2] at hd
          simp only [isN, beq_iff_eq] at hc
          subst hc hd
          exact ⟨_, rfl, h2⟩
        | false => simp [hc2] at hd
      | false => simp [hc] at hd
  | @peek_ok a s s1 _ ih =>
    intro base n d hn hd
    exact ih base n d hn hd
  | peek_no _ ih => intro base n d hn hd; exact ih base n d hn hd
  | @npeek_ok a s s1 _ ih =>
    intro base n d hn hd
    simp only [depthTr, Option.map_eq_some_iff] at hd
    obtain ⟨d', h1, rfl⟩ := hd
    exact ih base n d' hn h1
  | @npeek_no a s s1 _ ih =>
    intro base n d hn hd
    simp only [depthTr, Option.map_eq_some_iff] at hd
    obtain ⟨d', h1, rfl⟩ := hd
    exact ih base n d' hn h1
  | @pred_ok x s g' ts h =>
    intro base n d hn hd
    simp only [depthTr] at hd
    split at hd
    · simp at hd
    · rename_i k hk
      simp only [Option.some.injEq] at hd
      subst hd
      simp only [chost, mkHost] at h
      split at h
      · rename_i b q ts heq
        simp only [Except.ok.injEq, Prod.mk.injEq] at h
        obtain ⟨-, rfl, -⟩ := h
        exact ⟨k, rfl, cpred_precs heq hn hk⟩
      · simp at h
  | @pred_no x s g' ts h =>
    intro base n d hn hd
    simp only [depthTr] at hd
    split at hd
    · simp at hd
    · rename_i k hk
      simp only [Option.some.injEq] at hd
      subst hd
      simp only [chost, mkHost] at h
      split at h
      · rename_i b q ts heq
        simp only [Except.ok.injEq, Prod.mk.injEq] at h
        obtain ⟨rfl, rfl, -⟩ := h
        refine ⟨k, ?_, cpred_precs heq hn hk⟩
        cases hs : x.sure with
        | true => have := cpred_sure hs heq; simp at this
        | false => rfl
      · simp at h
  | @onfail_ok a p s s1 _ ih =>
    intro base n d hn hd
    simp only [depthTr] at hd
    split at hd
    · simp at hd
    · rename_i o ha
      simp only [Option.some.injEq] at hd
      subst hd
      exact ih base n _ hn ha
    · rename_i o k ha
      simp only [Option.map_eq_some_iff] at hd
      obtain ⟨f, -, rfl⟩ := hd
      exact ih base n (o, some k) hn ha
  | @onfail_no a x s s1 b g' ts _ h ih =>
    intro base n d hn hd
    simp only [depthTr] at hd
    split at hd
    · simp at hd
    · rename_i o ha
      obtain ⟨k, h1, -⟩ := ih base n _ hn ha
      simp at h1
    · rename_i o k ha
      obtain ⟨k', h1, h2⟩ := ih base n _ hn ha
      simp only [Option.some.injEq] at h1
      subst h1
      simp only [Option.map_eq_some_iff] at hd
      obtain ⟨f, hf, rfl⟩ := hd
      simp only [chost, mkHost] at h
      split at h
      · rename_i b q ts heq
        simp only [Except.ok.injEq, Prod.mk.injEq] at h
        obtain ⟨-, rfl, -⟩ := h
        exact ⟨f, rfl, cpred_precs heq h2 hf⟩
      · simp at h

/-- A rule leaves the precedences as they were. -/
theorem precs_balanced {S : Source σ} {q : Rule} {v : Option Nat} {s : St Act (Reader σ × CState)}
    {r : Res Act (Reader σ × CState)} (h : Eval grammar (chost S) (.nt q v) s r) :
    ∀ g ∈ r.g?, g.2.precs = s.g.2.precs := by
  have := depth_sound h s.g.2.precs 0 (some 0, some 0) ⟨[], rfl, by simp⟩ rfl
  cases r with
  | fault => rintro g ⟨⟩
  | ok s1 =>
    rintro g ⟨⟩
    obtain ⟨k, h1, xs, h2, h3⟩ := this
    simp only [Option.some.injEq] at h1
    cases xs with
    | nil => simpa using h3
    | cons => simp at h2; omega
  | fail s1 =>
    rintro g ⟨⟩
    obtain ⟨k, h1, xs, h2, h3⟩ := this
    simp only [Option.some.injEq] at h1
    cases xs with
    | nil => simpa using h3
    | cons => simp at h2; omega

/-! ## The operator is set before it is used -/

/-- Predicates that read `op`. -/
def Pred.usesOp : Pred → Bool
  | .precPush | .precChk => true
  | _ => false

/-- Given whether `op` is known to be set: is every use safe, and is it set after success. `tbl r`:
whether the rule needs it set, and whether it sets it. -/
def opTr (tbl : Rule → Bool × Bool) : E → Bool → Bool × Bool
  | .eps, f | .act _, f | .one _, f | .str _, f => (true, f)
  | .nt r _, f => (!(tbl r).1 || f, f || (tbl r).2)
  | .seq a b, f =>
    let x := opTr tbl a f
    let y := opTr tbl b x.2
    (x.1 && y.1, y.2)
  | .alt a b, f =>
    let x := opTr tbl a f
    let y := opTr tbl b f
    (x.1 && y.1, x.2 && y.2)
  | .star a, f => ((opTr tbl a f).1, f)
  | .peek a, f => ((opTr tbl a f).1, f)
  | .npeek a, f => ((opTr tbl a f).1, f)
  | .pred p, f => (!p.usesOp || f, f || (match p with | .op _ => true | _ => false))
  | .onfail a p, f => ((opTr tbl a f).1 && (!p.usesOp || f), (opTr tbl a f).2)

/-- Which rules need the operator set, and which set it. -/
def opT : Rule → Bool × Bool
  | .r__prec_expression => (true, true)
  | .r_PREFIX_OP | .r_POSTFIX_OP | .r_INFIX_OP | .r_COMPARISON_OP => (false, true)
  | _ => (false, false)

def opOk (r : Rule) : Bool :=
  let x := opTr opT (grammar r).body (opT r).1
  x.1 && (!(opT r).2 || x.2)

theorem opOk_all : ∀ r, opOk r = true := by
  have h : ∀ r ∈ Rule.all, opOk r = true := by decide +kernel
  exact fun r => h r (Rule.mem_all r)

theorem cpred_op {x : Pred} {p : Nat} {r : Reader σ} {q q' : CState} {b : Bool}
    {ts : List (Peg.Thunk Act)} (h : cpred x p r q = .ok (b, q', ts)) :
    (q.op.isSome = true → q'.op.isSome = true) ∧ (∀ o, x = .op o → q'.op.isSome = true) := by
  cases x <;> simp only [cpred] at h <;> (try split at h) <;> (try split at h) <;>
    simp_all <;> (try (obtain ⟨-, h, -⟩ := h; subst h; simp_all))

theorem chost_pred {S : Source σ} {x : Pred} {p : Nat} {g g' : Reader σ × CState} {b : Bool}
    {ts : List (Peg.Thunk Act)} (h : (chost S).pred x p g = .ok (b, g', ts)) :
    cpred x p g.1 g.2 = .ok (b, g'.2, ts) ∧ g'.1 = g.1 := by
  simp only [chost, mkHost] at h
  split at h
  · rename_i b q ts heq
    simp only [Except.ok.injEq, Prod.mk.injEq] at h
    obtain ⟨rfl, rfl, rfl⟩ := h
    exact ⟨heq, rfl⟩
  · simp at h

theorem chost_pred_error {S : Source σ} {x : Pred} {p : Nat} {g : Reader σ × CState} {f : Fault}
    (h : (chost S).pred x p g = .error f) : cpred x p g.1 g.2 = .error f := by
  simp only [chost, mkHost] at h
  split at h
  · simp at h
  · rename_i f' heq; simp only [Except.error.injEq] at h; subst h; exact heq

/-- Once set, the operator stays set. -/
theorem op_stays {S : Source σ} {e : E} {s : St Act (Reader σ × CState)}
    {r : Res Act (Reader σ × CState)} (h : Eval grammar (chost S) e s r)
    (hs : s.g.2.op.isSome = true) : ∀ g ∈ r.g?, g.2.op.isSome = true := by
  refine h.pres (Q := fun g => g.2.op.isSome = true) ?_ ?_ hs
  · intro p g hg; rw [chost_peek_snd]; exact hg
  · intro x p g _ hg b g' ts hp
    exact (cpred_op (chost_pred hp).1).1 hg

theorem op_sets {S : Source σ} {e : E} {s : St Act (Reader σ × CState)}
    {r : Res Act (Reader σ × CState)} (h : Eval grammar (chost S) e s r) :
    ∀ f, (f = true → s.g.2.op.isSome = true) → (opTr opT e f).1 = true → ∀ s1, r = .ok s1 →
      (opTr opT e f).2 = true → s1.g.2.op.isSome = true := by
  induction h with
  | eps | act => rintro f hf - _ ⟨⟩ h; exact hf h
  | @one_ok m s c g' hp _ =>
    rintro f hf - _ ⟨⟩ h
    have := chost_peek_snd S s.pos s.g
    rw [hp] at this
    exact this ▸ hf h
  | @str_ok l s p g' hm =>
    rintro f hf - _ ⟨⟩ h
    have := matchStr_cstate (S := S) (start := s.pos) l s.pos s.g
    rw [hm] at this
    exact this ▸ hf h
  | @nt_ok q v s s1 h0 ih =>
    rintro f hf hsafe _ ⟨⟩ h
    rw [St.leave_g]
    cases f with
    | true => exact op_stays h0 (by simpa using hf rfl) _ rfl
    | false =>
      simp only [opTr, Bool.false_or, Bool.or_false, Bool.not_eq_true'] at h hsafe
      have hq := opOk_all q
      simp only [opOk, h, hsafe, Bool.and_eq_true, Bool.not_true, Bool.false_or] at hq
      exact ih false (by simp) hq.1 _ rfl hq.2
  | @seq_ok a b s s1 r h0 _ ih1 ih2 =>
    intro f hf hsafe s2 he h
    simp only [opTr, Bool.and_eq_true] at hsafe h
    exact ih2 (opTr opT a f).2 (fun hx => ih1 f hf hsafe.1 _ rfl hx) hsafe.2 _ he h
  | alt_ok _ ih =>
    intro f hf hsafe s2 he h
    simp only [opTr, Bool.and_eq_true] at hsafe h
    exact ih f hf hsafe.1 _ he h.1
  | @alt_no a b s s1 r h0 _ ih1 ih2 =>
    intro f hf hsafe s2 he h
    simp only [opTr, Bool.and_eq_true] at hsafe h
    exact ih2 f (fun hx => op_stays h0 (hf hx) _ rfl) hsafe.2 _ he h.2
  | @star_more a s s1 r h0 h1 ih1 ih2 =>
    rintro f hf hsafe s2 rfl h
    exact op_stays h1 (op_stays h0 (hf h) _ rfl) _ rfl
  | @star_end a s s1 h0 ih =>
    rintro f hf hsafe _ ⟨⟩ h
    exact op_stays h0 (hf h) _ rfl
  | @peek_ok a s s1 h0 ih =>
    rintro f hf hsafe _ ⟨⟩ h
    exact op_stays h0 (hf h) _ rfl
  | @npeek_no a s s1 h0 ih =>
    rintro f hf hsafe _ ⟨⟩ h
    exact op_stays h0 (hf h) _ rfl
  | @pred_ok x s g' ts hp =>
    rintro f hf hsafe _ ⟨⟩ h
    have h1 := cpred_op (chost_pred hp).1
    simp only [opTr, Bool.or_eq_true] at h
    rcases h with h | h
    · exact h1.1 (hf h)
    · cases x <;> simp at h
      exact h1.2 _ rfl
  | onfail_ok _ ih =>
    intro f hf hsafe s2 he h
    simp only [opTr, Bool.and_eq_true] at hsafe h
    exact ih f hf hsafe.1 _ he h
  | _ => rintro f hf hsafe _ ⟨⟩

/-- Whenever an operator is used, it is set. -/
theorem op_used {S : Source σ} {e : E} {s : St Act (Reader σ × CState)} {x : Pred} {p : Nat}
    {g : Reader σ × CState} (h : Called grammar (chost S) e s x p g) (hx : x.usesOp = true) :
    ∀ f, (f = true → s.g.2.op.isSome = true) → (opTr opT e f).1 = true → g.2.op.isSome = true := by
  induction h with
  | pred =>
    intro f hf hs
    simp only [opTr, hx, Bool.not_true, Bool.false_or] at hs
    exact hf hs
  | @nt q v s x p g h0 ih =>
    intro f hf hs
    have hq := opOk_all q
    simp only [opOk, Bool.and_eq_true] at hq
    simp only [opTr, Bool.or_eq_true, Bool.not_eq_true'] at hs
    refine ih hx (opT q).1 ?_ hq.1
    intro h1
    rw [h1] at hs
    simp only [Bool.true_eq_false, false_or] at hs
    simpa using hf hs
  | seq_l _ ih =>
    intro f hf hs
    simp only [opTr, Bool.and_eq_true] at hs
    exact ih hx f hf hs.1
  | @seq_r a b s s1 x p g h0 _ ih =>
    intro f hf hs
    simp only [opTr, Bool.and_eq_true] at hs
    exact ih hx _ (fun h => op_sets h0 f hf hs.1 _ rfl h) hs.2
  | alt_l _ ih =>
    intro f hf hs
    simp only [opTr, Bool.and_eq_true] at hs
    exact ih hx f hf hs.1
  | @alt_r a b s s1 x p g h0 _ ih =>
    intro f hf hs
    simp only [opTr, Bool.and_eq_true] at hs
    exact ih hx f (fun h => op_stays h0 (hf h) _ rfl) hs.2
  | star_l _ ih => intro f hf hs; exact ih hx f hf hs
  | @star_r a s s1 x p g h0 _ ih =>
    intro f hf hs
    exact ih hx f (fun h => op_stays h0 (hf h) _ rfl) hs
  | peek _ ih => intro f hf hs; exact ih hx f hf hs
  | npeek _ ih => intro f hf hs; exact ih hx f hf hs
  | onfail_l _ ih =>
    intro f hf hs
    simp only [opTr, Bool.and_eq_true] at hs
    exact ih hx f hf hs.1
  | @onfail_r a y s s1 h0 =>
    intro f hf hs
    simp only [opTr, hx, Bool.and_eq_true, Bool.not_true, Bool.false_or] at hs
    exact op_stays h0 (hf hs.2) _ rfl

end Verif.Cypher
