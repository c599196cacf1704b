import Verif.Peg.Analysis
/-!
# Generated parsers: line start bookkeeping

Both parsers keep a stack of offsets at which lines start (`line_start_offsets`).  It is not undone
on backtracking; `backtrack_lines` pops offsets beyond the current position when a line start or an
error is recorded.  This file gives a static check on a grammar which ensures that, at every
moment, the offsets up to the current position are exactly the true line starts.
-/
namespace Verif.Peg
variable {R P A γ : Type}

/-! ## The operations (parser.c:840-864, quick_parser.c:333-356) -/

/-- `backtrack_lines`: pop every offset beyond `pos`.  The stack is a list, top first.  The bottom
entry is always 0 (`LInv.zero`), so the C loop never reaches an empty stack. -/
def backtrackL (pos : Nat) (L : List Nat) : List Nat := L.dropWhile (fun x => decide (pos < x))

/-- `line_start`: pop, then push the current position unless it is already on top. -/
def lineStartL (pos : Nat) (L : List Nat) : List Nat :=
  let L' := backtrackL pos L
  if L'.head? = some pos then L' else pos :: L'

/-- `q` is the start of a line of `w`: the beginning, or just after a newline. -/
def LineStart (w : List UInt8) (q : Nat) : Prop := q = 0 ∨ ∃ p, q = p + 1 ∧ w[p]? = some 10

/-- The stack is right for position `p`. -/
structure LInv (w : List UInt8) (p : Nat) (L : List Nat) : Prop where
  sorted : L.Pairwise (fun a b => b < a)
  sound : ∀ x ∈ L, LineStart w x
  zero : L.getLast? = some 0
  complete : ∀ q, LineStart w q → q ≤ p → q ∈ L

theorem LInv.down {w : List UInt8} {p q : Nat} {L : List Nat} (h : LInv w p L) (hq : q ≤ p) :
    LInv w q L := ⟨h.sorted, h.sound, h.zero, fun x hx hle => h.complete x hx (by omega)⟩

theorem mem_backtrackL {pos x : Nat} {L : List Nat} (hs : L.Pairwise (fun a b => b < a)) :
    x ∈ backtrackL pos L ↔ x ∈ L ∧ x ≤ pos := by
  unfold backtrackL
  induction L with
  | nil => simp
  | cons a L ih =>
    rw [List.pairwise_cons] at hs
    rw [List.dropWhile_cons]
    split
    · rename_i h
      rw [ih hs.2]
      simp only [decide_eq_true_eq] at h
      rw [List.mem_cons]
      constructor
      · rintro ⟨h1, h2⟩; exact ⟨Or.inr h1, h2⟩
      · rintro ⟨h1 | h1, h2⟩
        · omega
        · exact ⟨h1, h2⟩
    · rename_i h
      simp at h
      constructor
      · intro hm
        refine ⟨hm, ?_⟩
        rcases List.mem_cons.1 hm with rfl | hm
        · exact h
        · have := hs.1 x hm; omega
      · exact fun hm => hm.1

theorem LInv.backtrack {w : List UInt8} {p pos : Nat} {L : List Nat} (h : LInv w p L)
    (hp : p ≤ pos) : LInv w p (backtrackL pos L) := by
  have hm := fun x => mem_backtrackL (pos := pos) (x := x) h.sorted
  have hsuf : backtrackL pos L <:+ L := List.dropWhile_suffix _
  refine ⟨h.sorted.sublist hsuf.sublist, fun x hx => h.sound x ((hm x).1 hx).1, ?_,
    fun q hq hle => (hm q).2 ⟨h.complete q hq hle, by omega⟩⟩
  have h0 : 0 ∈ backtrackL pos L := (hm 0).2 ⟨List.mem_of_getLast? h.zero, Nat.zero_le _⟩
  obtain ⟨t, ht⟩ := hsuf
  have hz := h.zero
  rw [← ht, List.getLast?_append] at hz
  cases hb : (backtrackL pos L).getLast? with
  | none => rw [List.getLast?_eq_none_iff] at hb; rw [hb] at h0; simp at h0
  | some v => rw [hb] at hz; simpa using hz

theorem LInv.lineStart {w : List UInt8} {p pos : Nat} {L : List Nat} (h : LInv w p L)
    (hp : p < pos) (hl : LineStart w pos) (hgap : ∀ q, p < q → q < pos → ¬ LineStart w q) :
    LInv w pos (lineStartL pos L) := by
  have hb := h.backtrack (Nat.le_of_lt hp)
  have hm := fun x => mem_backtrackL (pos := pos) (x := x) h.sorted
  have hcomp : ∀ q, LineStart w q → q ≤ pos → q = pos ∨ q ∈ backtrackL pos L := by
    intro q hq hle
    rcases Nat.lt_or_ge p q with hlt | hge
    · rcases Nat.lt_or_eq_of_le hle with h1 | h1
      · exact absurd hq (hgap q hlt h1)
      · exact Or.inl h1
    · exact Or.inr (hb.complete q hq hge)
  unfold lineStartL
  simp only
  split
  · rename_i he
    refine ⟨hb.sorted, hb.sound, hb.zero, fun q hq hle => ?_⟩
    rcases hcomp q hq hle with rfl | h1
    · exact List.mem_of_mem_head? he
    · exact h1
  · rename_i he
    have hlt : ∀ a ∈ backtrackL pos L, a < pos := by
      intro a ha
      have h1 := ((hm a).1 ha).2
      rcases Nat.lt_or_eq_of_le h1 with h2 | h2
      · exact h2
      · exfalso
        subst h2
        cases hbl : backtrackL a L with
        | nil => rw [hbl] at ha; simp at ha
        | cons b M =>
          rw [hbl] at ha he
          have hs := hb.sorted
          rw [hbl, List.pairwise_cons] at hs
          rcases List.mem_cons.1 ha with h3 | h3
          · subst h3; simp at he
          · have := hs.1 a h3
            have h4 := ((hm b).1 (by rw [hbl]; simp)).2
            omega
    refine ⟨List.pairwise_cons.2 ⟨hlt, hb.sorted⟩, ?_, ?_, ?_⟩
    · intro x hx
      rcases List.mem_cons.1 hx with rfl | hx
      · exact hl
      · exact hb.sound x hx
    · have hz := hb.zero
      rw [List.getLast?_cons, hz]; rfl
    · intro q hq hle
      rcases hcomp q hq hle with rfl | h1
      · simp
      · simp [h1]

/-! ## What predicates do to the stack -/

/-- `keep`: nothing; `back`: `backtrack_lines(pos)`; `start`: `line_start`. -/
inductive LKind where
  | keep | back | start
  deriving DecidableEq, Repr

def LKind.apply (k : LKind) (pos : Nat) (L : List Nat) : List Nat :=
  match k with
  | .keep => L
  | .back => backtrackL pos L
  | .start => lineStartL pos L

structure LineHost (H : Host P A γ) (lines : γ → List Nat) (kind : P → LKind) : Prop where
  peek : ∀ p g, lines (H.peek p g).2 = lines g
  pred : ∀ x p g b g' ts, H.pred x p g = .ok (b, g', ts) →
    lines g' = (kind x).apply p (lines g)
  start : ∀ x p g b g' ts, kind x = .start → H.pred x p g = .ok (b, g', ts) → b = true

theorem matchStr_lines {H : Host P A γ} {lines : γ → List Nat} {kind : P → LKind}
    (hl : LineHost H lines kind) {start : Nat} : ∀ (l : List UInt8) (p : Nat) (g : γ),
    lines (matchStr H start l p g).2.2 = lines g := by
  intro l
  induction l with
  | nil => intro p g; rfl
  | cons c cs ih =>
    intro p g
    have h1 := hl.peek p g
    simp only [matchStr]
    rcases hp : H.peek p g with ⟨_ | d, g'⟩ <;> rw [hp] at h1
    · exact h1
    · simp only at h1 ⊢
      split
      · rw [ih]; exact h1
      · exact h1

def Res.g? : Res A γ → Option γ
  | .ok s => some s.g
  | .fail s => some s.g
  | .fault _ => none

/-- Offsets up to the current position are never lost. -/
theorem Eval.lines_keep {G : R → RuleDef R P A} {H : Host P A γ} {w : List UInt8}
    {I : Nat → γ → Prop} (hr : ReadsAs H w I) {lines : γ → List Nat} {kind : P → LKind}
    (hl : LineHost H lines kind)
    {e : Expr R P A} {s : St A γ} {r : Res A γ} (h : Eval G H e s r) (hi : I s.pos s.g) :
    ∀ g ∈ r.g?, ∀ x ≤ s.pos, x ∈ lines s.g → x ∈ lines g := by
  have happ : ∀ (k : LKind) (p x : Nat) (L : List Nat), x ≤ p → x ∈ L → x ∈ k.apply p L := by
    intro k p x L hx hm
    have hb : x ∈ backtrackL p L := by
      unfold backtrackL
      induction L with
      | nil => simp at hm
      | cons a L ih =>
        rw [List.dropWhile_cons]
        split
        · rename_i h
          simp at h
          rcases List.mem_cons.1 hm with rfl | hm
          · omega
          · exact ih hm
        · exact hm
    cases k with
    | keep => exact hm
    | back => exact hb
    | start =>
      simp only [LKind.apply, lineStartL]
      split
      · exact hb
      · simp [hb]
  induction h with
  | eps => rintro g ⟨⟩ x hx hm; exact hm
  | @one_end m s g' hp =>
    rintro g ⟨⟩ x hx hm; have := hl.peek s.pos s.g; rw [hp] at this; simpa [this] using hm
  | @one_no m s c g' hp _ =>
    rintro g ⟨⟩ x hx hm; have := hl.peek s.pos s.g; rw [hp] at this; simpa [this] using hm
  | @one_ok m s c g' hp _ =>
    rintro g ⟨⟩ x hx hm; have := hl.peek s.pos s.g; rw [hp] at this; simpa [this] using hm
  | @str_ok l s p g' h =>
    rintro g ⟨⟩ x hx hm
    have := matchStr_lines hl (start := s.pos) l s.pos s.g
    rw [h] at this; simpa [this] using hm
  | @str_no l s p g' h =>
    rintro g ⟨⟩ x hx hm
    have := matchStr_lines hl (start := s.pos) l s.pos s.g
    rw [h] at this; simpa [this] using hm
  | nt_ok _ ih =>
    rintro g ⟨⟩ x hx hm
    have := ih (by simpa using hi) _ rfl x (by simpa using hx) (by simpa using hm)
    simpa using this
  | nt_no _ ih =>
    rintro g ⟨⟩ x hx hm
    exact ih (by simpa using hi) _ rfl x (by simpa using hx) (by simpa using hm)
  | nt_fault => rintro g ⟨⟩
  | seq_ok hev1 _ ih1 ih2 =>
    intro g hg x hx hm
    have hgd := hev1.good hr hi
    have h1 := ih1 hi _ rfl x hx hm
    exact ih2 hgd.2 g hg x (Nat.le_trans hx hgd.1) h1
  | seq_no _ ih => exact ih hi
  | seq_fault => rintro g ⟨⟩
  | alt_ok _ ih => exact ih hi
  | alt_no hev1 _ ih1 ih2 =>
    intro g hg x hx hm
    have hgd := hev1.good hr hi
    have h1 := ih1 hi _ rfl x hx hm
    exact ih2 (hr.down hgd.2 hgd.1) g hg x hx h1
  | alt_fault => rintro g ⟨⟩
  | star_more hev1 _ ih1 ih2 =>
    intro g hg x hx hm
    have hgd := hev1.good hr hi
    have h1 := ih1 hi _ rfl x hx hm
    exact ih2 hgd.2 g hg x (Nat.le_trans hx hgd.1) h1
  | star_end _ ih => rintro g ⟨⟩ x hx hm; exact ih hi _ rfl x hx hm
  | star_fault => rintro g ⟨⟩
  | peek_ok _ ih => rintro g ⟨⟩ x hx hm; exact ih hi _ rfl x hx hm
  | peek_no _ ih => exact ih hi
  | peek_fault => rintro g ⟨⟩
  | npeek_ok _ ih => rintro g ⟨⟩ x hx hm; exact ih hi _ rfl x hx hm
  | npeek_no _ ih => rintro g ⟨⟩ x hx hm; exact ih hi _ rfl x hx hm
  | npeek_fault => rintro g ⟨⟩
  | pred_ok h => rintro g ⟨⟩ x hx hm; simp only; rw [hl.pred _ _ _ _ _ _ h]; exact happ _ _ _ _ hx hm
  | pred_no h => rintro g ⟨⟩ x hx hm; simp only; rw [hl.pred _ _ _ _ _ _ h]; exact happ _ _ _ _ hx hm
  | pred_fault => rintro g ⟨⟩
  | act => rintro g ⟨⟩ x hx hm; exact hm
  | onfail_ok _ ih => exact ih hi
  | onfail_no hev h ih =>
    rintro g ⟨⟩ x hx hm
    have hgd := hev.good hr hi
    simp only
    rw [hl.pred _ _ _ _ _ _ h]
    exact happ _ _ _ _ (Nat.le_trans hx hgd.1) (ih hi _ rfl x hx hm)
  | onfail_no_fault => rintro g ⟨⟩
  | onfail_fault => rintro g ⟨⟩

/-! ## The analysis

Facts about the byte at a position `p`: 0 nothing; 1 if it is a newline, the line start after it is
already on the stack; 2 it is not a newline. -/

def LFact (w : List UInt8) (k p : Nat) (L : List Nat) : Prop :=
  (1 ≤ k → w[p]? = some 10 → p + 1 ∈ L) ∧ (2 ≤ k → w[p]? ≠ some 10)

/-- What is known after evaluating an expression: on success without consuming (a fact about the
position); on success after consuming (a fact about the end, one about the start); on failure (a
fact about the start; whether the stack is right for the unrestored position).  `none`: cannot
happen. -/
structure LRes where
  ok0 : Option Nat
  ok1 : Option (Nat × Nat)
  fl : Option (Nat × Bool)
  safe : Bool
  deriving DecidableEq, Repr

/-- The results for each of the three facts about the starting position. -/
structure LRes3 where
  r0 : LRes
  r1 : LRes
  r2 : LRes
  deriving DecidableEq, Repr

def LRes3.get (t : LRes3) (f : Nat) : LRes := match f with
  | 0 => t.r0
  | 1 => t.r1
  | _ => t.r2

def LRes3.mk' (f : Nat → LRes) : LRes3 := ⟨f 0, f 1, f 2⟩

def joinO (a b : Option Nat) : Option Nat := match a, b with
  | none, b => b
  | a, none => a
  | some x, some y => some (min x y)

def joinP (a b : Option (Nat × Nat)) : Option (Nat × Nat) := match a, b with
  | none, b => b
  | a, none => a
  | some x, some y => some (min x.1 y.1, min x.2 y.2)

def joinF (a b : Option (Nat × Bool)) : Option (Nat × Bool) := match a, b with
  | none, b => b
  | a, none => a
  | some x, some y => some (min x.1 y.1, x.2 && y.2)

def LRes.bad : LRes := ⟨some 0, some (0, 0), some (0, false), false⟩

/-- Declared behaviour of a rule. -/
structure LSum where
  /-- fact needed at the start -/
  pre : Nat
  ok0 : Option Nat
  ok1 : Option (Nat × Nat)
  fl : Option Nat
  deriving DecidableEq, Repr

/-- Parameters of the analysis: rule summaries, the rules that do not touch the stack, the rules
whose body is that of `EOL`, what predicates do, bytes known not to occur in the input, and the
predicates that never answer no. -/
structure LCfg (R P : Type) where
  sum : R → LSum
  quiet : R → Bool
  eol : R → Bool
  kind : P → LKind
  dead : CharSet
  sure : P → Bool

/-- Expressions that do not touch the stack. -/
def quietE (c : LCfg R P) : Expr R P A → Bool
  | .nt r _ => c.quiet r
  | .seq a b | .alt a b => quietE c a && quietE c b
  | .star a | .peek a | .npeek a => quietE c a
  | .pred p => c.kind p == .keep
  | .onfail a p => quietE c a && c.kind p == .keep
  | _ => true

def CharSet.sub (a b : CharSet) : Bool := a.mask &&& b.mask == a.mask

/-- A set of bytes containing newline: when it cannot be matched, no newline is next. -/
def eatsNl : Expr R P A → Bool
  | .one m => m.mem 10
  | _ => false

/-- What remains of a fact about the starting position after calling a rule. -/
def keepF (q : Bool) (f : Nat) : Nat := bif q then f else (bif f == 2 then 2 else 0)

def LRes.seq (a : LRes) (b : LRes3) : LRes :=
  let b0 := match a.ok0 with | some e => b.get e | none => ⟨none, none, none, true⟩
  let b1 := match a.ok1 with | some (e, _) => b.get e | none => ⟨none, none, none, true⟩
  let st := match a.ok1 with | some (_, st) => st | none => 2
  ⟨b0.ok0,
   joinP b0.ok1 (joinP (b1.ok0.map fun e => (e, st)) (b1.ok1.map fun x => (x.1, st))),
   joinF a.fl (joinF b0.fl (b1.fl.map fun x => (st, x.2))),
   a.safe && b0.safe && b1.safe⟩

def LRes.alt (a : LRes) (b : LRes3) : LRes :=
  match a.fl with
  | none => a
  | some (f, _) =>
    let b := b.get f
    ⟨joinO a.ok0 b.ok0, joinP a.ok1 b.ok1, b.fl, a.safe && b.safe⟩

/-- Nothing is known to end an iteration, or the fact `h` at least. -/
def geE (o : Option (Nat × Nat)) (h : Nat) : Bool := match o with
  | none => true
  | some (e, _) => h ≤ e

/-- Iterations that start with the fact `h` or better end with `h` or better. -/
def LRes3.closed (x : LRes3) (h : Nat) : Bool := match h with
  | 0 => true
  | 1 => geE x.r1.ok1 1 && geE x.r2.ok1 1
  | _ => geE x.r2.ok1 2

/-- The fact at the start of all iterations after the first. -/
def LRes3.lim (x : LRes3) (f : Nat) : Nat :=
  bif geE (x.get f).ok1 2 && x.closed 2 then 2
  else bif geE (x.get f).ok1 1 && x.closed 1 then 1
  else 0

/-- How an iteration that starts with the fact `h` or better fails. -/
def LRes3.out (x : LRes3) (h : Nat) : Option (Nat × Bool) := match h with
  | 0 => joinF x.r0.fl (joinF x.r1.fl x.r2.fl)
  | 1 => joinF x.r1.fl x.r2.fl
  | _ => x.r2.fl

def LRes.iter (r : LRes) : Bool := r.ok0.isNone && r.safe

def LRes3.iters (x : LRes3) (h : Nat) : Bool := match h with
  | 0 => x.r0.iter && x.r1.iter && x.r2.iter
  | 1 => x.r1.iter && x.r2.iter
  | _ => x.r2.iter

def LRes3.star (x : LRes3) (f : Nat) : LRes :=
  bif (x.get f).iter && x.iters (x.lim f) then
    ⟨(x.get f).fl.map (·.1),
     match (x.get f).ok1, x.out (x.lim f) with
      | some (_, st), some (f, _) => some (f, st)
      | _, _ => none,
     none, true⟩
  else .bad

def lineTr (c : LCfg R P) : Expr R P A → LRes3
  | .eps => .mk' fun f => ⟨some f, none, none, true⟩
  | .one m =>
    let nl := m.mem 10
    let dead := m.sub c.dead
    .mk' fun f => ⟨none, bif dead then none else some (0, bif nl then f else 2),
      some (bif nl then 2 else f, true), dead || !nl || f != 0⟩
  | .str l => .mk' fun f => ⟨none, some (0, 2), some (f, true), !l.contains 10 && !l.isEmpty⟩
  | .nt r _ => .mk' fun f =>
    bif c.eol r then ⟨none, some (0, 1), some (2, true), true⟩ else
    let s := c.sum r
    let k := keepF (c.quiet r) f
    ⟨s.ok0.map (max k), s.ok1.map (fun x => (x.1, max k x.2)), s.fl.map (fun x => (max k x, true)),
      s.pre ≤ f⟩
  | .seq a b =>
    let x := lineTr c a
    let y := lineTr c b
    .mk' fun f => (x.get f).seq y
  | .alt a b =>
    let x := lineTr c a
    let y := lineTr c b
    .mk' fun f => (x.get f).alt y
  | .star a =>
    let x := lineTr c a
    .mk' fun f => x.star f
  | .peek a =>
    let x := lineTr c a
    let q := quietE c a
    .mk' fun f => bif q then ⟨some f, none, some (f, false), true⟩ else
      let r := x.get f
      ⟨joinO r.ok0 (r.ok1.map (·.2)), none, r.fl, r.safe⟩
  | .npeek a =>
    let x := lineTr c a
    let q := quietE c a
    let d := eatsNl a
    .mk' fun f => bif q then ⟨some (bif d then 2 else f), none, some (f, false), true⟩ else
      let r := x.get f
      ⟨r.fl.map (·.1), none, (joinO r.ok0 (r.ok1.map (·.2))).map fun x => (x, true), r.safe⟩
  | .pred p => .mk' fun f =>
    match c.kind p with
    | .keep => ⟨some f, none, bif c.sure p then none else some (f, true), true⟩
    | .back => ⟨some (keepF false f), none,
        bif c.sure p then none else some (keepF false f, true), true⟩
    | .start => .bad
  | .act _ => .mk' fun f => ⟨some f, none, none, true⟩
  | .onfail a p =>
    let x := lineTr c a
    .mk' fun f =>
      let r := x.get f
      match c.kind p with
      | .keep => r
      | .back => { r with fl := r.fl.map (fun y => (keepF false y.1, true)),
                          safe := r.safe && (match r.fl with | some (_, b) => b | none => true) }
      | .start => .bad

/-- `a` promises at least what `b` does. -/
def leO : Option Nat → Option Nat → Bool
  | none, _ => true
  | some x, some y => y ≤ x
  | some _, none => false

def LRes.meets (r : LRes) (s : LSum) : Bool :=
  r.safe && leO r.ok0 s.ok0 && leO (r.ok1.map (·.1)) (s.ok1.map (·.1)) &&
    leO (r.ok1.map (·.2)) (s.ok1.map (·.2)) && leO (r.fl.map (·.1)) s.fl

/-- The body of `EOL`. -/
def isEolBody [DecidableEq R] [DecidableEq P] [DecidableEq A] (lineStart : R) (e : Expr R P A) :
    Bool :=
  decide (e = .seq (.alt (.chr 10) (.str [13, 10])) (.nt lineStart none))

/-- The check for one rule. -/
def lineOk [DecidableEq R] [DecidableEq P] [DecidableEq A] (c : LCfg R P) (lineStart : R)
    (G : R → RuleDef R P A) (r : R) : Bool :=
  (bif c.quiet r then quietE c (G r).body else true) &&
  (bif c.eol r then isEolBody lineStart (G r).body
   else bif decide (r = lineStart) then
     (c.sum r).pre == 3 && (match (G r).body with | .pred p => c.kind p == .start | _ => false)
   else ((lineTr c (G r).body).get (c.sum r).pre).meets (c.sum r) && (c.sum r).pre ≤ 2)

theorem LFact.mono {w : List UInt8} {k k' p : Nat} {L : List Nat} (h : LFact w k p L)
    (hk : k' ≤ k) : LFact w k' p L :=
  ⟨fun h1 => h.1 (by omega), fun h1 => h.2 (by omega)⟩

theorem LFact.two {w : List UInt8} {k p : Nat} {L L' : List Nat} (h : LFact w k p L)
    (hk : 2 ≤ k) (k' : Nat) : LFact w k' p L' :=
  ⟨fun _ h2 => absurd h2 (h.2 hk), fun _ => h.2 hk⟩

theorem LFact.zero {w : List UInt8} {p : Nat} {L : List Nat} : LFact w 0 p L :=
  ⟨fun h => by omega, fun h => by omega⟩

theorem LFact.of_ne {w : List UInt8} {k p : Nat} {L : List Nat} (h : w[p]? ≠ some 10) :
    LFact w k p L := ⟨fun _ h2 => absurd h2 h, fun _ => h⟩

theorem LFact.max {w : List UInt8} {k k' p : Nat} {L : List Nat} (h : LFact w k p L)
    (h' : LFact w k' p L) : LFact w (max k k') p L := by
  rcases Nat.le_total k k' with hk | hk
  · rw [Nat.max_eq_right hk]; exact h'
  · rw [Nat.max_eq_left hk]; exact h

theorem LFact.keepFalse {w : List UInt8} {k p : Nat} {L L' : List Nat} (h : LFact w k p L) :
    LFact w (keepF false k) p L' := by
  simp only [keepF, cond_false]
  by_cases hk : k = 2
  · subst hk; exact h.two (Nat.le_refl _) _
  · have : (k == 2) = false := by simpa using hk
    rw [this]; exact .zero

/-- A fact about `p` survives whatever happens at positions beyond `p`. -/
theorem LFact.later {w : List UInt8} {k p q : Nat} {L L' : List Nat} (h : LFact w k p L)
    (hq : p < q) (hk : ∀ x ≤ q, x ∈ L → x ∈ L') : LFact w k p L' :=
  ⟨fun h1 h2 => hk _ hq (h.1 h1 h2), h.2⟩

/-- Meaning of `LRes`. -/
def LRes.Holds (w : List UInt8) (lines : γ → List Nat) (p : Nat) (o : LRes) : Res A γ → Prop
  | .ok s => LInv w s.pos (lines s.g) ∧
      (s.pos = p → ∃ e, o.ok0 = some e ∧ LFact w e p (lines s.g)) ∧
      (p < s.pos → ∃ e st, o.ok1 = some (e, st) ∧ LFact w e s.pos (lines s.g) ∧
        LFact w st p (lines s.g))
  | .fail s => LInv w p (lines s.g) ∧ ∃ f b, o.fl = some (f, b) ∧ LFact w f p (lines s.g) ∧
      (b = true → LInv w s.pos (lines s.g))
  | .fault _ => True

theorem LRes3.get_mk' (f : Nat → LRes) {k : Nat} (hk : k ≤ 2) : (LRes3.mk' f).get k = f k := by
  rcases k with _ | _ | _ | k
  · rfl
  · rfl
  · rfl
  · omega

theorem joinO_left {a b : Option Nat} {x : Nat} (h : a = some x) :
    ∃ y, joinO a b = some y ∧ y ≤ x := by
  subst h
  cases b with
  | none => exact ⟨x, rfl, Nat.le_refl _⟩
  | some y => exact ⟨min x y, rfl, Nat.min_le_left _ _⟩

theorem joinO_right {a b : Option Nat} {x : Nat} (h : b = some x) :
    ∃ y, joinO a b = some y ∧ y ≤ x := by
  subst h
  cases a with
  | none => exact ⟨x, rfl, Nat.le_refl _⟩
  | some y => exact ⟨min y x, rfl, Nat.min_le_right _ _⟩

theorem joinP_left {a b : Option (Nat × Nat)} {x : Nat × Nat} (h : a = some x) :
    ∃ y, joinP a b = some y ∧ y.1 ≤ x.1 ∧ y.2 ≤ x.2 := by
  subst h
  cases b with
  | none => exact ⟨x, rfl, Nat.le_refl _, Nat.le_refl _⟩
  | some y => exact ⟨_, rfl, Nat.min_le_left _ _, Nat.min_le_left _ _⟩

theorem joinP_right {a b : Option (Nat × Nat)} {x : Nat × Nat} (h : b = some x) :
    ∃ y, joinP a b = some y ∧ y.1 ≤ x.1 ∧ y.2 ≤ x.2 := by
  subst h
  cases a with
  | none => exact ⟨x, rfl, Nat.le_refl _, Nat.le_refl _⟩
  | some y => exact ⟨_, rfl, Nat.min_le_right _ _, Nat.min_le_right _ _⟩

theorem joinF_left {a b : Option (Nat × Bool)} {x : Nat × Bool} (h : a = some x) :
    ∃ y, joinF a b = some y ∧ y.1 ≤ x.1 ∧ (y.2 = true → x.2 = true) := by
  subst h
  cases b with
  | none => exact ⟨x, rfl, Nat.le_refl _, id⟩
  | some y => exact ⟨_, rfl, Nat.min_le_left _ _, fun h => by simp at h; exact h.1⟩

theorem joinF_right {a b : Option (Nat × Bool)} {x : Nat × Bool} (h : b = some x) :
    ∃ y, joinF a b = some y ∧ y.1 ≤ x.1 ∧ (y.2 = true → x.2 = true) := by
  subst h
  cases a with
  | none => exact ⟨x, rfl, Nat.le_refl _, id⟩
  | some y => exact ⟨_, rfl, Nat.min_le_right _ _, fun h => by simp at h; exact h.2⟩

theorem LRes3.lim_le (x : LRes3) (f : Nat) : x.lim f ≤ 2 := by
  unfold LRes3.lim
  cases geE (x.get f).ok1 2 && x.closed 2 <;> cases geE (x.get f).ok1 1 && x.closed 1 <;> simp

theorem LRes3.lim_ok (x : LRes3) (f : Nat) : geE (x.get f).ok1 (x.lim f) = true ∧
    x.closed (x.lim f) = true := by
  unfold LRes3.lim
  cases h1 : geE (x.get f).ok1 2 && x.closed 2
  · cases h2 : geE (x.get f).ok1 1 && x.closed 1
    · refine ⟨?_, rfl⟩
      simp only [cond_false]
      unfold geE; split <;> simp
    · simpa using h2
  · simpa using h1

theorem LRes3.lim_ge (x : LRes3) (h : Nat) (hh : h ≤ 2) (hc : x.closed h = true) :
    h ≤ x.lim h := by
  rcases h with _ | _ | _ | h
  · omega
  · have hc' := hc
    simp only [LRes3.closed, Bool.and_eq_true] at hc'
    unfold LRes3.lim
    have h1 : geE (x.get 1).ok1 1 = true := hc'.1
    simp only [Nat.zero_add, h1] at hc ⊢
    rw [hc]
    cases geE (x.get 1).ok1 2 && x.closed 2 <;> simp
  · unfold LRes3.lim
    have h1 : geE (x.get 2).ok1 2 = true := hc
    simp only [Nat.zero_add, Nat.reduceAdd, h1] at hc ⊢
    rw [hc]; simp
  · omega

theorem LRes3.out_mono (x : LRes3) {h h' : Nat} (hh : h ≤ h') (h2 : h' ≤ 2) {g : Nat} {b : Bool}
    (ho : x.out h' = some (g, b)) : ∃ g' b', x.out h = some (g', b') ∧ g' ≤ g := by
  rcases h with _ | _ | _ | h <;> rcases h' with _ | _ | _ | h' <;> try omega
  · exact ⟨_, _, ho, Nat.le_refl _⟩
  · obtain ⟨y, h1, h2, -⟩ := joinF_right (a := x.r0.fl) ho
    exact ⟨y.1, y.2, h1, h2⟩
  · obtain ⟨y, h1, h2, -⟩ := joinF_right (a := x.r1.fl) ho
    obtain ⟨z, h3, h4, -⟩ := joinF_right (a := x.r0.fl) h1
    exact ⟨z.1, z.2, h3, Nat.le_trans h4 h2⟩
  · exact ⟨_, _, ho, Nat.le_refl _⟩
  · obtain ⟨y, h1, h2, -⟩ := joinF_right (a := x.r1.fl) ho
    exact ⟨y.1, y.2, h1, h2⟩
  · exact ⟨_, _, ho, Nat.le_refl _⟩

theorem LRes3.out_get (x : LRes3) {h : Nat} (h2 : h ≤ 2) {g : Nat} {b : Bool}
    (ho : (x.get h).fl = some (g, b)) : ∃ g' b', x.out h = some (g', b') ∧ g' ≤ g := by
  rcases h with _ | _ | _ | h
  · obtain ⟨y, h1, h2, -⟩ := joinF_left (b := joinF x.r1.fl x.r2.fl) ho
    exact ⟨y.1, y.2, h1, h2⟩
  · obtain ⟨y, h1, h2, -⟩ := joinF_left (b := x.r2.fl) ho
    exact ⟨y.1, y.2, h1, h2⟩
  · exact ⟨_, _, ho, Nat.le_refl _⟩
  · omega

theorem LRes3.iters_get (x : LRes3) {h h' : Nat} (hh : h ≤ h') (h2 : h' ≤ 2)
    (hi : x.iters h = true) : (x.get h').iter = true ∧ x.iters h' = true := by
  rcases h with _ | _ | _ | h <;> rcases h' with _ | _ | _ | h' <;> try omega
  all_goals simp only [LRes3.iters, LRes3.get, Nat.zero_add, Nat.reduceAdd, Bool.and_eq_true] at *
  all_goals simp_all

/-- Quiet expressions leave the stack alone. -/
theorem Eval.lines_quiet {G : R → RuleDef R P A} {H : Host P A γ} {lines : γ → List Nat}
    {c : LCfg R P} (hl : LineHost H lines c.kind)
    (hq : ∀ r, c.quiet r = true → quietE c (G r).body = true)
    {e : Expr R P A} {s : St A γ} {r : Res A γ} (h : Eval G H e s r) (he : quietE c e = true) :
    ∀ g ∈ r.g?, lines g = lines s.g := by
  induction h with
  | eps => rintro g ⟨⟩; rfl
  | @one_end m s g' hp => rintro g ⟨⟩; have := hl.peek s.pos s.g; rw [hp] at this; exact this
  | @one_no m s d g' hp _ => rintro g ⟨⟩; have := hl.peek s.pos s.g; rw [hp] at this; exact this
  | @one_ok m s d g' hp _ => rintro g ⟨⟩; have := hl.peek s.pos s.g; rw [hp] at this; exact this
  | @str_ok l s p g' h =>
    rintro g ⟨⟩; have := matchStr_lines hl (start := s.pos) l s.pos s.g; rw [h] at this; exact this
  | @str_no l s p g' h =>
    rintro g ⟨⟩; have := matchStr_lines hl (start := s.pos) l s.pos s.g; rw [h] at this; exact this
  | nt_ok _ ih =>
    rintro g ⟨⟩; have := ih (hq _ he) _ rfl; simpa using this
  | nt_no _ ih =>
    rintro g ⟨⟩; have := ih (hq _ he) _ rfl; simpa [St.restore] using this
  | nt_fault => rintro g ⟨⟩
  | seq_ok _ _ ih1 ih2 =>
    simp only [quietE, Bool.and_eq_true] at he
    intro g hg; rw [ih2 he.2 g hg, ih1 he.1 _ rfl]
  | seq_no _ ih => simp only [quietE, Bool.and_eq_true] at he; exact ih he.1
  | seq_fault => rintro g ⟨⟩
  | alt_ok _ ih => simp only [quietE, Bool.and_eq_true] at he; exact ih he.1
  | alt_no _ _ ih1 ih2 =>
    simp only [quietE, Bool.and_eq_true] at he
    intro g hg; rw [ih2 he.2 g hg]; exact ih1 he.1 _ rfl
  | alt_fault => rintro g ⟨⟩
  | star_more _ _ ih1 ih2 => intro g hg; rw [ih2 he g hg, ih1 he _ rfl]
  | star_end _ ih => rintro g ⟨⟩; exact ih he _ rfl
  | star_fault => rintro g ⟨⟩
  | peek_ok _ ih => rintro g ⟨⟩; exact ih he _ rfl
  | peek_no _ ih => exact ih he
  | peek_fault => rintro g ⟨⟩
  | npeek_ok _ ih => rintro g ⟨⟩; exact ih he _ rfl
  | npeek_no _ ih => rintro g ⟨⟩; exact ih he _ rfl
  | npeek_fault => rintro g ⟨⟩
  | pred_ok h =>
    rintro g ⟨⟩; simp only [quietE, beq_iff_eq] at he
    simp only [hl.pred _ _ _ _ _ _ h, he, LKind.apply]
  | pred_no h =>
    rintro g ⟨⟩; simp only [quietE, beq_iff_eq] at he
    simp only [hl.pred _ _ _ _ _ _ h, he, LKind.apply]
  | pred_fault => rintro g ⟨⟩
  | act => rintro g ⟨⟩; rfl
  | onfail_ok _ ih => simp only [quietE, Bool.and_eq_true] at he; exact ih he.1
  | onfail_no _ h ih =>
    simp only [quietE, Bool.and_eq_true, beq_iff_eq] at he
    rintro g ⟨⟩
    simp only [hl.pred _ _ _ _ _ _ h, he, LKind.apply]
    exact ih he.1 _ rfl
  | onfail_no_fault => rintro g ⟨⟩
  | onfail_fault => rintro g ⟨⟩

theorem sub_mem {a b : CharSet} {c : UInt8} (h : a.sub b = true) (hm : a.mem c = true) :
    b.mem c = true := by
  simp only [CharSet.sub, beq_iff_eq] at h
  simp only [CharSet.mem] at *
  rw [← h, Nat.testBit_and] at hm
  simp only [Bool.and_eq_true] at hm
  exact hm.2

theorem LInv.next {w : List UInt8} {p : Nat} {L : List Nat} (h : LInv w p L)
    (hf : w[p]? = some 10 → p + 1 ∈ L) : LInv w (p + 1) L := by
  refine ⟨h.sorted, h.sound, h.zero, fun q hq hle => ?_⟩
  rcases Nat.lt_or_eq_of_le hle with h1 | h1
  · exact h.complete q hq (by omega)
  · subst h1
    rcases hq with h2 | ⟨p', h2, h3⟩
    · omega
    · have : p' = p := by omega
      subst this
      exact hf h3

/-- Advancing over bytes that are not newlines. -/
theorem LInv.advance {w : List UInt8} {p q : Nat} {L : List Nat} (h : LInv w p L) (hpq : p ≤ q)
    (hn : ∀ i, p ≤ i → i < q → w[i]? ≠ some 10) : LInv w q L := by
  obtain ⟨d, rfl⟩ := Nat.exists_eq_add_of_le hpq
  induction d with
  | zero => exact h
  | succ d ih =>
    have h1 := ih (by omega) (fun i h2 h3 => hn i h2 (by omega))
    exact h1.next (fun h2 => absurd h2 (hn (p + d) (by omega) (by omega)))

theorem extract_get {w l : List UInt8} {p i : Nat} (h : w.extract p (p + l.length) = l)
    (h2 : i < l.length) : w[p + i]? = l[i]? := by
  conv => rhs; rw [← h]
  rw [List.extract_eq_take_drop, List.getElem?_take, if_pos (by omega), List.getElem?_drop]

theorem single_mem (a c : UInt8) : (CharSet.single a).mem c = decide (c = a) := by
  simp only [CharSet.mem, CharSet.single, Nat.testBit_two_pow]
  congr 1
  exact propext ⟨fun h => (UInt8.toNat_inj.1 h).symm, fun h => by rw [h]⟩

theorem extract_no_nl {w l : List UInt8} {p i : Nat} (h : w.extract p (p + l.length) = l)
    (hc : l.contains 10 = false) (h1 : p ≤ i) (h2 : i < p + l.length) : w[i]? ≠ some 10 := by
  intro hw
  have h3 : l[i - p]? = some 10 := by
    rw [← h, List.extract_eq_take_drop, List.getElem?_take]
    rw [if_pos (by omega), List.getElem?_drop, ← hw]
    congr 1
    omega
  have := List.mem_of_getElem? h3
  simp at hc
  exact hc this

/-- Positions reached while matching a literal: only bytes of the literal were passed. -/
theorem matchStr_prefix {H : Host P A γ} {w : List UInt8} {I : Nat → γ → Prop}
    (hr : ReadsAs H w I) {start : Nat} : ∀ (l : List UInt8) (p : Nat) (g : γ), start ≤ p → I p g →
    ∀ {b q g'}, matchStr H start l p g = (b, q, g') →
      q = start ∨ ∃ k, (b = false → k < l.length) ∧ k ≤ l.length ∧ q = p + k ∧
        ∀ i < k, w[p + i]? = l[i]? := by
  intro l
  induction l with
  | nil =>
    intro p g hs hi b q g' h
    simp only [matchStr, Prod.mk.injEq] at h
    obtain ⟨rfl, rfl, rfl⟩ := h
    exact Or.inr ⟨0, by simp, by simp, rfl, fun i h => by omega⟩
  | cons c cs ih =>
    intro p g hs hi b q g' h
    simp only [matchStr] at h
    have hv := hr.val hi
    split at h
    · simp only [Prod.mk.injEq] at h
      obtain ⟨rfl, rfl, rfl⟩ := h
      exact Or.inr ⟨0, by simp, by simp, rfl, fun i h => by omega⟩
    · rename_i d g1 hp
      rw [hp] at hv
      simp only at hv
      have hlt : p < w.length := by
        by_contra hlt
        rw [List.getElem?_eq_none (by omega)] at hv
        simp at hv
      split at h
      · rename_i hdc
        have hn := hr.next hi hlt
        rw [hp] at hn
        rcases ih (p + 1) g1 (by omega) hn h with h1 | ⟨k, h1, h2, h3, h4⟩
        · exact Or.inl h1
        · refine Or.inr ⟨k + 1, fun hb => by have := h1 hb; simp; omega, by simp; omega, by omega,
            fun i hik => ?_⟩
          cases i with
          | zero => simp [← hv, hdc]
          | succ i =>
            have := h4 i (by omega)
            rw [List.getElem?_cons_succ, ← this]
            congr 1; omega
      · simp only [Prod.mk.injEq] at h
        obtain ⟨rfl, rfl, rfl⟩ := h
        exact Or.inl rfl

/-- What matching `'\n' | '\r\n'` gives. -/
def EolFirst (w : List UInt8) (lines : γ → List Nat) (s : St A γ) : Res A γ → Prop
  | .ok s1 => lines s1.g = lines s.g ∧
      ((s1.pos = s.pos + 1 ∧ w[s.pos]? = some 10) ∨
       (s1.pos = s.pos + 2 ∧ w[s.pos]? = some 13 ∧ w[s.pos + 1]? = some 10))
  | .fail s1 => lines s1.g = lines s.g ∧ w[s.pos]? ≠ some 10 ∧ LInv w s1.pos (lines s1.g)
  | .fault _ => True

/-- Evaluating `EOL`. -/
theorem eol_holds {G : R → RuleDef R P A} {H : Host P A γ} {w : List UInt8}
    {I : Nat → γ → Prop} (hr : ReadsAs H w I) {lines : γ → List Nat} {c : LCfg R P}
    (hl : LineHost H lines c.kind) {ls : R} {pl : P} (hls : (G ls).body = .pred pl)
    (hk : c.kind pl = .start)
    {s : St A γ} {r : Res A γ}
    (h : Eval G H (.seq (.alt (.chr 10) (.str [13, 10])) (.nt ls none)) s r)
    (hi : I s.pos s.g) (hinv : LInv w s.pos (lines s.g)) :
    LRes.Holds w lines s.pos ⟨none, some (0, 1), some (2, true), true⟩ r := by
  -- the first part
  have first : ∀ r1, Eval G H (.alt (.chr 10) (.str [13, 10])) s r1 → EolFirst w lines s r1 := by
    intro r1 h1
    have hone : ∀ c : UInt8, (CharSet.single 10).mem c = true → c = 10 := by
      intro c h; rw [single_mem] at h; simpa using h
    have hone' : ∀ c : UInt8, (CharSet.single 10).mem c = false → c ≠ 10 := by
      intro c h; rw [single_mem] at h; simpa using h
    have str : ∀ s1 : St A γ, s1.pos = s.pos → lines s1.g = lines s.g → I s.pos s1.g →
        w[s.pos]? ≠ some 10 → Eval G H (.str [13, 10]) s1 r1 → EolFirst w lines s r1 := by
      intro s1 hp hls1 hi1 hne h2
      cases h2 with
      | @str_ok _ _ p g' hm =>
        obtain ⟨-, h3, -⟩ := matchStr_inv hr _ s1.pos s1.g (Nat.le_refl _) (hp ▸ hi1) hm
        obtain ⟨h4, h5⟩ := h3 rfl
        have hlin := matchStr_lines hl (start := s1.pos) [13, 10] s1.pos s1.g
        rw [hm] at hlin
        refine ⟨hlin.trans hls1, Or.inr ⟨by simp only [h4, hp]; rfl, ?_, ?_⟩⟩
        · rw [← hp]; exact extract_get (i := 0) h5 (by simp)
        · rw [← hp]; exact extract_get (i := 1) h5 (by simp)
      | @str_no _ _ p g' hm =>
        have hlin := matchStr_lines hl (start := s1.pos) [13, 10] s1.pos s1.g
        rw [hm] at hlin
        have h3 := matchStr_prefix hr _ s1.pos s1.g (Nat.le_refl _) (hp ▸ hi1) hm
        refine ⟨hlin.trans hls1, hne, ?_⟩
        simp only at hlin ⊢
        rw [hlin, hls1]
        rcases h3 with h3 | ⟨k, h3, -, h5, h6⟩
        · rw [h3, hp]; exact hinv
        · -- the input ended inside the literal: at most the first byte was passed
          rw [hp] at h5 h6
          have hk1 := h3 rfl
          simp at hk1
          refine hinv.advance (by omega) (fun i h7 h8 h9 => ?_)
          have : i = s.pos := by omega
          subst this
          exact hne h9
    cases h1 with
    | alt_ok h2 =>
      cases h2 with
      | @one_ok _ _ c g' hp hm =>
        have hv := hr.val hi
        rw [hp] at hv
        have hpk := hl.peek s.pos s.g
        rw [hp] at hpk
        refine ⟨hpk, Or.inl ⟨rfl, ?_⟩⟩
        rw [← hv, hone c hm]
    | @alt_no _ _ _ s1 _ h2 h3 =>
      cases h2 with
      | @one_end _ _ g' hp =>
        have hv := hr.val hi
        have hkp := hr.keep hi
        have hpk := hl.peek s.pos s.g
        rw [hp] at hv hkp hpk
        refine str ⟨s.pos, s.thunks, g'⟩ rfl hpk hkp ?_ h3
        rw [← hv]; simp
      | @one_no _ _ c g' hp hm =>
        have hv := hr.val hi
        have hkp := hr.keep hi
        have hpk := hl.peek s.pos s.g
        rw [hp] at hv hkp hpk
        refine str ⟨s.pos, s.thunks, g'⟩ rfl hpk hkp ?_ h3
        rw [← hv]; simpa using hone' c hm
    | alt_fault h2 => trivial
  cases h with
  | @seq_ok _ _ _ s1 _ h1 h2 =>
    obtain ⟨hlin, hcase⟩ := first _ h1
    cases h2 with
    | @nt_ok _ _ _ s2 h3 =>
      rw [hls] at h3
      cases h3 with
      | @pred_ok _ _ g' ts hp =>
        have hpl := hl.pred _ _ _ _ _ _ hp
        rw [hk] at hpl
        simp only [St.enter_g, St.enter_pos, LKind.apply, hlin] at hpl
        have hLI : LInv w s1.pos (lineStartL s1.pos (lines s.g)) := by
          rcases hcase with ⟨h4, h5⟩ | ⟨h4, h5, h6⟩
          · rw [h4]
            exact hinv.lineStart (by omega) (Or.inr ⟨_, rfl, h5⟩) (fun q h1 h2 => by omega)
          · rw [h4]
            refine hinv.lineStart (by omega) (Or.inr ⟨_, rfl, h6⟩) (fun q h1 h2 => ?_)
            have : q = s.pos + 1 := by omega
            subst this
            rintro (h7 | ⟨p', h7, h8⟩)
            · omega
            · have : p' = s.pos := by omega
              subst this
              rw [h5] at h8; simp at h8
        refine ⟨?_, fun h => ?_, fun _ => ⟨0, 1, rfl, .zero, ?_⟩⟩
        · simp only [St.leave_pos, St.leave_g, St.enter_pos, hpl]; exact hLI
        · simp only [St.leave_pos, St.enter_pos] at h; omega
        · simp only [St.leave_g, hpl]
          rcases hcase with ⟨h4, h5⟩ | ⟨h4, h5, h6⟩
          · refine ⟨fun _ _ => ?_, fun h => by omega⟩
            exact hLI.complete _ (Or.inr ⟨_, rfl, h5⟩) (by omega)
          · exact LFact.of_ne (by rw [h5]; simp)
    | @nt_no _ _ _ s2 h3 =>
      rw [hls] at h3
      cases h3 with
      | @pred_no _ _ g' ts hp =>
        have := hl.start _ _ _ _ _ _ hk hp
        simp at this
    | nt_fault => trivial
  | @seq_no _ _ _ s1 h1 =>
    obtain ⟨hlin, hne, hI⟩ := first _ h1
    exact ⟨by simp only [hlin]; exact hinv, 2, true, rfl, LFact.of_ne hne, fun _ => hI⟩
  | seq_fault => trivial


theorem LInv.of_quiet {w : List UInt8} {p : Nat} {L L' : List Nat} (h : LInv w p L) (he : L' = L) :
    LInv w p L' := he ▸ h

/-- Soundness of the analysis. -/
theorem Eval.lines {G : R → RuleDef R P A} {H : Host P A γ} {w : List UInt8}
    [DecidableEq R] [DecidableEq P] [DecidableEq A]
    {I : Nat → γ → Prop} (hr : ReadsAs H w I) {lines : γ → List Nat} {c : LCfg R P}
    (hl : LineHost H lines c.kind) {ls : R} (hG : ∀ r, lineOk c ls G r = true)
    (hls : c.eol ls = false)
    (hdead : ∀ x ∈ w, c.dead.mem x = false)
    (hsure : ∀ x p g b g' ts, c.sure x = true → H.pred x p g = .ok (b, g', ts) → b = true)
    {e : Expr R P A} {s : St A γ} {r : Res A γ} (h : Eval G H e s r)
    (hi : I s.pos s.g) (hinv : LInv w s.pos (lines s.g)) :
    ∀ f ≤ 2, LFact w f s.pos (lines s.g) → ((lineTr c e).get f).safe = true →
      LRes.Holds w lines s.pos ((lineTr c e).get f) r := by
  have hq : ∀ r, c.quiet r = true → quietE c (G r).body = true := by
    intro r h
    have := hG r
    simp only [lineOk, h, cond_true, Bool.and_eq_true] at this
    exact this.1
  induction h with
  | @eps s =>
    intro f hf hfact _
    rw [lineTr, LRes3.get_mk' _ hf]
    exact ⟨hinv, fun _ => ⟨f, rfl, hfact⟩, fun h => absurd h (Nat.lt_irrefl _)⟩
  | @one_end m s g' hp =>
    intro f hf hfact _
    rw [lineTr, LRes3.get_mk' _ hf]
    have hpk := hl.peek s.pos s.g
    have hv := hr.val hi
    rw [hp] at hpk hv
    simp only at hpk hv
    have hne : w[s.pos]? ≠ some 10 := by rw [← hv]; simp
    exact ⟨by simp only [hpk]; exact hinv, _, true, rfl, .of_ne hne, fun _ => by simp only [hpk]; exact hinv⟩
  | @one_no m s d g' hp hm =>
    intro f hf hfact _
    rw [lineTr, LRes3.get_mk' _ hf]
    have hpk := hl.peek s.pos s.g
    have hv := hr.val hi
    rw [hp] at hpk hv
    simp only at hpk hv
    refine ⟨by simp only [hpk]; exact hinv, _, true, rfl, ?_, fun _ => by simp only [hpk]; exact hinv⟩
    cases hnl : m.mem 10 with
    | true =>
      refine LFact.of_ne ?_
      rw [← hv]
      intro h
      rw [Option.some.injEq] at h
      rw [h, hnl] at hm; simp at hm
    | false => simp only [cond_false, hpk]; exact hfact
  | @one_ok m s d g' hp hm =>
    intro f hf hfact hsafe
    rw [lineTr, LRes3.get_mk' _ hf] at hsafe ⊢
    have hpk := hl.peek s.pos s.g
    have hv := hr.val hi
    rw [hp] at hpk hv
    simp only at hpk hv hsafe
    have hdd : m.sub c.dead = false := by
      by_contra hd
      simp only [Bool.not_eq_false] at hd
      have h1 := sub_mem hd hm
      have := hdead d (List.mem_of_getElem? hv.symm)
      rw [h1] at this; simp at this
    rw [hdd] at hsafe ⊢
    simp only [Bool.false_or, Bool.or_eq_true, Bool.not_eq_true', bne_iff_ne, ne_eq] at hsafe
    have hnext : w[s.pos]? = some 10 → s.pos + 1 ∈ lines s.g := by
      intro h10
      rcases hsafe with h1 | h1
      · rw [h10, Option.some.injEq] at hv
        rw [hv, h1] at hm; simp at hm
      · exact hfact.1 (by omega) h10
    refine ⟨by simp only [hpk]; exact hinv.next hnext, fun h => by simp at h, fun _ =>
      ⟨0, _, rfl, .zero, ?_⟩⟩
    simp only [hpk]
    cases hnl : m.mem 10 with
    | true => exact hfact
    | false =>
      refine LFact.of_ne ?_
      rw [← hv]
      intro h
      rw [Option.some.injEq] at h
      rw [h, hnl] at hm; simp at hm
  | @str_ok l s p g' h =>
    intro f hf hfact hsafe
    rw [lineTr, LRes3.get_mk' _ hf] at hsafe ⊢
    simp only [Bool.and_eq_true, Bool.not_eq_true', List.isEmpty_eq_false_iff] at hsafe
    obtain ⟨h1, h2, -⟩ := matchStr_inv hr l s.pos s.g (Nat.le_refl _) hi h
    obtain ⟨rfl, h3⟩ := h2 rfl
    have hlin := matchStr_lines hl (start := s.pos) l s.pos s.g
    rw [h] at hlin
    simp only at hlin
    have hpos : 0 < l.length := List.length_pos_iff.2 hsafe.2
    refine ⟨?_, fun h => by simp only at h; omega, fun _ => ⟨0, 2, rfl, .zero, LFact.of_ne ?_⟩⟩
    · simp only [hlin]
      exact hinv.advance (by omega) (fun i h4 h5 => extract_no_nl h3 hsafe.1 h4 h5)
    · exact extract_no_nl h3 hsafe.1 (Nat.le_refl _) (by omega)
  | @str_no l s p g' h =>
    intro f hf hfact hsafe
    rw [lineTr, LRes3.get_mk' _ hf] at hsafe ⊢
    simp only [Bool.and_eq_true, Bool.not_eq_true', List.isEmpty_eq_false_iff] at hsafe
    have hlin := matchStr_lines hl (start := s.pos) l s.pos s.g
    rw [h] at hlin
    simp only at hlin
    refine ⟨by simp only [hlin]; exact hinv, f, true, rfl, by simp only [hlin]; exact hfact,
      fun _ => ?_⟩
    simp only [hlin]
    rcases matchStr_prefix hr l s.pos s.g (Nat.le_refl _) hi h with rfl | ⟨k, -, h2, rfl, h4⟩
    · exact hinv
    · refine hinv.advance (by omega) (fun i h5 h6 h7 => ?_)
      have := h4 (i - s.pos) (by omega)
      rw [show s.pos + (i - s.pos) = i by omega, h7] at this
      have := List.mem_of_getElem? this.symm
      have hc := hsafe.1
      simp at hc
      exact hc this
  | @nt_ok r var s s1 hev ih =>
    intro f hf hfact hsafe
    rw [lineTr, LRes3.get_mk' _ hf] at hsafe ⊢
    cases heol : c.eol r with
    | true =>
      have hok := hG r
      simp only [lineOk, heol, cond_true, Bool.and_eq_true, isEolBody, decide_eq_true_eq] at hok
      have hlsok := hG ls
      simp only [lineOk, hls, cond_false, decide_true, cond_true, Bool.and_eq_true] at hlsok
      obtain ⟨-, -, hp⟩ := hlsok
      split at hp
      · rename_i pl hbody
        rw [hok.2] at hev
        have := eol_holds hr hl hbody (by simpa using hp) hev (by simpa using hi)
          (by simpa using hinv)
        simp only [cond_true]
        simpa [LRes.Holds] using this
      · simp at hp
    | false =>
      rw [heol] at hsafe
      simp only [cond_false, decide_eq_true_eq] at hsafe ⊢
      have hok := hG r
      simp only [lineOk, heol, cond_false, Bool.and_eq_true] at hok
      have hne : r ≠ ls := by
        rintro rfl
        simp only [decide_true, cond_true, Bool.and_eq_true, beq_iff_eq] at hok
        omega
      simp only [hne, decide_false, cond_false, Bool.and_eq_true, decide_eq_true_eq] at hok
      obtain ⟨-, hmeets, hpre⟩ := hok
      simp only [LRes.meets, Bool.and_eq_true] at hmeets
      obtain ⟨⟨⟨⟨m1, m2⟩, m3⟩, m4⟩, m5⟩ := hmeets
      have hfact' : LFact w (c.sum r).pre (s.enter (G r).nvars).pos
          (lines (s.enter (G r).nvars).g) := by
        simpa using hfact.mono hsafe
      have hH := ih (by simpa using hi) (by simpa using hinv) _ hpre hfact' m1
      simp only [LRes.Holds, St.enter_pos] at hH
      obtain ⟨i1, i2, i3⟩ := hH
      -- the fact about the start that survives
      have hkeep : LFact w (keepF (c.quiet r) f) s.pos (lines s1.g) := by
        cases hqr : c.quiet r with
        | true =>
          have := hev.lines_quiet hl hq (hq r hqr) _ rfl
          simp only [St.enter_g] at this
          simp only [keepF, cond_true, this]; exact hfact
        | false => exact hfact.keepFalse
      refine ⟨by simpa using i1, fun h => ?_, fun h => ?_⟩
      · simp only [St.leave_pos] at h
        obtain ⟨e, h1, h2⟩ := i2 h
        rw [h1] at m2
        simp only [St.leave_g]
        cases hs0 : (c.sum r).ok0 with
        | none => rw [hs0] at m2; simp [leO] at m2
        | some x =>
          rw [hs0] at m2
          simp only [leO, decide_eq_true_eq] at m2
          exact ⟨_, rfl, hkeep.max (h2.mono m2)⟩
      · simp only [St.leave_pos] at h
        obtain ⟨e, st, h1, h2, h3⟩ := i3 h
        rw [h1] at m3 m4
        simp only [St.leave_g, St.leave_pos]
        cases hs1 : (c.sum r).ok1 with
        | none => rw [hs1] at m3; simp [leO] at m3
        | some x =>
          rw [hs1] at m3 m4
          simp only [leO, decide_eq_true_eq, Option.map_some] at m3 m4
          exact ⟨_, _, rfl, h2.mono m3, hkeep.max (h3.mono m4)⟩
  | @nt_no r var s s1 hev ih =>
    intro f hf hfact hsafe
    rw [lineTr, LRes3.get_mk' _ hf] at hsafe ⊢
    cases heol : c.eol r with
    | true =>
      have hok := hG r
      simp only [lineOk, heol, cond_true, Bool.and_eq_true, isEolBody, decide_eq_true_eq] at hok
      have hlsok := hG ls
      simp only [lineOk, hls, cond_false, decide_true, cond_true, Bool.and_eq_true] at hlsok
      obtain ⟨-, -, hp⟩ := hlsok
      split at hp
      · rename_i pl hbody
        rw [hok.2] at hev
        have := eol_holds hr hl hbody (by simpa using hp) hev (by simpa using hi)
          (by simpa using hinv)
        simp only [LRes.Holds, St.enter_pos] at this
        obtain ⟨h1, f1, b1, h2, h3, -⟩ := this
        simp only [cond_true]
        exact ⟨h1, f1, b1, h2, h3, fun _ => h1⟩
      · simp at hp
    | false =>
      rw [heol] at hsafe
      simp only [cond_false, decide_eq_true_eq] at hsafe ⊢
      have hok := hG r
      simp only [lineOk, heol, cond_false, Bool.and_eq_true] at hok
      have hne : r ≠ ls := by
        rintro rfl
        simp only [decide_true, cond_true, Bool.and_eq_true, beq_iff_eq] at hok
        omega
      simp only [hne, decide_false, cond_false, Bool.and_eq_true, decide_eq_true_eq] at hok
      obtain ⟨-, hmeets, hpre⟩ := hok
      simp only [LRes.meets, Bool.and_eq_true] at hmeets
      obtain ⟨⟨⟨⟨m1, m2⟩, m3⟩, m4⟩, m5⟩ := hmeets
      have hfact' : LFact w (c.sum r).pre (s.enter (G r).nvars).pos
          (lines (s.enter (G r).nvars).g) := by
        simpa using hfact.mono hsafe
      have hH := ih (by simpa using hi) (by simpa using hinv) _ hpre hfact' m1
      simp only [LRes.Holds, St.enter_pos] at hH
      obtain ⟨i1, f1, b1, i2, i3, -⟩ := hH
      have hkeep : LFact w (keepF (c.quiet r) f) s.pos (lines s1.g) := by
        cases hqr : c.quiet r with
        | true =>
          have := hev.lines_quiet hl hq (hq r hqr) _ rfl
          simp only [St.enter_g] at this
          simp only [keepF, cond_true, this]; exact hfact
        | false => exact hfact.keepFalse
      rw [i2] at m5
      cases hsf : (c.sum r).fl with
      | none => rw [hsf] at m5; simp [leO] at m5
      | some x =>
        rw [hsf] at m5
        simp only [leO, decide_eq_true_eq, Option.map_some] at m5
        exact ⟨i1, _, _, rfl, hkeep.max (i3.mono m5), fun _ => i1⟩
  | nt_fault => intro f _ _ _; trivial
  | @seq_ok a b s s1 r hev1 hev2 ih1 ih2 =>
    intro f hf hfact hsafe
    have hgd := hev1.good hr hi
    have hgd2 := hev2.good hr hgd.2
    have hkeep := hev2.lines_keep hr hl hgd.2
    rw [lineTr, LRes3.get_mk' _ hf] at hsafe ⊢
    simp only [LRes.seq, Bool.and_eq_true] at hsafe
    obtain ⟨⟨hs1, hs2⟩, hs3⟩ := hsafe
    obtain ⟨j1, j2, j3⟩ := ih1 hi hinv f hf hfact hs1
    rcases Nat.lt_or_eq_of_le hgd.1 with hlt | heq
    · obtain ⟨e, st, k1, k2, k3⟩ := j3 hlt
      rw [k1] at hs3
      simp only at hs3
      have he2 : (lineTr c b).get e = (lineTr c b).get (min e 2) := by
        rcases e with _ | _ | _ | e <;> rfl
      rw [he2] at hs3
      have hH := ih2 hgd.2 j1 (min e 2) (by omega) (k2.mono (by omega)) hs3
      rw [← he2] at hH
      cases r with
      | ok s2 =>
        obtain ⟨l1, l2, l3⟩ := hH
        have hst : LFact w st s.pos (lines s2.g) := k3.later hlt (hkeep _ rfl)
        refine ⟨l1, fun h => by have := hgd2.1; omega, fun _ => ?_⟩
        rcases Nat.lt_or_eq_of_le hgd2.1 with hlt2 | heq2
        · obtain ⟨e', st', n1, n2, n3⟩ := l3 hlt2
          obtain ⟨y, y1, y2, y3⟩ := joinP_right (a := (match (((lineTr c a).get f).ok0) with | some e => (lineTr c b).get e | none => ⟨none, none, none, true⟩ : LRes).ok1)
            (b := joinP (((lineTr c b).get e).ok0.map fun e => (e, st)) (((lineTr c b).get e).ok1.map fun x => (x.1, st)))
            (x := _) (joinP_right (x := (e', st)) (by rw [n1]; rfl)).choose_spec.1
          have hz := (joinP_right (a := ((lineTr c b).get e).ok0.map fun e => (e, st)) (b := ((lineTr c b).get e).ok1.map fun x => (x.1, st)) (x := (e', st)) (by rw [n1]; rfl)).choose_spec.2
          refine ⟨y.1, y.2, ?_, n2.mono (Nat.le_trans y2 hz.1), hst.mono (Nat.le_trans y3 hz.2)⟩
          simp only [LRes.seq, k1]
          exact y1
        · obtain ⟨e', n1, n2⟩ := l2 heq2.symm
          have hj := joinP_left (a := ((lineTr c b).get e).ok0.map fun e => (e, st)) (b := ((lineTr c b).get e).ok1.map fun x => (x.1, st)) (x := (e', st)) (by rw [n1]; rfl)
          obtain ⟨z, z1, z2, z3⟩ := hj
          obtain ⟨y, y1, y2, y3⟩ := joinP_right (a := (match (((lineTr c a).get f).ok0) with | some e => (lineTr c b).get e | none => ⟨none, none, none, true⟩ : LRes).ok1) z1
          refine ⟨y.1, y.2, ?_, ?_, hst.mono (Nat.le_trans y3 z3)⟩
          · simp only [LRes.seq, k1]
            exact y1
          · rw [← heq2]; exact n2.mono (Nat.le_trans y2 z2)
      | fail s2 =>
        obtain ⟨l1, f', b', l2, l3, l4⟩ := hH
        have hst : LFact w st s.pos (lines s2.g) := k3.later hlt (hkeep _ rfl)
        have hj := joinF_right (a := (match (((lineTr c a).get f).ok0) with | some e => (lineTr c b).get e | none => ⟨none, none, none, true⟩ : LRes).fl) (b := ((lineTr c b).get e).fl.map fun x => (st, x.2)) (x := (st, b')) (by rw [l2]; rfl)
        obtain ⟨z, z1, z2, z3⟩ := hj
        obtain ⟨y, y1, y2, y3⟩ := joinF_right (a := ((lineTr c a).get f).fl) z1
        refine ⟨l1.down (Nat.le_of_lt hlt), y.1, y.2, ?_, hst.mono (Nat.le_trans y2 z2),
          fun h => l4 (z3 (y3 h))⟩
        simp only [LRes.seq, k1]
        exact y1
      | fault => trivial
    · obtain ⟨e, k1, k2⟩ := j2 heq.symm
      rw [k1] at hs2
      simp only at hs2
      have he2 : (lineTr c b).get e = (lineTr c b).get (min e 2) := by
        rcases e with _ | _ | _ | e <;> rfl
      rw [he2] at hs2
      rw [heq] at k2
      have hH := ih2 hgd.2 j1 (min e 2) (by omega) (k2.mono (by omega)) hs2
      rw [← he2, ← heq] at hH
      cases r with
      | ok s2 =>
        obtain ⟨l1, l2, l3⟩ := hH
        refine ⟨l1, fun h => ?_, fun h => ?_⟩
        · obtain ⟨e', n1, n2⟩ := l2 h
          exact ⟨e', by simp only [LRes.seq, k1]; exact n1, n2⟩
        · obtain ⟨e', st', n1, n2, n3⟩ := l3 h
          obtain ⟨y, y1, y2, y3⟩ := joinP_left (b := joinP ((match ((lineTr c a).get f).ok1 with | some (e, _) => (lineTr c b).get e | none => ⟨none, none, none, true⟩ : LRes).ok0.map fun e => (e, (match ((lineTr c a).get f).ok1 with | some (_, st) => st | none => 2 : Nat))) ((match ((lineTr c a).get f).ok1 with | some (e, _) => (lineTr c b).get e | none => ⟨none, none, none, true⟩ : LRes).ok1.map fun x => (x.1, (match ((lineTr c a).get f).ok1 with | some (_, st) => st | none => 2 : Nat)))) n1
          refine ⟨y.1, y.2, ?_, n2.mono y2, n3.mono y3⟩
          simp only [LRes.seq, k1]
          exact y1
      | fail s2 =>
        obtain ⟨l1, f', b', l2, l3, l4⟩ := hH
        have hj := joinF_left (b := (match ((lineTr c a).get f).ok1 with | some (e, _) => (lineTr c b).get e | none => ⟨none, none, none, true⟩ : LRes).fl.map fun x => ((match ((lineTr c a).get f).ok1 with | some (_, st) => st | none => 2 : Nat), x.2)) l2
        obtain ⟨z, z1, z2, z3⟩ := hj
        obtain ⟨y, y1, y2, y3⟩ := joinF_right (a := ((lineTr c a).get f).fl) z1
        refine ⟨l1, y.1, y.2, ?_, l3.mono (Nat.le_trans y2 z2), fun h => l4 (z3 (y3 h))⟩
        simp only [LRes.seq, k1]
        exact y1
      | fault => trivial
  | @seq_no a b s s1 hev ih =>
    intro f hf hfact hsafe
    rw [lineTr, LRes3.get_mk' _ hf] at hsafe ⊢
    simp only [LRes.seq, Bool.and_eq_true] at hsafe
    obtain ⟨l1, f', b', l2, l3, l4⟩ := ih hi hinv f hf hfact hsafe.1.1
    simp only [LRes.seq]
    obtain ⟨y, y1, y2, y3⟩ := joinF_left (b := joinF ((match ((lineTr c a).get f).ok0 with | some e => (lineTr c b).get e | none => ⟨none, none, none, true⟩ : LRes).fl) ((match ((lineTr c a).get f).ok1 with | some (e, _) => (lineTr c b).get e | none => ⟨none, none, none, true⟩ : LRes).fl.map fun x => ((match ((lineTr c a).get f).ok1 with | some (_, st) => st | none => 2 : Nat), x.2))) l2
    exact ⟨l1, y.1, y.2, y1, l3.mono y2, fun h => l4 (y3 h)⟩
  | seq_fault => intro f _ _ _; trivial
  | @alt_ok a b s s1 hev ih =>
    intro f hf hfact hsafe
    rw [lineTr, LRes3.get_mk' _ hf] at hsafe ⊢
    have hs1 : ((lineTr c a).get f).safe = true := by
      simp only [LRes.alt] at hsafe
      split at hsafe
      · exact hsafe
      · simp only [Bool.and_eq_true] at hsafe; exact hsafe.1
    obtain ⟨l1, l2, l3⟩ := ih hi hinv f hf hfact hs1
    refine ⟨l1, fun h => ?_, fun h => ?_⟩
    · obtain ⟨e, n1, n2⟩ := l2 h
      simp only [LRes.alt]
      split
      · exact ⟨e, n1, n2⟩
      · obtain ⟨y, y1, y2⟩ := joinO_left n1
        exact ⟨y, y1, n2.mono y2⟩
    · obtain ⟨e, st, n1, n2, n3⟩ := l3 h
      simp only [LRes.alt]
      split
      · exact ⟨e, st, n1, n2, n3⟩
      · obtain ⟨y, y1, y2, y3⟩ := joinP_left n1
        exact ⟨y.1, y.2, y1, n2.mono y2, n3.mono y3⟩
  | @alt_no a b s s1 r hev1 hev2 ih1 ih2 =>
    intro f hf hfact hsafe
    have hgd := hev1.good hr hi
    rw [lineTr, LRes3.get_mk' _ hf] at hsafe ⊢
    have hs1 : ((lineTr c a).get f).safe = true := by
      simp only [LRes.alt] at hsafe
      split at hsafe
      · exact hsafe
      · simp only [Bool.and_eq_true] at hsafe; exact hsafe.1
    obtain ⟨l1, f', b', l2, l3, l4⟩ := ih1 hi hinv f hf hfact hs1
    simp only [LRes.alt, l2, Bool.and_eq_true] at hsafe ⊢
    have he2 : (lineTr c b).get f' = (lineTr c b).get (min f' 2) := by
      rcases f' with _ | _ | _ | f' <;> rfl
    have hs2 := hsafe.2
    rw [he2] at hs2
    have hH := ih2 (hr.down hgd.2 hgd.1) l1 (min f' 2) (by omega) (l3.mono (by omega)) hs2
    rw [← he2] at hH
    simp only [St.restore] at hH
    cases r with
    | ok s2 =>
      obtain ⟨k1, k2, k3⟩ := hH
      refine ⟨k1, fun h => ?_, fun h => ?_⟩
      · obtain ⟨e, n1, n2⟩ := k2 h
        obtain ⟨y, y1, y2⟩ := joinO_right n1
        exact ⟨y, y1, n2.mono y2⟩
      · obtain ⟨e, st, n1, n2, n3⟩ := k3 h
        obtain ⟨y, y1, y2, y3⟩ := joinP_right n1
        exact ⟨y.1, y.2, y1, n2.mono y2, n3.mono y3⟩
    | fail s2 => exact hH
    | fault => trivial
  | alt_fault => intro f _ _ _; trivial
  | @star_more a s s1 r hev1 hev2 ih1 ih2 =>
    intro f hf hfact hsafe
    have hgd := hev1.good hr hi
    have hgd2 := hev2.good hr hgd.2
    have hkeep := hev2.lines_keep hr hl hgd.2
    rw [lineTr, LRes3.get_mk' _ hf] at hsafe ⊢
    generalize hx : lineTr c a = x at *
    have hcond : ((x.get f).iter && x.iters (x.lim f)) = true := by
      cases hc : (x.get f).iter && x.iters (x.lim f) with
      | true => rfl
      | false => simp [LRes3.star, hc, LRes.bad] at hsafe
    simp only [LRes3.star, hcond, cond_true]
    rw [Bool.and_eq_true] at hcond
    have hit : (x.get f).ok0.isNone = true ∧ (x.get f).safe = true := by
      simpa [LRes.iter] using hcond.1
    obtain ⟨j1, j2, j3⟩ := ih1 hi hinv f hf hfact hit.2
    rcases Nat.lt_or_eq_of_le hgd.1 with hlt | heq
    · obtain ⟨e, st, k1, k2, k3⟩ := j3 hlt
      obtain ⟨hge, hcl⟩ := x.lim_ok f
      have hle := x.lim_le f
      have hlim := x.lim_ge _ hle hcl
      have hle2 := x.lim_le (x.lim f)
      have hhe : x.lim f ≤ e := by rw [k1] at hge; simpa [geE] using hge
      have hi1 := x.iters_get (Nat.le_refl _) hle hcond.2
      have hi2 := x.iters_get hlim hle2 hcond.2
      have hH := ih2 hgd.2 j1 (x.lim f) hle (k2.mono hhe)
      rw [lineTr, LRes3.get_mk' _ hle, hx] at hH
      simp only [LRes3.star, hi1.1, hi2.2, Bool.and_self, cond_true] at hH
      have hH := hH trivial
      generalize x.lim f = h at *
      cases r with
      | ok s2 =>
        obtain ⟨l1, l2, l3⟩ := hH
        refine ⟨l1, fun h => by have := hgd2.1; omega, fun _ => ?_⟩
        have hst : LFact w st s.pos (lines s2.g) := k3.later hlt (hkeep _ rfl)
        rcases Nat.lt_or_eq_of_le hgd2.1 with hlt2 | heq2
        · obtain ⟨e', st', n1, n2, n3⟩ := l3 hlt2
          split at n1
          · rename_i x1 x2 x3 x4 e1 e2
            simp only [Option.some.injEq, Prod.mk.injEq] at n1
            obtain ⟨g', b', q1, q2⟩ := x.out_mono hlim hle2 e2
            refine ⟨g', st, ?_, n2.mono (by omega), hst⟩
            rw [k1, q1]
          · simp at n1
        · obtain ⟨e', n1, n2⟩ := l2 heq2.symm
          cases hfl : (x.get h).fl with
          | none => rw [hfl] at n1; simp at n1
          | some y =>
            rw [hfl] at n1
            simp only [Option.map_some, Option.some.injEq] at n1
            obtain ⟨g', b', q1, q2⟩ := x.out_get hle (g := y.1) (b := y.2) hfl
            refine ⟨g', st, ?_, ?_, hst⟩
            · rw [k1, q1]
            · rw [← heq2]; exact n2.mono (by omega)
      | fail s2 =>
        obtain ⟨-, f', b', q, -⟩ := hH
        simp at q
      | fault f => trivial
    · obtain ⟨e, k1, -⟩ := j2 heq.symm
      rw [k1] at hit; simp at hit
  | @star_end a s s1 hev ih =>
    intro f hf hfact hsafe
    rw [lineTr, LRes3.get_mk' _ hf] at hsafe ⊢
    generalize hx : lineTr c a = x at *
    have hcond : ((x.get f).iter && x.iters (x.lim f)) = true := by
      cases hc : (x.get f).iter && x.iters (x.lim f) with
      | true => rfl
      | false => simp [LRes3.star, hc, LRes.bad] at hsafe
    simp only [LRes3.star, hcond, cond_true]
    rw [Bool.and_eq_true] at hcond
    have hit : (x.get f).ok0.isNone = true ∧ (x.get f).safe = true := by
      simpa [LRes.iter] using hcond.1
    obtain ⟨l1, f', b', l2, l3, -⟩ := ih hi hinv f hf hfact hit.2
    exact ⟨l1, fun _ => ⟨f', by rw [l2]; rfl, l3⟩, fun h => absurd h (Nat.lt_irrefl _)⟩
  | star_fault => intro f _ _ _; trivial
  | @peek_ok a s s1 hev ih =>
    intro f hf hfact hsafe
    have hgd := hev.good hr hi
    rw [lineTr, LRes3.get_mk' _ hf] at hsafe ⊢
    cases hqa : quietE c a with
    | true =>
      have := hev.lines_quiet hl hq hqa _ rfl
      simp only [cond_true]
      refine ⟨by simp only [St.restore, this]; exact hinv,
        fun _ => ⟨f, rfl, by simp only [St.restore, this]; exact hfact⟩,
        fun h => absurd h (Nat.lt_irrefl _)⟩
    | false =>
      rw [hqa] at hsafe
      simp only [cond_false] at hsafe ⊢
      obtain ⟨j1, j2, j3⟩ := ih hi hinv f hf hfact hsafe
      refine ⟨j1.down hgd.1, fun _ => ?_, fun h => absurd h (Nat.lt_irrefl _)⟩
      rcases Nat.lt_or_eq_of_le hgd.1 with hlt | heq
      · obtain ⟨e, st, k1, k2, k3⟩ := j3 hlt
        obtain ⟨y, y1, y2⟩ := joinO_right (a := ((lineTr c a).get f).ok0)
          (b := ((lineTr c a).get f).ok1.map (·.2)) (x := st) (by rw [k1]; rfl)
        exact ⟨y, y1, k3.mono y2⟩
      · obtain ⟨e, k1, k2⟩ := j2 heq.symm
        obtain ⟨y, y1, y2⟩ := joinO_left (b := ((lineTr c a).get f).ok1.map (·.2)) k1
        exact ⟨y, y1, k2.mono y2⟩
  | @peek_no a s s1 hev ih =>
    intro f hf hfact hsafe
    rw [lineTr, LRes3.get_mk' _ hf] at hsafe ⊢
    cases hqa : quietE c a with
    | true =>
      have := hev.lines_quiet hl hq hqa _ rfl
      simp only [cond_true]
      exact ⟨by simp only [this]; exact hinv, f, false, rfl, by simp only [this]; exact hfact,
        fun h => by simp at h⟩
    | false =>
      rw [hqa] at hsafe
      simp only [cond_false] at hsafe ⊢
      exact ih hi hinv f hf hfact hsafe
  | peek_fault => intro f _ _ _; trivial
  | @npeek_ok a s s1 hev ih =>
    intro f hf hfact hsafe
    have hgd := hev.good hr hi
    rw [lineTr, LRes3.get_mk' _ hf] at hsafe ⊢
    cases hqa : quietE c a with
    | true =>
      have := hev.lines_quiet hl hq hqa _ rfl
      simp only [cond_true]
      exact ⟨by simp only [this]; exact hinv, f, false, rfl, by simp only [this]; exact hfact,
        fun h => by simp at h⟩
    | false =>
      rw [hqa] at hsafe
      simp only [cond_false] at hsafe ⊢
      obtain ⟨j1, j2, j3⟩ := ih hi hinv f hf hfact hsafe
      refine ⟨j1.down hgd.1, ?_⟩
      rcases Nat.lt_or_eq_of_le hgd.1 with hlt | heq
      · obtain ⟨e, st, k1, k2, k3⟩ := j3 hlt
        obtain ⟨y, y1, y2⟩ := joinO_right (a := ((lineTr c a).get f).ok0)
          (b := ((lineTr c a).get f).ok1.map (·.2)) (x := st) (by rw [k1]; rfl)
        exact ⟨y, true, by rw [y1]; rfl, k3.mono y2, fun _ => j1⟩
      · obtain ⟨e, k1, k2⟩ := j2 heq.symm
        obtain ⟨y, y1, y2⟩ := joinO_left (b := ((lineTr c a).get f).ok1.map (·.2)) k1
        exact ⟨y, true, by rw [y1]; rfl, k2.mono y2, fun _ => j1⟩
  | @npeek_no a s s1 hev ih =>
    intro f hf hfact hsafe
    rw [lineTr, LRes3.get_mk' _ hf] at hsafe ⊢
    cases hqa : quietE c a with
    | true =>
      have := hev.lines_quiet hl hq hqa _ rfl
      simp only [cond_true]
      refine ⟨by simp only [St.restore, this]; exact hinv, fun _ => ⟨_, rfl, ?_⟩,
        fun h => absurd h (Nat.lt_irrefl _)⟩
      simp only [St.restore, this]
      cases a with
      | one m =>
        simp only [eatsNl]
        cases hnl : m.mem 10 with
        | false => exact hfact
        | true =>
          refine LFact.of_ne ?_
          have hv := hr.val hi
          cases hev with
          | one_end hp => rw [hp] at hv; rw [← hv]; simp
          | one_no hp hm =>
            rw [hp] at hv
            rw [← hv]
            intro h
            rw [Option.some.injEq] at h
            rw [h, hnl] at hm; simp at hm
      | _ => exact hfact
    | false =>
      rw [hqa] at hsafe
      simp only [cond_false] at hsafe ⊢
      obtain ⟨l1, f', b', l2, l3, -⟩ := ih hi hinv f hf hfact hsafe
      exact ⟨l1, fun _ => ⟨f', by rw [l2]; rfl, l3⟩, fun h => absurd h (Nat.lt_irrefl _)⟩
  | npeek_fault => intro f _ _ _; trivial
  | @pred_ok p s g' ts h =>
    intro f hf hfact hsafe
    rw [lineTr, LRes3.get_mk' _ hf] at hsafe ⊢
    have hpl := hl.pred _ _ _ _ _ _ h
    cases hk : c.kind p with
    | keep =>
      rw [hk] at hpl
      simp only [LKind.apply] at hpl
      exact ⟨by simp only [hpl]; exact hinv, fun _ => ⟨f, rfl, by simp only [hpl]; exact hfact⟩,
        fun h => absurd h (Nat.lt_irrefl _)⟩
    | back =>
      rw [hk] at hpl
      simp only [LKind.apply] at hpl
      exact ⟨by simp only [hpl]; exact hinv.backtrack (Nat.le_refl _),
        fun _ => ⟨_, rfl, hfact.keepFalse⟩, fun h => absurd h (Nat.lt_irrefl _)⟩
    | start => rw [hk] at hsafe; simp [LRes.bad] at hsafe
  | @pred_no p s g' ts h =>
    intro f hf hfact hsafe
    rw [lineTr, LRes3.get_mk' _ hf] at hsafe ⊢
    have hpl := hl.pred _ _ _ _ _ _ h
    have hsr : c.sure p = false := by
      cases hsr : c.sure p with
      | false => rfl
      | true => exact absurd (hsure _ _ _ _ _ _ hsr h) (by simp)
    cases hk : c.kind p with
    | keep =>
      rw [hk] at hpl
      simp only [LKind.apply] at hpl
      exact ⟨by simp only [hpl]; exact hinv, f, true, by simp [hsr], by simp only [hpl]; exact hfact,
        fun _ => by simp only [hpl]; exact hinv⟩
    | back =>
      rw [hk] at hpl
      simp only [LKind.apply] at hpl
      exact ⟨by simp only [hpl]; exact hinv.backtrack (Nat.le_refl _), keepF false f, true,
        by simp [hsr], hfact.keepFalse, fun _ => by simp only [hpl]; exact hinv.backtrack (Nat.le_refl _)⟩
    | start => rw [hk] at hsafe; simp [LRes.bad] at hsafe
  | pred_fault => intro f _ _ _; trivial
  | @act a s =>
    intro f hf hfact _
    rw [lineTr, LRes3.get_mk' _ hf]
    exact ⟨hinv, fun _ => ⟨f, rfl, hfact⟩, fun h => absurd h (Nat.lt_irrefl _)⟩
  | @onfail_ok a p s s1 hev ih =>
    intro f hf hfact hsafe
    rw [lineTr, LRes3.get_mk' _ hf] at hsafe ⊢
    cases hk : c.kind p with
    | keep => rw [hk] at hsafe; exact ih hi hinv f hf hfact hsafe
    | back =>
      rw [hk] at hsafe
      simp only [Bool.and_eq_true] at hsafe
      exact ih hi hinv f hf hfact hsafe.1
    | start => rw [hk] at hsafe; simp [LRes.bad] at hsafe
  | @onfail_no a p s s1 b g' ts hev h ih =>
    intro f hf hfact hsafe
    have hgd := hev.good hr hi
    rw [lineTr, LRes3.get_mk' _ hf] at hsafe ⊢
    have hpl := hl.pred _ _ _ _ _ _ h
    cases hk : c.kind p with
    | keep =>
      rw [hk] at hsafe hpl
      simp only [LKind.apply] at hpl
      have := ih hi hinv f hf hfact hsafe
      simp only [LRes.Holds, hpl]
      exact this
    | back =>
      rw [hk] at hsafe hpl
      simp only [Bool.and_eq_true, LKind.apply] at hsafe hpl
      obtain ⟨l1, f', b', l2, l3, l4⟩ := ih hi hinv f hf hfact hsafe.1
      have hb := hsafe.2
      rw [l2] at hb
      simp only at hb
      have h5 := (l4 hb).backtrack (Nat.le_refl _)
      refine ⟨by simp only [hpl]; exact h5.down hgd.1, keepF false f', true, ?_,
        l3.keepFalse, fun _ => by simp only [hpl]; exact h5⟩
      simp only [l2, Option.map_some]
    | start => rw [hk] at hsafe; simp [LRes.bad] at hsafe
  | onfail_no_fault => intro f _ _ _; trivial
  | onfail_fault => intro f _ _ _; trivial

end Verif.Peg
