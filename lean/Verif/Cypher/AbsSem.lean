import Verif.Cypher.Abs
import Verif.Cypher.Match
/-!
# What the abstract machine stands for

`Gam env m0 A p m`: the machine `m`, at position `p`, is described by `A`, the machine at the entry of
the rule being `m0`.
-/
namespace Verif.Cypher
open Verif.Peg

/-- The type of the node is in the mask. -/
def HasTy (m : Nat) (r : Ref) : Prop := m.testBit r.ty.num = true

/-- Types at even and odd positions. -/
def Turns (e o : Nat) : List Ref → Prop
  | [] => True
  | r :: rs => HasTy e r ∧ Turns o e rs

structure SeqOk (a : SeqA) (s : List Ref) : Prop where
  parts : ∃ s1 s2, s = s1 ++ s2 ∧ (∀ r ∈ s1, HasTy a.pre r) ∧ (∀ r ∈ s2, HasTy a.post r) ∧
    (a.ne = true → s2 ≠ [])
  turns : Turns a.ev a.od s
  par : ∀ b, a.par = some b → decide (s.length % 2 = 1) = b
  min : a.min ≤ s.length

structure BlkOk (a : ABlk) (c : List Node) (s : List Ref) : Prop where
  emp : a.emp = true → c = []
  sur : s.length + a.sur ≤ c.length
  seq : SeqOk a.seq s
  hd : a.hd = true → ∃ n r, c.head? = some n ∧ s.head? = some r ∧ n.ref = r
  mem : ∀ r ∈ s, ∃ n ∈ c, n.ref = r
  wt : ∀ n ∈ c, WellTyped n

/-- What was added to a block: nodes and elements of the sequence. -/
abbrev Delta := List Node × List Ref

/-- The node is in the list, and it is the first. -/
def InList (c : List Node) (fst : Bool) (r : Ref) : Prop :=
  (∃ n ∈ c, n.ref = r) ∧ (fst = true → ∃ n, c.head? = some n ∧ n.ref = r)

def InLoc (D : List Delta) (P : Option Block) : Loc → Bool → Ref → Prop
  | .at j, f, r => ∃ d, D[j]? = some d ∧ InList d.1 f r
  | .prev, f, r => ∃ b, P = some b ∧ InList b.children f r
  | .unknown, _, _ => True

def ValOk (D : List Delta) (P : Option Block) (a : AVal) : Option Ref → Prop
  | none => a.nul = true
  | some r => HasTy a.mask r ∧ InLoc D P a.loc a.fst r

def SelfOk (D : List Delta) (P : Option Block) (v0 : Option Ref) : ASelf → Option Ref → Prop
  | .keep, v => v = v0
  | .unk, _ => True
  | .val a, v => ValOk D P a v

def VarOk (D : List Delta) (P : Option Block) : Option AVal → Option (Option Ref) → Prop
  | none, _ => True
  | some a, x => ∃ v, x = some v ∧ ValOk D P a v

def VarsOk (D : List Delta) (P : Option Block) : List (Option AVal) → List (Option (Option Ref)) → Prop
  | [], [] => True
  | a :: as, x :: xs => VarOk D P a x ∧ VarsOk D P as xs
  | _, _ => False

/-- Rules without variables have no frame. -/
def FrameOk (D : List Delta) (P : Option Block) (F0 : List (List (Option (Option Ref))))
    (vars : List (Option AVal)) (F : List (List (Option (Option Ref)))) : Prop :=
  (vars = [] ∧ F = F0) ∨ (vars ≠ [] ∧ ∃ fr, F = fr :: F0 ∧ VarsOk D P vars fr)

def Clean (P : Option Block) : Prop := ∀ b, P = some b → b.children = []

/-- The closed block's text lies before the position. -/
def TextOk (p : Nat) (b : Block) : Prop := b.start ≤ b.stop ∧ b.stop ≤ p

def PrevOk (p : Nat) (P0 : Option Block) : APrev → Option Block → Prop
  | .no, P => P = none
  | .keep, P => P = P0 ∨ P = none
  | .clean, P => Clean P
  | .txt, P => ∃ b, P = some b ∧ b.children = [] ∧ TextOk p b
  | .blk a, P => ∃ b, P = some b ∧ BlkOk a b.children b.seq ∧ TextOk p b

/-- Opened at or before the position. -/
def OpenOk (off p : Nat) (b : Block) : Prop := b.start ≤ p ∧ b.rstart.offset ≤ off + p

/-- The open blocks: those opened since, and below them the entry's with something added. -/
def Stk (off p : Nat) (b0 : Block) (rest : List Block) : List ABlk → List Delta → List Block → Prop
  | [], _, _ => False
  | [a], D, B => ∃ d, D = [d] ∧ BlkOk a d.1 d.2 ∧
      B = { b0 with children := b0.children ++ d.1, seq := b0.seq ++ d.2 } :: rest
  | a :: a' :: as, D, B => ∃ d ds b bs, D = d :: ds ∧ B = b :: bs ∧ BlkOk a d.1 d.2 ∧
      b.children = d.1 ∧ b.seq = d.2 ∧ OpenOk off p b ∧ Stk off p b0 rest (a' :: as) ds bs

/-- Errors that need a context can be given one. -/
def ErrsOk (env : Env) (es : List PErr) : Prop :=
  ∀ e ∈ es, e.context = none → env.buf ≠ [] ∧
    env.off.offset ≤ e.position.offset ∧ e.position.offset - env.off.offset ≤ env.buf.length

/-- The result: as at the entry, NULL, or a node added to the entry's block. -/
def ResOk (mask : Nat) (v0 v : Option Ref) (D : List Delta) : Prop :=
  v = v0 ∨ v = none ∨
    ∃ r x, v = some r ∧ HasTy mask r ∧ D.getLast? = some x ∧ ∃ n ∈ x.1, n.ref = r

structure Gam (env : Env) (m0 : Mach) (b0 : Block) (rest : List Block) (A : Abs) (p : Nat) (m : Mach)
    (D : List Delta) (xs : List Op) : Prop where
  entry : m0.blocks = b0 :: rest
  clean : Clean m0.prev
  blks : Stk env.off.offset p b0 rest A.blks D m.blocks
  vars : FrameOk D m.prev m0.frames A.vars m.frames
  self : SelfOk D m.prev m0.self A.self m.self
  prev : PrevOk p m0.prev A.prev m.prev
  stack : m.ops = xs ++ m0.ops
  ops : ∀ k, A.ops = some k → xs.length = k
  dif : ∀ d, A.dif = some d → ∀ x, D.head? = some x → x.2.length + 8 = xs.length + d
  pdif : ∀ d, A.pdif = some d → ∀ b, m.prev = some b → b.seq.length + 8 = xs.length + d
  res : ResOk A.res m0.result m.result D
  fin : A.fin = true → m.consumed = env.pos
  errs : ErrsOk env m.errs

def G (env : Env) (m0 : Mach) (A : Abs) (p : Nat) (m : Mach) : Prop :=
  ∃ b0 rest D xs, Gam env m0 b0 rest A p m D xs

/-- The outcome is as wanted, or is the tolerated failure. -/
def Safe {α : Type} (md : Mode) (r : Except Crash α) (Q : α → Prop) : Prop :=
  match r with
  | .ok m => Q m
  | .error c => md.lax = true ∧ c = .terminalChildren

theorem Safe.bind {α β : Type} {md : Mode} {r : Except Crash α} {Q : α → Prop} {Q' : β → Prop}
    {f : α → Except Crash β} (h : Safe md r Q) (hf : ∀ m, Q m → Safe md (f m) Q') :
    Safe md (r >>= f) Q' := by
  cases r with
  | ok m => exact hf m h
  | error c => exact h

theorem Safe.imp {α : Type} {md : Mode} {r : Except Crash α} {Q Q' : α → Prop}
    (h : Safe md r Q) (hf : ∀ m, Q m → Q' m) : Safe md r Q' := by
  cases r with
  | ok m => exact hf m h
  | error c => exact h

theorem exec_append (env : Env) (ts1 ts2 : List (Peg.Thunk Act)) (m : Mach) :
    Mach.exec env (ts2 ++ ts1) m = (Mach.exec env ts1 m >>= Mach.exec env ts2) := by
  induction ts2 with
  | nil =>
    show Mach.exec env ts1 m = _
    cases Mach.exec env ts1 m <;> rfl
  | cons t ts ih =>
    show (Mach.exec env (ts ++ ts1) m >>= fun m => Mach.step env t m) = _
    rw [ih]
    cases Mach.exec env ts1 m <;> rfl

/-! ### Masks -/

theorem subset_spec {a b i : Nat} (h : subset a b = true) (ha : a.testBit i = true) :
    b.testBit i = true := by
  unfold subset at h
  rw [beq_iff_eq] at h
  rw [← h, Nat.testBit_and] at ha
  simp only [Bool.and_eq_true] at ha
  exact ha.2

theorem HasTy.mono {a b : Nat} {r : Ref} (h : HasTy a r) (hs : subset a b = true) : HasTy b r :=
  subset_spec hs h

theorem HasTy.zero {r : Ref} (h : HasTy 0 r) : False := by
  unfold HasTy at h; simp at h

theorem HasTy.orl {a b : Nat} {r : Ref} (h : HasTy a r) : HasTy (a ||| b) r := by
  unfold HasTy at *; rw [Nat.testBit_or, h]; rfl

theorem HasTy.orr {a b : Nat} {r : Ref} (h : HasTy b r) : HasTy (a ||| b) r := by
  unfold HasTy at *; rw [Nat.testBit_or, h, Bool.or_true]

theorem HasTy.or {a b : Nat} {r : Ref} (h : HasTy (a ||| b) r) : HasTy a r ∨ HasTy b r := by
  unfold HasTy at *
  rw [Nat.testBit_or, Bool.or_eq_true] at h
  exact h

theorem num_inj : ∀ t u : AstType, t.num = u.num → t = u := by
  have h : ∀ n : Fin 200, ∀ t ∈ AstType.all, t.num = n → AstType.all[n.val]? = some t := by
    decide +kernel
  have hb : ∀ t ∈ AstType.all, t.num < 200 := by decide +kernel
  intro t u e
  have h1 := h ⟨t.num, hb t (all_complete t)⟩ t (all_complete t) rfl
  have h2 := h ⟨u.num, hb u (all_complete u)⟩ u (all_complete u) rfl
  simp only [e] at h1
  rw [h1] at h2
  exact Option.some.inj h2

theorem foldl_bits (f : AstType → Bool) : ∀ (l : List AstType) (m i : Nat),
    (l.foldl (fun m u => if f u then m ||| 2 ^ u.num else m) m).testBit i = true →
    m.testBit i = true ∨ ∃ u ∈ l, f u = true ∧ u.num = i := by
  intro l
  induction l with
  | nil => intro m i h; exact .inl h
  | cons u l ih =>
    intro m i h
    rw [List.foldl_cons] at h
    rcases ih _ _ h with h | ⟨v, hv, h1, h2⟩
    · split at h
      · rename_i hf
        rw [Nat.testBit_or, Bool.or_eq_true] at h
        rcases h with h | h
        · exact .inl h
        · rw [Nat.testBit_two_pow] at h
          exact .inr ⟨u, by simp, hf, by simpa using h⟩
      · exact .inl h
    · exact .inr ⟨v, by simp [hv], h1, h2⟩

theorem isA_id (i j : Nat) (u t : AstType) : isA ⟨i, u⟩ t = isA ⟨j, u⟩ t := rfl

theorem HasTy.isA {t : AstType} {r : Ref} (h : HasTy (sub t) r) : Cypher.isA r t = true := by
  unfold HasTy sub at h
  rcases foldl_bits (fun u => Cypher.isA ⟨0, u⟩ t) _ _ _ h with h | ⟨u, _, h1, h2⟩
  · simp at h
  · have := num_inj _ _ h2
    subst this
    exact h1

theorem isA_sub {t : AstType} {r : Ref} (h : isA r t = true) : SubType r.ty t := by
  unfold isA at h
  split at h
  · rename_i b hb
    subst h
    by_cases ht : r.ty = .comment
    · rw [ht] at hb; simp [instanceof, AstType.vtPtr] at hb
    · by_cases hu : t = .comment
      · subst hu
        rw [instanceof_comment_always_false.1 _ ht] at hb
        cases hb
      · obtain ⟨b, h1, h2⟩ := instanceof_spec_partial r.ty t ht hu
        rw [h1] at hb
        cases hb
        exact h2.1 rfl
  · cases h

theorem HasTy.sub {t : AstType} {r : Ref} (h : HasTy (Cypher.sub t) r) : SubType r.ty t := isA_sub h.isA

theorem HasTy.bit (i : Nat) (t : AstType) : HasTy (Cypher.bit t) ⟨i, t⟩ := by
  simp [HasTy, Cypher.bit]

theorem sub_isA {t : AstType} {r : Ref} (ht : t ≠ .comment) (h : SubType r.ty t) : isA r t = true := by
  have hr : r.ty ≠ .comment := by
    intro hr
    rw [hr] at h
    cases h with
    | refl => exact ht rfl
    | step hp _ => cases hp
  obtain ⟨b, h1, h2⟩ := instanceof_spec_partial r.ty t hr ht
  simp [isA, h1, h2.2 h]

/-! ### Order -/

theorem Turns.mono {e o e' o' : Nat} (he : subset e e' = true) (ho : subset o o' = true) :
    ∀ {s : List Ref}, Turns e o s → Turns e' o' s := by
  intro s
  induction s generalizing e o e' o' with
  | nil => intro _; trivial
  | cons r rs ih => intro h; exact ⟨h.1.mono he, ih ho he h.2⟩

theorem optLe_spec {α : Type} [DecidableEq α] {a b : Option α} (h : optLe a b = true) {x : α}
    (hx : b = some x) : a = some x := by
  unfold optLe at h
  simp only [Bool.or_eq_true, beq_iff_eq] at h
  rcases h with h | h
  · rw [h] at hx; cases hx
  · rw [h, hx]

theorem SeqOk.le {a b : SeqA} {s : List Ref} (h : SeqOk a s) (hle : a.le b = true) : SeqOk b s := by
  simp only [SeqA.le, Bool.and_eq_true, Bool.or_eq_true, Bool.not_eq_true', decide_eq_true_eq] at hle
  obtain ⟨⟨⟨⟨⟨⟨h1, h2⟩, h3⟩, h4⟩, h5⟩, h6⟩, h7⟩ := hle
  refine ⟨?_, h.turns.mono h4 h5, fun x hx => h.par x (optLe_spec h6 hx), by have := h.min; omega⟩
  obtain ⟨s1, s2, e, g1, g2, g3⟩ := h.parts
  refine ⟨s1, s2, e, fun r hr => (g1 r hr).mono h1, fun r hr => (g2 r hr).mono h2, fun hn => g3 ?_⟩
  rcases h3 with h3 | h3
  · rw [h3] at hn; cases hn
  · exact h3

theorem BlkOk.le {a b : ABlk} {c : List Node} {s : List Ref} (h : BlkOk a c s) (hle : a.le b = true) :
    BlkOk b c s := by
  simp only [ABlk.le, Bool.and_eq_true, Bool.or_eq_true, Bool.not_eq_true', decide_eq_true_eq] at hle
  obtain ⟨⟨⟨h1, h2⟩, h3⟩, h4⟩ := hle
  refine ⟨fun he => h.emp ?_, by have := h.sur; omega, h.seq.le h3, fun hh => h.hd ?_, h.mem, h.wt⟩
  · rcases h1 with h1 | h1
    · rw [h1] at he; cases he
    · exact h1
  · rcases h4 with h4 | h4
    · rw [h4] at hh; cases hh
    · exact h4

theorem ValOk.le {D : List Delta} {P : Option Block} {a b : AVal} {v : Option Ref} (h : ValOk D P a v)
    (hle : a.le b = true) : ValOk D P b v := by
  simp only [AVal.le, Bool.and_eq_true, Bool.or_eq_true, Bool.not_eq_true', beq_iff_eq] at hle
  obtain ⟨⟨h1, h2⟩, h3⟩ := hle
  cases v with
  | none =>
    have h : a.nul = true := h
    rcases h1 with h1 | h1
    · rw [h1] at h; cases h
    · exact h1
  | some r =>
    refine ⟨h.1.mono h2, ?_⟩
    rcases h3 with (h3 | h3) | ⟨h3, h4⟩
    · have := h.1; rw [h3] at this; exact this.zero.elim
    · rw [h3]; trivial
    · have hl := h.2
      rw [← h3]
      revert hl
      cases a.loc with
      | «at» j =>
        rintro ⟨d, hd, hi, hf⟩
        refine ⟨d, hd, hi, fun hb => hf ?_⟩
        rcases h4 with h4 | h4
        · rw [h4] at hb; cases hb
        · exact h4
      | prev =>
        rintro ⟨d, hd, hi, hf⟩
        refine ⟨d, hd, hi, fun hb => hf ?_⟩
        rcases h4 with h4 | h4
        · rw [h4] at hb; cases hb
        · exact h4
      | unknown => exact fun _ => trivial

theorem VarsOk.le {D : List Delta} {P : Option Block} : ∀ {as bs : List (Option AVal)}
    {xs : List (Option (Option Ref))}, VarsOk D P as xs → allLe varLe as bs = true → VarsOk D P bs xs
  | [], [], [], _, _ => trivial
  | [], [], _ :: _, h, _ => h
  | [], _ :: _, _, _, h => by cases h
  | _ :: _, [], _, _, h => by cases h
  | a :: as, b :: bs, [], h, _ => h.elim
  | a :: as, b :: bs, x :: xs, h, hle => by
    simp only [allLe, Bool.and_eq_true] at hle
    refine ⟨?_, VarsOk.le h.2 hle.2⟩
    cases b with
    | none => trivial
    | some b =>
      cases a with
      | none => cases hle.1
      | some a =>
        obtain ⟨v, hv, h1⟩ := h.1
        exact ⟨v, hv, h1.le hle.1⟩

theorem allLe_nil {α : Type} {f : α → α → Bool} {as bs : List α} (h : allLe f as bs = true) :
    as = [] ↔ bs = [] := by
  cases as <;> cases bs <;> simp_all [allLe]

theorem FrameOk.le {D : List Delta} {P : Option Block} {F0 F : List (List (Option (Option Ref)))}
    {as bs : List (Option AVal)} (h : FrameOk D P F0 as F) (hle : allLe varLe as bs = true) :
    FrameOk D P F0 bs F := by
  rcases h with ⟨h1, h2⟩ | ⟨h1, fr, h2, h3⟩
  · exact .inl ⟨(allLe_nil hle).1 h1, h2⟩
  · exact .inr ⟨fun hb => h1 ((allLe_nil hle).2 hb), fr, h2, h3.le hle⟩

theorem SelfOk.le {D : List Delta} {P : Option Block} {v0 v : Option Ref} {a b : ASelf}
    (h : SelfOk D P v0 a v) (hle : a.le b = true) : SelfOk D P v0 b v := by
  cases a <;> cases b <;> first | trivial | exact h | (cases hle; done) | exact ValOk.le h hle

theorem PrevOk.le {p : Nat} {P0 P : Option Block} {a b : APrev} (hc : Clean P0)
    (h : PrevOk p P0 a P) (hle : a.le b = true) : PrevOk p P0 b P := by
  cases a with
  | no =>
    have h : P = none := h
    subst h
    cases b with
    | no => rfl
    | keep => exact .inr rfl
    | clean => intro b hb; cases hb
    | txt => cases hle
    | blk _ => cases hle
  | keep =>
    cases b with
    | keep => exact h
    | clean =>
      rcases h with h | h
      · rw [h]; exact hc
      · rw [h]; intro b hb; cases hb
    | no => cases hle
    | txt => cases hle
    | blk _ => cases hle
  | clean => cases b <;> first | exact h | cases hle
  | txt =>
    obtain ⟨q, h1, h2, h3⟩ := h
    cases b with
    | txt => exact ⟨q, h1, h2, h3⟩
    | clean => rw [h1]; intro b hb; cases hb; exact h2
    | no => cases hle
    | keep => cases hle
    | blk _ => cases hle
  | blk a =>
    obtain ⟨q, h1, h2, h3⟩ := h
    cases b with
    | blk b => exact ⟨q, h1, h2.le hle, h3⟩
    | clean => rw [h1]; intro b hb; cases hb; exact h2.emp hle
    | txt => exact ⟨q, h1, h2.emp hle, h3⟩
    | no => cases hle
    | keep => cases hle

theorem Stk.le {off p : Nat} {b0 : Block} {rest : List Block} : ∀ {as bs : List ABlk} {D : List Delta}
    {B : List Block}, Stk off p b0 rest as D B → allLe ABlk.le as bs = true → Stk off p b0 rest bs D B
  | [], _, _, _, h, _ => h.elim
  | _ :: _, [], _, _, _, h => by cases h
  | [a], [b], D, B, h, hle => by
    obtain ⟨d, h1, h2, h3⟩ := h
    simp only [allLe, Bool.and_true] at hle
    exact ⟨d, h1, h2.le hle, h3⟩
  | [_], _ :: _ :: _, _, _, _, h => by simp [allLe] at h
  | _ :: _ :: _, [_], _, _, _, h => by simp [allLe] at h
  | a :: a' :: as, b :: b' :: bs, D, B, h, hle => by
    obtain ⟨d, ds, x, xs, h1, h2, h3, h4, h5, h6, h7⟩ := h
    rw [allLe, Bool.and_eq_true] at hle
    exact ⟨d, ds, x, xs, h1, h2, h3.le hle.1, h4, h5, h6, Stk.le h7 hle.2⟩

theorem Gam.le {env : Env} {m0 : Mach} {b0 : Block} {rest : List Block} {A B : Abs} {p : Nat} {m : Mach}
    {D : List Delta} {xs : List Op} (h : Gam env m0 b0 rest A p m D xs) (hle : A.le B = true) :
    Gam env m0 b0 rest B p m D xs := by
  simp only [Abs.le, Bool.and_eq_true, Bool.or_eq_true, Bool.not_eq_true'] at hle
  obtain ⟨⟨⟨⟨⟨⟨⟨⟨h1, h2⟩, h3⟩, h4⟩, h5⟩, h6⟩, h7⟩, h8⟩, h9⟩ := hle
  refine ⟨h.entry, h.clean, h.blks.le h3, h.vars.le h1, h.self.le h2, h.prev.le h.clean h4, h.stack,
    fun k hk => h.ops k (optLe_spec h5 hk), fun d hd => h.dif d (optLe_spec h6 hd),
    fun d hd => h.pdif d (optLe_spec h7 hd), ?_, fun hf => h.fin ?_, h.errs⟩
  · rcases h.res with hr | hr | ⟨r, x, e1, e2, e3⟩
    · exact .inl hr
    · exact .inr (.inl hr)
    · exact .inr (.inr ⟨r, x, e1, e2.mono h8, e3⟩)
  · rcases h9 with h9 | h9
    · rw [h9] at hf; cases hf
    · exact h9

theorem G.le {env : Env} {m0 : Mach} {A B : Abs} {p : Nat} {m : Mach} (h : G env m0 A p m)
    (hle : A.le B = true) : G env m0 B p m := by
  obtain ⟨b0, rest, D, xs, h⟩ := h
  exact ⟨b0, rest, D, xs, h.le hle⟩

theorem join_left {A B J : Abs} (h : A.join B = some J) : A.le J = true ∧ B.le J = true := by
  unfold Abs.join at h
  simp only at h
  split at h
  · rename_i hc
    cases h
    simpa only [Bool.and_eq_true] using hc
  · cases h

/-! ### Later positions -/

theorem PrevOk.later {p q : Nat} {P0 P : Option Block} {a : APrev} (h : PrevOk p P0 a P) (hpq : p ≤ q) :
    PrevOk q P0 a P := by
  cases a with
  | no => exact h
  | keep => exact h
  | clean => exact h
  | txt => obtain ⟨b, h1, h2, h3, h4⟩ := h; exact ⟨b, h1, h2, h3, by omega⟩
  | blk a => obtain ⟨b, h1, h2, h3, h4⟩ := h; exact ⟨b, h1, h2, h3, by omega⟩

theorem Stk.later {off p q : Nat} {b0 : Block} {rest : List Block} (hpq : p ≤ q) : ∀ {as : List ABlk}
    {D : List Delta} {B : List Block}, Stk off p b0 rest as D B → Stk off q b0 rest as D B
  | [], _, _, h => h
  | [_], _, _, h => h
  | _ :: _ :: _, _, _, h => by
    obtain ⟨d, ds, x, xs, h1, h2, h3, h4, h5, h6, h7⟩ := h
    exact ⟨d, ds, x, xs, h1, h2, h3, h4, h5, ⟨by have := h6.1; omega, by have := h6.2; omega⟩,
      Stk.later hpq h7⟩

theorem G.later {env : Env} {m0 : Mach} {A : Abs} {p q : Nat} {m : Mach} (h : G env m0 A p m)
    (hpq : p ≤ q) : G env m0 A q m := by
  obtain ⟨b0, rest, D, xs, h⟩ := h
  exact ⟨b0, rest, D, xs, h.entry, h.clean, h.blks.later hpq, h.vars, h.self, h.prev.later hpq, h.stack,
    h.ops, h.dif, h.pdif, h.res, h.fin, h.errs⟩

end Verif.Cypher
