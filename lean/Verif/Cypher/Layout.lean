import Verif.Cypher.Window
import Verif.Cypher.ExprSpec
/-!
# Texts that fit windows

`Lay` lays cells along a text, one after the other. `Win.eats` and `Win.shuns` turn a run on the cells into a match of the
text.
-/
namespace Verif.Cypher
open Verif.Peg Verif.Exprs

variable {w : List UInt8}

/-- The cell stands from `p` to `p'`. -/
def CellAt (w : List UInt8) : Tile → Nat → Nat → Prop
  | .byte K, p, p' => p' = p + 1 ∧ ∃ c, w[p]? = some c ∧ K.mem c = true
  | .run K, p, p' => ∃ n, p' = p + n ∧ ∀ i, i < n → ∃ c, w[p + i]? = some c ∧ K.mem c = true
  | .hole K, p, _ => ∃ c, w[p]? = some c ∧ K.mem c = true
  | .ws ne, p, p' => (p' = p ∧ ne = false ∨ ∃ c, w[p]? = some c ∧ Win.blank.mem c = true) ∧
      ∀ v q, ∃ ts, Hush w (.nt .r_ws v) p q (.ok p' ts q)
  | .fin, p, _ => w.length ≤ p

/-- The cells stand one after the other from `p` on; `ps` are their ends. -/
inductive Lay (w : List UInt8) : List Tile → Nat → List Nat → Prop
  | nil {p} : Lay w [] p []
  | cons {c cs p p' ps} : CellAt w c p p' → Lay w cs p' ps → Lay w (c :: cs) p (p' :: ps)

/-- Where a cell begins. -/
def Mark (p : Nat) (ps : List Nat) (k : Nat) : Nat := ((p :: ps)[k]?).getD 0

theorem Mark_zero {p : Nat} {ps : List Nat} : Mark p ps 0 = p := rfl
theorem Mark_succ {p p' : Nat} {ps : List Nat} {k : Nat} : Mark p (p' :: ps) (k + 1) = Mark p' ps k := rfl

theorem Lay.length {cs : List Tile} {p : Nat} {ps : List Nat} (h : Lay w cs p ps) : ps.length = cs.length := by
  induction h with
  | nil => rfl
  | cons _ _ ih => simp [ih]

theorem Lay.append {A B : List Tile} {p : Nat} {ps qs : List Nat} (h : Lay w A p ps)
    (h' : Lay w B (ps.getLastD p) qs) : Lay w (A ++ B) p (ps ++ qs) := by
  induction h with
  | nil => exact h'
  | @cons c cs p p' ps h1 h2 ih =>
    refine .cons h1 (ih ?_)
    cases ps <;> exact h'

theorem Mark_append {ps qs : List Nat} {j : Nat} : ∀ (p : Nat),
    Mark p (ps ++ qs) (ps.length + j) = Mark (ps.getLastD p) qs j := by
  induction ps with
  | nil => intro p; simp
  | cons x ps ih =>
    intro p
    rw [List.length_cons, show ps.length + 1 + j = (ps.length + j) + 1 by omega, List.cons_append, Mark_succ, ih]
    cases ps <;> rfl

theorem Lay.cell {cs : List Tile} {p : Nat} {ps : List Nat} (h : Lay w cs p ps) : ∀ k c, cs[k]? = some c →
    CellAt w c (Mark p ps k) (Mark p ps (k + 1)) := by
  induction h with
  | nil => intro k c h; simp at h
  | @cons c cs p p' ps h1 h2 ih =>
    intro k d hk
    cases k with
    | zero =>
      simp only [List.getElem?_cons_zero, Option.some.injEq] at hk
      subst hk
      exact h1
    | succ k =>
      simp only [List.getElem?_cons_succ] at hk
      exact ih k d hk

theorem Lay.fit {cs : List Tile} {p : Nat} {ps : List Nat} (h : Lay w cs p ps) {facts : List Fact} {top : Option Nat}
    {stars : List (Nat × E × Nat)} (hf : ∀ f ∈ facts, FactOk w (Mark p ps) f)
    (hs : ∀ f ∈ stars, ∀ q, ∃ ts op', Hush w (.star f.2.1) (Mark p ps f.1) q (.ok (Mark p ps f.2.2) ts (op', q.2))) :
    Fit w ⟨cs, facts, top, stars⟩ (Mark p ps) where
  byte k _ hk := h.cell k _ hk
  run k _ hk := h.cell k _ hk
  hole k _ hk := h.cell k _ hk
  ws k _ hk := h.cell k _ hk
  fin k hk := h.cell k _ hk
  facts := hf
  stars := hs

/-- The cells stand from `p` to `p'`. -/
def Span (w : List UInt8) (A : List Tile) (p p' : Nat) : Prop := ∃ ps, Lay w A p ps ∧ ps.getLastD p = p'

theorem Span.nil {p : Nat} : Span w [] p p := ⟨[], .nil, rfl⟩
theorem Span.cons {c : Tile} {A : List Tile} {p p1 p' : Nat} (h : CellAt w c p p1) (h' : Span w A p1 p') :
    Span w (c :: A) p p' := by
  obtain ⟨ps, h1, h2⟩ := h'
  refine ⟨_, .cons h h1, ?_⟩
  cases ps <;> exact h2
theorem Span.append {A B : List Tile} {p p1 p' : Nat} (h : Span w A p p1) (h' : Span w B p1 p') :
    Span w (A ++ B) p p' := by
  obtain ⟨ps, h1, rfl⟩ := h
  obtain ⟨qs, h3, rfl⟩ := h'
  refine ⟨ps ++ qs, h1.append h3, ?_⟩
  cases qs <;> simp [List.getLastD_eq_getLast?]

def Fact.shift (n : Nat) (f : Fact) : Fact := { f with at_ := n + f.at_, upTo := f.upTo.map (n + ·) }

/-- The window of two lists of cells: the rules `shun` do not match at its beginning; `facts` and `stars` are about the
second list. -/
def Win.mk2 (A B : List Tile) (shun : List Rule) (facts : List Fact) (stars : List (Nat × E × Nat)) (top : Option Nat) :
    Win :=
  ⟨A ++ B, shun.map (fun r => ⟨0, r, none, none, false⟩) ++ facts.map (Fact.shift A.length), top,
    stars.map fun f => (A.length + f.1, f.2.1, A.length + f.2.2)⟩

/-- The expression matches from `p` to `p'`, whatever the state of the operators. -/
def Eats (w : List UInt8) (e : E) (p p' : Nat) : Prop :=
  ∀ op ps, ∃ op' ts, Hush w e p (op, ps) (.ok p' ts (op', ps))
/-- The expression does not match at `p`. -/
def Shuns (w : List UInt8) (e : E) (p : Nat) : Prop := ∀ op ps, ∃ op', Hush w e p (op, ps) (.no (op', ps))
/-- The same where the level is `M`. -/
def EatsAt (w : List UInt8) (M : Nat) (e : E) (p p' : Nat) : Prop :=
  ∀ op ps, ∃ op' ts, Hush w e p (op, M :: ps) (.ok p' ts (op', M :: ps))
def ShunsAt (w : List UInt8) (M : Nat) (e : E) (p : Nat) : Prop :=
  ∀ op ps, ∃ op', Hush w e p (op, M :: ps) (.no (op', M :: ps))

theorem Eats.at_ {e : E} {p p' M : Nat} (h : Eats w e p p') : EatsAt w M e p p' := fun op ps => h op (M :: ps)
theorem Shuns.at_ {e : E} {p M : Nat} (h : Shuns w e p) : ShunsAt w M e p := fun op ps => h op (M :: ps)
theorem Eats.var {r : Rule} {v v' : Option Nat} {p p' : Nat} (h : Eats w (.nt r v) p p') : Eats w (.nt r v') p p' := by
  intro op ps
  obtain ⟨op', ts, h⟩ := h op ps
  cases h with
  | nt_ok h => exact ⟨_, _, .nt_ok h⟩
theorem Shuns.var {r : Rule} {v v' : Option Nat} {p : Nat} (h : Shuns w (.nt r v) p) : Shuns w (.nt r v') p := by
  intro op ps
  obtain ⟨op', h⟩ := h op ps
  cases h with
  | nt_no h => exact ⟨_, .nt_no h⟩

theorem Eats.star_more {e : E} {p p1 p' : Nat} (h : Eats w e p p1) (h' : Eats w (.star e) p1 p') : Eats w (.star e) p p' := by
  intro op ps
  obtain ⟨op1, ts, h⟩ := h op ps
  obtain ⟨op2, us, h'⟩ := h' op1 ps
  exact ⟨_, _, .star_more h h'⟩
theorem Eats.star_end {e : E} {p : Nat} (h : Shuns w e p) : Eats w (.star e) p p := by
  intro op ps
  obtain ⟨op1, h⟩ := h op ps
  exact ⟨_, _, .star_end h⟩

theorem EatsAt.star_more {e : E} {p p1 p' M : Nat} (h : EatsAt w M e p p1) (h' : EatsAt w M (.star e) p1 p') :
    EatsAt w M (.star e) p p' := by
  intro op ps
  obtain ⟨op1, ts, h⟩ := h op ps
  obtain ⟨op2, us, h'⟩ := h' op1 ps
  exact ⟨_, _, .star_more h h'⟩
theorem EatsAt.star_end {e : E} {p M : Nat} (h : ShunsAt w M e p) : EatsAt w M (.star e) p p := by
  intro op ps
  obtain ⟨op1, h⟩ := h op ps
  exact ⟨_, _, .star_end h⟩

theorem Eats.to {e : E} {p p' p'' : Nat} (h : Eats w e p p') (e' : p' = p'') : Eats w e p p'' := e' ▸ h
theorem EatsAt.to {e : E} {M p p' p'' : Nat} (h : EatsAt w M e p p') (e' : p' = p'') : EatsAt w M e p p'' := e' ▸ h

theorem FactOk.eats {pos : Nat → Nat} {k k' : Nat} {r : Rule} {v : Option Nat} (h : Eats w (.nt r v) (pos k) (pos k')) :
    FactOk w pos ⟨k, r, none, some k', false⟩ := by
  intro v q _
  obtain ⟨op', ts, h⟩ := h.var (v' := v) q.1 q.2
  exact ⟨ts, op', h, by simp⟩

theorem FactOk.shuns {pos : Nat → Nat} {k : Nat} {r : Rule} {v : Option Nat} (h : Shuns w (.nt r v) (pos k)) :
    FactOk w pos ⟨k, r, none, none, false⟩ := by
  intro v q _
  obtain ⟨op', h⟩ := h.var (v' := v) q.1 q.2
  exact ⟨op', h, by simp⟩

/-- An operand of an operator. -/
theorem FactOk.prec {pos : Nat → Nat} {k k' : Nat} {o : Op} {v : Option Nat}
    (h : EatsAt w o.next (.nt .r__expression v) (pos k) (pos k')) :
    FactOk w pos ⟨k, .r__prec_expression, some o, some k', false⟩ := by
  intro v' q hq
  have hq := hq o rfl
  obtain ⟨qo, qs⟩ := q
  simp only at hq
  subst hq
  obtain ⟨op', ts, h⟩ := h (some o) qs
  cases h with
  | nt_ok h =>
    refine ⟨_, op', .nt_ok (.seq_ok (.pred_ok (q' := (some o, o.next :: qs)) rfl) (.seq_ok (.onfail_ok (.nt_ok h))
      (.seq_ok (.pred_ok (q' := (op', qs)) rfl) .act))), by simp⟩

/-- `expression` is `_expression` at the lowest level. -/
theorem Eats.expression {p p' : Nat} {v v' : Option Nat} (h : EatsAt w 0 (.nt .r__expression v) p p') :
    Eats w (.nt .r_expression v') p p' := by
  intro op ps
  obtain ⟨op', ts, h⟩ := h op ps
  cases h with
  | nt_ok h =>
    exact ⟨op', _, .nt_ok (.seq_ok (.pred_ok (q' := (op, 0 :: ps)) rfl) (.seq_ok (.onfail_ok (.nt_ok h))
      (.seq_ok (.pred_ok (q' := (op', ps)) rfl) .act)))⟩

section
variable {A B : List Tile} {p p1 : Nat} {qs : List Nat} {shun : List Rule} {facts : List Fact} {top : Option Nat}
  {stars : List (Nat × E × Nat)} {n : Nat} {e : E} {q : QState} {j : Nat} {op : OpS}

theorem Win.fit (hA : Span w A p p1) (hB : Lay w B p1 qs) (hr : ∀ r ∈ shun, Shuns w (.nt r none) p)
    (hf : ∀ f ∈ facts, FactOk w (Mark p1 qs) f) (hs : ∀ f ∈ stars, Eats w (.star f.2.1) (Mark p1 qs f.1) (Mark p1 qs f.2.2)) :
    ∃ pos, Fit w (.mk2 A B shun facts stars top) pos ∧ pos 0 = p ∧ ∀ j, pos (A.length + j) = Mark p1 qs j := by
  obtain ⟨ps, h1, h2⟩ := hA
  subst h2
  have hat : ∀ j, Mark p (ps ++ qs) (A.length + j) = Mark (ps.getLastD p) qs j := by
    intro j; rw [← h1.length, Mark_append]
  refine ⟨Mark p (ps ++ qs), (h1.append hB).fit ?_ ?_, rfl, hat⟩
  · intro f hf'
    rcases List.mem_append.1 hf' with hf' | hf'
    · obtain ⟨r, hr', rfl⟩ := List.mem_map.1 hf'
      intro v q _
      obtain ⟨op', h⟩ := (hr r hr').var (v' := v) q.1 q.2
      exact ⟨op', h, by simp⟩
    obtain ⟨g, hg, rfl⟩ := List.mem_map.1 hf'
    intro v q hq
    have := hf g hg v q hq
    simp only [Fact.shift, hat]
    cases hu : g.upTo with
    | none => rw [hu] at this; exact this
    | some k => rw [hu] at this; simp only [Option.map_some, hat]; exact this
  · intro f hf' q
    obtain ⟨g, hg, rfl⟩ := List.mem_map.1 hf'
    simp only [hat]
    obtain ⟨op', ts, h⟩ := hs g hg q.1 q.2
    exact ⟨ts, op', h⟩

/-- A match found on cells is one of the text. -/
theorem Win.use (hA : Span w A p p1) (hB : Lay w B p1 qs) (hr : ∀ r ∈ shun, Shuns w (.nt r none) p)
    (hf : ∀ f ∈ facts, FactOk w (Mark p1 qs) f) (hs : ∀ f ∈ stars, Eats w (.star f.2.1) (Mark p1 qs f.1) (Mark p1 qs f.2.2))
    (ht : ∀ M, top = some M → lastPrec q.2 = M)
    (h : run n (.mk2 A B shun facts stars top) e 0 .same [] = some (.ok (A.length + j) op [])) :
    ∃ ts q', Hush w e p q (.ok (Mark p1 qs j) ts q') ∧ Stands q op [] q' := by
  obtain ⟨pos, h1, h2, h3⟩ := Win.fit (top := top) hA hB hr hf hs
  have := Win.run_sound n _ pos q h1 ht _ _ _ _ _ h q ⟨rfl, (fun _ => rfl), (fun o h => by cases h)⟩
  obtain ⟨ts, q', h4, h5⟩ := this
  rw [h2, h3] at h4
  exact ⟨ts, q', h4, h5⟩

/-- A failure found on cells is one on the text. -/
theorem Win.deny (hA : Span w A p p1) (hB : Lay w B p1 qs) (hr : ∀ r ∈ shun, Shuns w (.nt r none) p)
    (hf : ∀ f ∈ facts, FactOk w (Mark p1 qs) f) (hs : ∀ f ∈ stars, Eats w (.star f.2.1) (Mark p1 qs f.1) (Mark p1 qs f.2.2))
    (ht : ∀ M, top = some M → lastPrec q.2 = M)
    (h : run n (.mk2 A B shun facts stars top) e 0 .same [] = some (.no op [])) :
    ∃ q', Hush w e p q (.no q') ∧ Stands q op [] q' := by
  obtain ⟨pos, h1, h2, h3⟩ := Win.fit (top := top) hA hB hr hf hs
  have := Win.run_sound n _ pos q h1 ht _ _ _ _ _ h q ⟨rfl, (fun _ => rfl), (fun o h => by cases h)⟩
  obtain ⟨q', h4, h5⟩ := this
  rw [h2] at h4
  exact ⟨q', h4, h5⟩

def okAt (k : Nat) : Option WRes → Bool
  | some (.ok k' _ []) => k' == k
  | _ => false
def noAt : Option WRes → Bool
  | some (.no _ []) => true
  | _ => false

theorem okAt_elim {k : Nat} {r : Option WRes} (h : okAt k r = true) : ∃ op, r = some (.ok k op []) := by
  unfold okAt at h
  split at h
  · exact ⟨_, by rw [beq_iff_eq.1 h]⟩
  · cases h
theorem noAt_elim {r : Option WRes} (h : noAt r = true) : ∃ op, r = some (.no op []) := by
  unfold noAt at h
  split at h
  · exact ⟨_, rfl⟩
  · cases h

theorem Stands.snd {q q' : QState} {op : OpS} (h : Stands q op [] q') : q' = (q'.1, q.2) := Prod.ext rfl h.ps

theorem Win.eats (h : okAt (A.length + j) (run n (.mk2 A B shun facts stars none) e 0 .same []) = true)
    (hA : Span w A p p1) (hB : Lay w B p1 qs) (hr : ∀ r ∈ shun, Shuns w (.nt r none) p)
    (hf : ∀ f ∈ facts, FactOk w (Mark p1 qs) f) (hs : ∀ f ∈ stars, Eats w (.star f.2.1) (Mark p1 qs f.1) (Mark p1 qs f.2.2)) :
    Eats w e p (Mark p1 qs j) := by
  obtain ⟨o, h⟩ := okAt_elim h
  intro op ps
  obtain ⟨ts, q', h1, h2⟩ := Win.use (q := (op, ps)) hA hB hr hf hs (by simp) h
  rw [h2.snd] at h1
  exact ⟨_, _, h1⟩
theorem Win.eatsAt {M : Nat} (h : okAt (A.length + j) (run n (.mk2 A B shun facts stars (some M)) e 0 .same []) = true)
    (hA : Span w A p p1) (hB : Lay w B p1 qs) (hr : ∀ r ∈ shun, Shuns w (.nt r none) p)
    (hf : ∀ f ∈ facts, FactOk w (Mark p1 qs) f) (hs : ∀ f ∈ stars, Eats w (.star f.2.1) (Mark p1 qs f.1) (Mark p1 qs f.2.2)) :
    EatsAt w M e p (Mark p1 qs j) := by
  obtain ⟨o, h⟩ := okAt_elim h
  intro op ps
  obtain ⟨ts, q', h1, h2⟩ := Win.use (q := (op, M :: ps)) hA hB hr hf hs (by rintro _ ⟨⟩; rfl) h
  rw [h2.snd] at h1
  exact ⟨_, _, h1⟩
theorem Win.shuns (h : noAt (run n (.mk2 A B shun facts stars none) e 0 .same []) = true)
    (hA : Span w A p p1) (hB : Lay w B p1 qs) (hr : ∀ r ∈ shun, Shuns w (.nt r none) p)
    (hf : ∀ f ∈ facts, FactOk w (Mark p1 qs) f) (hs : ∀ f ∈ stars, Eats w (.star f.2.1) (Mark p1 qs f.1) (Mark p1 qs f.2.2)) :
    Shuns w e p := by
  obtain ⟨o, h⟩ := noAt_elim h
  intro op ps
  obtain ⟨q', h1, h2⟩ := Win.deny (q := (op, ps)) hA hB hr hf hs (by simp) h
  rw [h2.snd] at h1
  exact ⟨_, h1⟩
theorem Win.shunsAt {M : Nat} (h : noAt (run n (.mk2 A B shun facts stars (some M)) e 0 .same []) = true)
    (hA : Span w A p p1) (hB : Lay w B p1 qs) (hr : ∀ r ∈ shun, Shuns w (.nt r none) p)
    (hf : ∀ f ∈ facts, FactOk w (Mark p1 qs) f) (hs : ∀ f ∈ stars, Eats w (.star f.2.1) (Mark p1 qs f.1) (Mark p1 qs f.2.2)) :
    ShunsAt w M e p := by
  obtain ⟨o, h⟩ := noAt_elim h
  intro op ps
  obtain ⟨q', h1, h2⟩ := Win.deny (q := (op, M :: ps)) hA hB hr hf hs (by rintro _ ⟨⟩; rfl) h
  rw [h2.snd] at h1
  exact ⟨_, h1⟩

end

theorem Stands.eq {q q' : QState} (h : Stands q .same [] q') : q' = q := Prod.ext (h.same rfl) h.ps
/-! ## Bytes -/

theorem every_byte {P : UInt8 → Bool} (h : (List.range 256).all (fun n => P n.toUInt8) = true) : ∀ c, P c = true := by
  intro c
  rw [List.all_eq_true] at h
  have := h c.toNat (by simpa using UInt8.toNat_lt c)
  simpa using this

/-- From `p` on the text is `t`. -/
def Here (w : List UInt8) (p : Nat) (t : List UInt8) : Prop := w.drop p = t

theorem Here.start (w : List UInt8) : Here w 0 w := rfl
theorem Here.right {p : Nat} {s t : List UInt8} (h : Here w p (s ++ t)) : Here w (p + s.length) t := by
  unfold Here at h ⊢
  rw [← List.drop_drop, h, List.drop_left]
theorem Here.tail {p : Nat} {c : UInt8} {t : List UInt8} (h : Here w p (c :: t)) : Here w (p + 1) t :=
  Here.right (s := [c]) h
theorem Here.head {p : Nat} {c : UInt8} {t : List UInt8} (h : Here w p (c :: t)) : w[p]? = some c := by
  have := congrArg List.head? h
  simpa [List.head?_drop] using this

theorem CellAt.of_byte {p : Nat} {c : UInt8} {t : List UInt8} {K : CharSet} (h : Here w p (c :: t)) (hK : K.mem c = true) :
    CellAt w (.byte K) p (p + 1) := ⟨rfl, c, h.head, hK⟩

theorem CellAt.of_hole {p p' : Nat} {c : UInt8} {t : List UInt8} {K : CharSet} (h : Here w p (c :: t))
    (hK : K.mem c = true) : CellAt w (.hole K) p p' := ⟨c, h.head, hK⟩

theorem CellAt.of_run {p : Nat} {s t : List UInt8} {K : CharSet} (h : Here w p (s ++ t)) (hK : ∀ c ∈ s, K.mem c = true) :
    CellAt w (.run K) p (p + s.length) := by
  refine ⟨s.length, rfl, fun i hi => ⟨s[i], ?_, hK _ (List.getElem_mem hi)⟩⟩
  unfold Here at h
  rw [← List.getElem?_drop, h, List.getElem?_append_left hi, List.getElem?_eq_getElem hi]

/-- Bytes one by one. -/
theorem Span.bytes {Ks : List CharSet} {s : List UInt8} (h : List.Forall₂ (fun K c => K.mem c = true) Ks s) :
    ∀ {p : Nat} {t : List UInt8}, Here w p (s ++ t) → Span w (Ks.map .byte) p (p + s.length) := by
  induction h with
  | nil => intro p t _; exact .nil
  | @cons K c Ks s hc _ ih =>
    intro p t hh
    have := ih (hh.tail)
    rw [show p + (c :: s).length = p + 1 + s.length by simp; omega]
    exact .cons (.of_byte hh hc) this

/-! ## White space -/

/-- White space and comments do not go on here. -/
def Solid (t : List UInt8) : Prop := t = [] ∨ ∃ c r, t = c :: r ∧ c ≠ 32 ∧ c ≠ 9 ∧ c ≠ 10 ∧ c ≠ 13 ∧
  (c = 47 → ∃ d r', r = d :: r' ∧ d ≠ 47 ∧ d ≠ 42)

theorem CellAt.of_fin {p p' : Nat} (h : Here w p []) : CellAt w .fin p p' := by
  have := congrArg List.length h
  simp only [List.length_drop, List.length_nil] at this
  show w.length ≤ p
  omega

def notBlank : CharSet := ⟨2 ^ 256 - 1 - 0x800100002600⟩
def notComment : CharSet := ⟨2 ^ 256 - 1 - 0x840000000000⟩

def wsStep : E := .alt (.nt .r_WS none) (.nt .r_comment none)

theorem ws_body : (grammar .r_ws).body = .star wsStep := rfl

theorem wsStep_space {p : Nat} {c : UInt8} {t : List UInt8} (hc : c = 32 ∨ c = 9) (h : Here w p (c :: t)) (q : QState) :
    ∃ ts, Hush w wsStep p q (.ok (p + 1) ts q) := by
  obtain ⟨ts, q', h1, h2⟩ := Win.use (A := [.byte ⟨0x100000200⟩]) (B := []) (p := p) (p1 := p + 1) (qs := []) (facts := []) (stars := []) (shun := [])
    (top := none) (q := q) (n := 20) (e := wsStep) (j := 0) (op := .same)
    (.cons (.of_byte h (by rcases hc with rfl | rfl <;> decide)) .nil) .nil (by simp) (by simp) (by simp) (by simp) (by decide +kernel)
  rw [h2.eq] at h1
  exact ⟨ts, h1⟩

theorem wsStep_newline {p : Nat} {t : List UInt8} (h : Here w p (10 :: t)) (q : QState) :
    ∃ ts, Hush w wsStep p q (.ok (p + 1) ts q) := by
  obtain ⟨ts, q', h1, h2⟩ := Win.use (A := [.byte ⟨0x400⟩]) (B := []) (p := p) (p1 := p + 1) (qs := []) (facts := []) (stars := []) (shun := [])
    (top := none) (q := q) (n := 20) (e := wsStep) (j := 0) (op := .same)
    (.cons (.of_byte h (by decide)) .nil) .nil (by simp) (by simp) (by simp) (by simp) (by decide +kernel)
  rw [h2.eq] at h1
  exact ⟨ts, h1⟩

theorem wsStep_crlf {p : Nat} {t : List UInt8} (h : Here w p (13 :: 10 :: t)) (q : QState) :
    ∃ ts, Hush w wsStep p q (.ok (p + 2) ts q) := by
  obtain ⟨ts, q', h1, h2⟩ := Win.use (A := [.byte ⟨0x2000⟩, .byte ⟨0x400⟩]) (B := []) (p := p) (p1 := p + 2) (qs := []) (facts := []) (shun := [])
    (stars := []) (top := none) (q := q) (n := 20) (e := wsStep) (j := 0) (op := .same)
    (.cons (.of_byte h (by decide)) (.cons (.of_byte h.tail (by decide)) .nil)) .nil (by simp) (by simp) (by simp) (by simp)
    (by decide +kernel)
  rw [h2.eq] at h1
  exact ⟨ts, h1⟩

theorem notBlank_mem (c : UInt8) : (c == 32 || c == 9 || c == 10 || c == 13 || c == 47 || notBlank.mem c) = true :=
  every_byte (P := fun c => c == 32 || c == 9 || c == 10 || c == 13 || c == 47 || notBlank.mem c) (by decide +kernel) c
theorem notComment_mem (c : UInt8) : (c == 42 || c == 47 || notComment.mem c) = true :=
  every_byte (P := fun c => c == 42 || c == 47 || notComment.mem c) (by decide +kernel) c

theorem wsStep_end {p : Nat} {t : List UInt8} (hs : Solid t) (h : Here w p t) (q : QState) :
    Hush w wsStep p q (.no q) := by
  rcases hs with rfl | ⟨c, r, rfl, h1, h2, h3, h4, h5⟩
  · obtain ⟨q', g1, g2⟩ := Win.deny (A := [.fin]) (B := []) (p := p) (p1 := p) (qs := []) (facts := []) (shun := [])
      (stars := []) (top := none) (q := q) (n := 20) (e := wsStep) (op := .same)
      (.cons (.of_fin h) .nil) .nil (by simp) (by simp) (by simp) (by simp) (by decide +kernel)
    rw [g2.eq] at g1
    exact g1
  by_cases hc : c = 47
  · obtain ⟨d, r', rfl, h6, h7⟩ := h5 hc
    subst hc
    obtain ⟨q', g1, g2⟩ := Win.deny (A := [.byte ⟨0x800000000000⟩, .byte notComment]) (B := []) (p := p) (p1 := p + 2) (qs := []) (facts := []) (shun := [])
      (stars := []) (top := none) (q := q) (n := 20) (e := wsStep) (op := .same)
      (.cons (.of_byte h (by decide)) (.cons (.of_byte h.tail (by
        have := notComment_mem d
        simpa [h6, h7] using this)) .nil)) .nil (by simp) (by simp) (by simp) (by simp)
      (by decide +kernel)
    rw [g2.eq] at g1
    exact g1
  · obtain ⟨q', g1, g2⟩ := Win.deny (A := [.byte notBlank]) (B := []) (p := p) (p1 := p + 1) (qs := []) (facts := []) (shun := [])
      (stars := []) (top := none) (q := q) (n := 20) (e := wsStep) (op := .same)
      (.cons (.of_byte h (by
        have := notBlank_mem c
        simpa [h1, h2, h3, h4, hc] using this)) .nil) .nil (by simp) (by simp) (by simp) (by simp)
      (by decide +kernel)
    rw [g2.eq] at g1
    exact g1

theorem gap_star {b t : List UInt8} (hb : Gap b) (hs : Solid t) (q : QState) : ∀ {p : Nat}, Here w p (b ++ t) →
    ∃ ts, Hush w (.star wsStep) p q (.ok (p + b.length) ts q) := by
  induction hb with
  | nil => intro p h; exact ⟨_, .star_end (wsStep_end hs h q)⟩
  | @char c b hc _ ih =>
    intro p h
    obtain ⟨ts, h1⟩ : ∃ ts, Hush w wsStep p q (.ok (p + 1) ts q) := by
      rcases hc with rfl | rfl | rfl
      · exact wsStep_space (.inl rfl) h q
      · exact wsStep_space (.inr rfl) h q
      · exact wsStep_newline h q
    obtain ⟨us, h2⟩ := ih (p := p + 1) h.tail
    rw [show p + (c :: b).length = p + 1 + b.length by simp; omega]
    exact ⟨_, .star_more h1 h2⟩
  | @crlf b _ ih =>
    intro p h
    obtain ⟨ts, h1⟩ := wsStep_crlf h q
    obtain ⟨us, h2⟩ := ih (p := p + 2) h.tail.tail
    rw [show p + (13 :: 10 :: b).length = p + 2 + b.length by simp; omega]
    exact ⟨_, .star_more h1 h2⟩

/-- The rule for white space takes all of it. -/
theorem gap_ws {b t : List UInt8} (hb : Gap b) (hs : Solid t) {p : Nat} (h : Here w p (b ++ t)) (v : Option Nat)
    (q : QState) : ∃ ts, Hush w (.nt .r_ws v) p q (.ok (p + b.length) ts q) := by
  obtain ⟨ts, h1⟩ := gap_star hb hs q h
  exact ⟨_, .nt_ok h1⟩

theorem CellAt.of_gap {b t : List UInt8} (hb : Gap b) (hs : Solid t) {p : Nat} (h : Here w p (b ++ t)) {ne : Bool}
    (hne : ne = true → b ≠ []) : CellAt w (.ws ne) p (p + b.length) := by
  refine ⟨?_, fun v q => gap_ws hb hs h v q⟩
  cases hb with
  | nil =>
    refine .inl ⟨rfl, ?_⟩
    cases ne with
    | false => rfl
    | true => exact absurd rfl (hne rfl)
  | char hc _ => exact .inr ⟨_, h.head, by rcases hc with rfl | rfl | rfl <;> decide⟩
  | crlf _ => exact .inr ⟨_, h.head, by decide⟩

end Verif.Cypher
