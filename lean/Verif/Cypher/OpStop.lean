import Verif.Cypher.OpText
/-!
# Where an operand ends

An operand of an operator ends where the loop of `_expression` (parser.leg:420-450) does not go on. Were
the loop started again there at a lower level, it could go on only with an operator that the first level
did not allow.
-/
namespace Verif.Cypher
open Verif.Peg Verif.Ops

/-! ## Levels -/

def Op.all : List Op :=
  [.or, .xor, .and, .not, .equal, .nequal, .lt, .gt, .lte, .gte, .plus, .minus, .mult, .div, .mod, .pow,
    .unaryPlus, .unaryMinus, .regex, .in_, .startsWith, .endsWith, .contains, .isNull, .isNotNull,
    .mapProjection, .subscript, .property, .label]

theorem Op.mem_all (o : Op) : o ∈ Op.all := by cases o <;> decide

instance (x y : Op) : Decidable (Takes x y) := by unfold Takes; infer_instance

/-- The precedences of operators.c are those of the specification. -/
theorem takes_iff (x y : Op) : Takes x y ↔ x.next ≤ y.prec := by
  have : ∀ x ∈ Op.all, ∀ y ∈ Op.all, Takes x y ↔ x.next ≤ y.prec := by decide +kernel
  exact this x (Op.mem_all x) y (Op.mem_all y)

/-! ## The loop -/

/-- `.name` -/
def altDot : E :=
  .seq (.nt .r_DOT none) (.seq (.pred (.op .property)) (.seq (.pred .precChk) (.seq (.nt .r_ws none)
    (.seq (.nt .r_prop_name (some 1)) (.seq (.nt .r__block_replace_ none)
      (.act (.build (.var 0) .propertyOperator [some 0, some 1])))))))
/-- The operator and the right operand. -/
def infixTail : E :=
  .seq (.nt .r_ws none) (.seq (.nt .r__prec_expression (some 2)) (.seq (.nt .r__block_replace_ none)
    (.act (.build (.var 0) .binaryOperator [some 0, some 2]))))
def altInfix : E := .seq (.nt .r_INFIX_OP none) (.seq (.pred .precChk) infixTail)
/-- One comparison of a chain. -/
def cmpTail : E :=
  .seq (.nt .r_ws none) (.seq (.nt .r__prec_expression (some 2)) (.act (.seqAdd [2])))
def cmpStep : E := .seq (.nt .r_COMPARISON_OP none) (.seq (.pred .precChk) cmpTail)
def cmpEnd : E := .seq (.nt .r__block_replace_ none) (.act (.build (.var 0) .comparisonOperator []))
def altCmp : E := .seq (.act (.seqAdd [0])) (.seq (.plus cmpStep) cmpEnd)
def postTail : E := .seq (.nt .r__block_replace_ none) (.act (.build (.var 0) .unaryOperator [some 0]))
def altPost : E := .seq (.nt .r_POSTFIX_OP none) (.seq (.pred .precChk) postTail)
def altSub : E :=
  .seq (.nt .r_LEFT_SQ_PAREN none) (.seq (.pred (.op .subscript)) (.seq (.pred .precChk)
    (.seq (.nt .r_ws none) (.seq (.nt .r_expression (some 2)) (.seq (.nt .r_RIGHT_SQ_PAREN none)
      (.seq (.nt .r_ws none) (.seq (.nt .r__block_replace_ none)
        (.act (.build (.var 0) .subscriptOperator [some 0, some 2])))))))))
def altSlice : E :=
  .seq (.nt .r_LEFT_SQ_PAREN none) (.seq (.pred (.op .subscript)) (.seq (.pred .precChk)
    (.seq (.nt .r_ws none) (.seq (.alt (.nt .r_expression (some 3)) (.nt .r__null_ (some 3)))
      (.seq (.nt .r_ELLIPSIS none) (.seq (.nt .r_ws none)
        (.seq (.alt (.nt .r_expression (some 4)) (.nt .r__null_ (some 4)))
          (.seq (.nt .r_RIGHT_SQ_PAREN none) (.seq (.nt .r_ws none) (.seq (.nt .r__block_replace_ none)
            (.act (.build (.var 0) .sliceOperator [some 0, some 3, some 4]))))))))))))
def altMap : E :=
  .seq (.nt .r_LEFT_CURLY none) (.seq (.pred (.op .mapProjection)) (.seq (.pred .precChk)
    (.seq (.nt .r_ws none)
      (.seq (.opt (.seq (.nt .r_map_projection_element (some 5)) (.seq (.act (.seqAdd [5]))
          (.star (.seq (.nt .r_COMMA none) (.seq (.nt .r_ws none)
            (.seq (.nt .r_map_projection_element (some 5)) (.act (.seqAdd [5])))))))))
        (.seq (.nt .r_RIGHT_CURLY none) (.seq (.nt .r_ws none) (.seq (.nt .r__block_replace_ none)
          (.act (.build (.var 0) .mapProjection [some 0])))))))))
def labelTail : E := .seq (.nt .r_label (some 1)) (.act (.seqAdd [1]))
def labelStep : E := .seq (.pred (.op .label)) (.seq (.pred .precChk) labelTail)
def labelEnd : E := .seq (.nt .r__block_replace_ none) (.act (.build (.var 0) .labelsOperator [some 0]))
def altLabel : E := .seq (.plus labelStep) labelEnd

/-- What may follow an operand. -/
def loop : E :=
  .alt altDot (.alt altInfix (.alt altCmp (.alt altPost (.alt altSub (.alt altSlice (.alt altMap altLabel))))))

def exprFirst : E :=
  .seq (.nt .r__block_start_ none) (.seq (.nt .r__atom (some 0)) (.seq (.plus loop)
    (.seq (.nt .r__block_merge_ none) (.act (.copy 0)))))

/-- The rule `_expression` is made of these. -/
theorem expression_body : (grammar .r__expression).body = .alt exprFirst (.nt .r__atom none) := rfl

/-- There is no comparison at level `M`. -/
def Over (w : List UInt8) (p M : Nat) : Prop := ∃ op ps q', Sk w cmpStep p (op, M :: ps) (.no q')

/-- The loop does not go on at level `M`. -/
def Halt (w : List UInt8) (p M : Nat) : Prop := ∃ op ps q', Sk w loop p (op, M :: ps) (.no q')

section
variable {w : List UInt8} {n : Nat} {e a b c : E} {p p1 p' M : Nat} {q q' q₁ q₁' q₂ : QState} {res : SkRes}
  {ts us : List (Peg.Thunk Act)} {ys₁ ys₂ ps : List Nat} {v v' : Bool} {o : Op}

/-- Expressions that leave the stack of precedences as it was. -/
def levelE (e : E) : Bool := match vis 1 e false 0 with
  | some (o, f) => (match o with | none => true | some (_, k) => k == 0) &&
      (match f with | none => true | some k => k == 0)
  | none => false

theorem Sk.level (h : Sk w e p (o', M :: ps) res) (he : levelE e = true) : res.q.2 = M :: ps := by
  unfold levelE at he
  split at he
  · rename_i o f hv
    simp only [Bool.and_eq_true] at he
    have := sim h (d := [M]) (ys₁ := ps) (ys₂ := ps) (b := false) (n := 0) hv
      (q₂ := (o', M :: ps)) ⟨⟨[], rfl, rfl, rfl⟩, fun h => by cases h⟩
    cases res with
    | ok p' ts q' =>
      obtain ⟨q2, h1, b', n', rfl, ⟨zs, h3, h4, h5⟩, -⟩ := this
      have hn : n' = 0 := by simpa using he.1
      subst hn
      have : zs = [] := List.length_eq_zero_iff.1 h3
      subst this
      exact h4
    | no q' =>
      obtain ⟨q2, h1, n', rfl, ⟨zs, h3, h4, h5⟩, -⟩ := this
      have hn : n' = 0 := by simpa using he.2
      subst hn
      have : zs = [] := List.length_eq_zero_iff.1 h3
      subst this
      exact h4
  · cases he

/-- What matches at one level does not fail at another. -/
theorem no_fail (h : Sk w e p q₁ (.ok p' ts q₁')) (hv : (vis 0 e v 0).isSome = true)
    (hr : Rel [] ys₁ ys₂ v 0 q₁ q₂) : ¬ Sk w e p q₂ (.no q) := by
  intro hf
  obtain ⟨⟨o, f⟩, hv⟩ := Option.isSome_iff_exists.1 hv
  obtain ⟨q2, h1, -⟩ := sim h (d := []) hv hr
  cases hf.det h1

/-- A failure after what matches at another level is a failure of the rest. -/
theorem fail_seq (h : Sk w a p q₁ (.ok p1 us q₁')) {f : Option Nat}
    (hv : vis 0 a v 0 = some (some (v', 0), f)) (hr : Rel [] ys₁ ys₂ v 0 q₁ q₂)
    (hf : Sk w (.seq a b) p q₂ (.no q)) :
    ∃ q₂', Rel [] ys₁ ys₂ v' 0 q₁' q₂' ∧ Sk w b p1 q₂' (.no q) := by
  obtain ⟨q2, h1, b', n', h2, h3⟩ := sim h (d := []) hv hr
  cases h2
  cases hf with
  | seq_no h => cases h.det h1
  | seq_no2 h h' =>
    cases h.det h1
    exact ⟨q2, h3, h'⟩

/-- The precedence allows the operator, so it is not the check that fails. -/
theorem fail_chk (hf : Sk w (.seq (.pred .precChk) b) p (some o, M :: ps) (.no q)) (hM : M ≤ o.prec) :
    Sk w b p (some o, M :: ps) (.no q) := by
  cases hf with
  | seq_no h =>
    cases h with
    | pred_no h => simp [qpred, lastPrec, hM] at h
  | seq_no2 h h' =>
    cases h with
    | pred_ok h => simp [qpred, lastPrec] at h; rw [h.2]; exact h'

theorem Rel.none (q₁ q₂ : QState) : Rel [] q₁.2 q₂.2 false 0 q₁ q₂ :=
  ⟨⟨[], rfl, rfl, rfl⟩, fun h => by cases h⟩

theorem Rel.same (hr : Rel [] ys₁ ys₂ true 0 q₁ q₂) (ho : q₁.1 = some o) : q₂ = (some o, ys₂) := by
  obtain ⟨zs, z1, -, z3⟩ := hr.stk
  have : zs = [] := List.length_eq_zero_iff.1 z1
  subst this
  exact Prod.ext ((hr.op rfl).symm.trans ho) z3

/-- An operator that is allowed: the check and the rest. -/
theorem chk_inv (h : Sk w (.seq (.pred .precChk) b) p q₁ (.ok p' ts q')) :
    ∃ o, q₁.1 = some o ∧ lastPrec q₁.2 ≤ o.prec ∧ Sk w b p q₁ (.ok p' ts q') := by
  cases h with
  | seq_ok h h' =>
    cases h with
    | pred_ok h =>
      simp only [qpred] at h
      split at h
      · cases h
      · rename_i o ho
        simp only [Option.some.injEq, Prod.mk.injEq, decide_eq_true_eq] at h
        obtain ⟨h1, rfl⟩ := h
        exact ⟨o, ho, h1, by simpa [recT] using h'⟩

/-- The common part: the check and the rest fail at a level that allows the operator. -/
theorem chk_absurd (h : Sk w (.seq (.pred .precChk) b) p q₁ (.ok p' ts q')) (ho : q₁.1 = some o)
    (hv : (vis 0 b true 0).isSome = true) (hr : Rel [] ys₁ (M :: ps) true 0 q₁ q₂) (hM : M ≤ o.prec) :
    ¬ Sk w (.seq (.pred .precChk) b) p q₂ (.no q) := by
  intro hf
  obtain ⟨o', h1, -, h2⟩ := chk_inv h
  cases ho.symm.trans h1
  have hq := hr.same ho
  subst hq
  exact no_fail h2 hv hr (fail_chk hf hM)

/-- An operator written as a rule: `T` leaves the operator. -/
theorem tok_absurd {T : Rule} (hT : isTok T = true) (h : Sk w (.seq (.nt T none) (.seq (.pred .precChk) b)) p q₁ (.ok p' ts q'))
    (hv : (vis 0 b true 0).isSome = true) :
    ∃ o p1 us q1 vs, Sk w (.nt T none) p q₁ (.ok p1 us q1) ∧ q1.1 = some o ∧
      Sk w (.seq (.pred .precChk) b) p1 q1 (.ok p' vs q') ∧
      (∀ M op ps q, M ≤ o.prec →
        ¬ Sk w (.seq (.nt T none) (.seq (.pred .precChk) b)) p (op, M :: ps) (.no q)) := by
  cases h with
  | @seq_ok _ _ _ _ p1 us q1 _ vs _ h1 h2 =>
    obtain ⟨o, g1, -, -⟩ := chk_inv h2
    refine ⟨o, p1, us, q1, vs, h1, g1, h2, fun M op ps q hM hf => ?_⟩
    have hT' : vis 0 (.nt T none) false 0 = some (some (true, 0), some 0) := by
      simp only [vis, hT, Bool.or_true]
      rw [if_neg]
      rintro (⟨rfl, -⟩ | ⟨rfl, -⟩) <;> cases hT
    obtain ⟨q2, g3, g4⟩ := fail_seq h1 hT' (.none _ (op, M :: ps)) hf
    exact chk_absurd h2 g1 hv g3 hM g4

/-- An operator named in the rule, after `D`. -/
theorem sign_absurd {D : Rule} {x : Op} (hD : isTok D = false ∧ D ≠ .r__expression ∧ D ≠ .r__prec_expression)
    (h : Sk w (.seq (.nt D none) (.seq (.pred (.op x)) (.seq (.pred .precChk) b))) p q₁ (.ok p' ts q'))
    (hv : (vis 0 b true 0).isSome = true) (hM : M ≤ x.prec) :
    ¬ Sk w (.seq (.nt D none) (.seq (.pred (.op x)) (.seq (.pred .precChk) b))) p (op, M :: ps) (.no q) := by
  intro hf
  cases h with
  | @seq_ok _ _ _ _ p1 us q1 _ vs _ h1 h2 =>
    have hT' : vis 0 (.nt D none) false 0 = some (some (false, 0), some 0) := by
      simp only [vis, hD.1, Bool.or_false]
      rw [if_neg]
      rintro (⟨rfl, -⟩ | ⟨rfl, -⟩)
      · exact hD.2.1 rfl
      · exact hD.2.2 rfl
    obtain ⟨q2, g3, g4⟩ := fail_seq h1 hT' (.none _ (op, M :: ps)) hf
    cases h2 with
    | seq_ok h2 h3 =>
      obtain ⟨q3, g5, g6⟩ := fail_seq h2 (v' := true) (f := none) rfl g3 g4
      cases h2 with
      | pred_ok h2 =>
        cases h2
        exact chk_absurd h3 rfl hv g5 hM g6

/-! ## The alternatives -/

/-- The parts of `loop` that can fail, when it does. -/
structure Stopped (w : List UInt8) (p M : Nat) : Prop where
  dot : ∃ op ps q, Sk w altDot p (op, M :: ps) (.no q)
  inf : ∃ op ps q, Sk w altInfix p (op, M :: ps) (.no q)
  cmp : ∃ op ps q, Sk w cmpStep p (op, M :: ps) (.no q)
  post : ∃ op ps q, Sk w altPost p (op, M :: ps) (.no q)
  sub : ∃ op ps q, Sk w altSub p (op, M :: ps) (.no q)
  slice : ∃ op ps q, Sk w altSlice p (op, M :: ps) (.no q)
  map : ∃ op ps q, Sk w altMap p (op, M :: ps) (.no q)
  label : ∃ op ps q, Sk w labelStep p (op, M :: ps) (.no q)

theorem alt_fails (h : Sk w (.alt a b) p (op, M :: ps) (.no q)) (ha : levelE a = true) :
    (∃ op ps q, Sk w a p (op, M :: ps) (.no q)) ∧ ∃ op ps q, Sk w b p (op, M :: ps) (.no q) := by
  cases h with
  | @alt_no _ _ _ _ q1 _ h1 h2 =>
    refine ⟨⟨_, _, _, h1⟩, ?_⟩
    have := h1.level ha
    obtain ⟨x, y⟩ := q1
    simp only [SkRes.q] at this
    subst this
    exact ⟨_, _, _, h2⟩

theorem act_ok {x : Act} : ¬ Sk w (.act x) p q (.no q') := by
  intro h; cases h

/-- The end of an alternative does not fail. -/
theorem end_ok {x : Act} : ¬ Sk w (.seq (.nt .r__block_replace_ none) (.act x)) p q (.no q') := by
  intro h
  cases h with
  | seq_no h =>
    cases h with
    | nt_no h =>
      have h : Sk w (.pred .blockReplace) p q (.no q') := h
      cases h with
      | pred_no h => cases h
  | seq_no2 _ h => exact act_ok h

theorem star_ok : ¬ Sk w (.star a) p q (.no q') := by
  intro h; cases h

theorem plus_fails (h : Sk w (.plus a) p q (.no q')) : Sk w a p q (.no q') := by
  cases h with
  | seq_no h => exact h
  | seq_no2 _ h => exact (star_ok h).elim

theorem Halt.parts (h : Halt w p M) : Stopped w p M := by
  obtain ⟨op, ps, q, h⟩ := h
  obtain ⟨h1, op, ps, q, h⟩ := alt_fails h (by decide +kernel)
  obtain ⟨h2, op, ps, q, h⟩ := alt_fails h (by decide +kernel)
  obtain ⟨h3, op, ps, q, h⟩ := alt_fails h (by decide +kernel)
  obtain ⟨h4, op, ps, q, h⟩ := alt_fails h (by decide +kernel)
  obtain ⟨h5, op, ps, q, h⟩ := alt_fails h (by decide +kernel)
  obtain ⟨h6, op, ps, q, h⟩ := alt_fails h (by decide +kernel)
  obtain ⟨h7, op, ps, q, h⟩ := alt_fails h (by decide +kernel)
  refine ⟨h1, h2, ?_, h4, h5, h6, h7, ?_⟩
  · obtain ⟨op, ps, q, h⟩ := h3
    cases h with
    | seq_no h => exact (act_ok h).elim
    | seq_no2 h h' =>
      cases h
      cases h' with
      | seq_no h => exact ⟨_, _, _, plus_fails h⟩
      | seq_no2 _ h => exact (end_ok h).elim
  · cases h with
    | seq_no h => exact ⟨_, _, _, plus_fails h⟩
    | seq_no2 _ h => exact (end_ok h).elim

/-- An operator after an operand does not belong to an operator at whose level the operand ended. -/
theorem stop_infix (h : Sk w altInfix p q₁ (.ok p' ts q')) : ∃ o p1 us q1 vs,
    Sk w (.nt .r_INFIX_OP none) p q₁ (.ok p1 us q1) ∧ q1.1 = some o ∧
      Sk w (.seq (.pred .precChk) infixTail) p1 q1 (.ok p' vs q') ∧ (∀ M, M ≤ o.prec → ¬ Halt w p M) := by
  obtain ⟨o, p1, us, q1, vs, h1, h2, h3, h4⟩ := tok_absurd rfl h (by decide +kernel)
  refine ⟨o, p1, us, q1, vs, h1, h2, h3, fun M hM hs => ?_⟩
  obtain ⟨op, ps, q, hf⟩ := hs.parts.inf
  exact h4 _ _ _ _ hM hf

theorem stop_post (h : Sk w altPost p q₁ (.ok p' ts q')) : ∃ o p1 us q1 vs,
    Sk w (.nt .r_POSTFIX_OP none) p q₁ (.ok p1 us q1) ∧ q1.1 = some o ∧
      Sk w (.seq (.pred .precChk) postTail) p1 q1 (.ok p' vs q') ∧ (∀ M, M ≤ o.prec → ¬ Halt w p M) := by
  obtain ⟨o, p1, us, q1, vs, h1, h2, h3, h4⟩ := tok_absurd rfl h (by decide +kernel)
  refine ⟨o, p1, us, q1, vs, h1, h2, h3, fun M hM hs => ?_⟩
  obtain ⟨op, ps, q, hf⟩ := hs.parts.post
  exact h4 _ _ _ _ hM hf

theorem stop_cmp (h : Sk w cmpStep p q₁ (.ok p' ts q')) : ∃ o p1 us q1 vs,
    Sk w (.nt .r_COMPARISON_OP none) p q₁ (.ok p1 us q1) ∧ q1.1 = some o ∧
      Sk w (.seq (.pred .precChk) cmpTail) p1 q1 (.ok p' vs q') ∧ (∀ M, M ≤ o.prec → ¬ Halt w p M) ∧
      (∀ M, M ≤ o.prec → ¬ Over w p M) := by
  obtain ⟨o, p1, us, q1, vs, h1, h2, h3, h4⟩ := tok_absurd rfl h (by decide +kernel)
  refine ⟨o, p1, us, q1, vs, h1, h2, h3, fun M hM hs => ?_, fun M hM ⟨op, ps, q, hf⟩ => h4 _ _ _ _ hM hf⟩
  obtain ⟨op, ps, q, hf⟩ := hs.parts.cmp
  exact h4 _ _ _ _ hM hf

theorem stop_dot (h : Sk w altDot p q₁ (.ok p' ts q')) (hM : M ≤ Op.property.prec) : ¬ Halt w p M := by
  intro hs
  obtain ⟨op, ps, q, hf⟩ := hs.parts.dot
  exact sign_absurd ⟨rfl, by decide, by decide⟩ h (by decide +kernel) hM hf

theorem stop_sub (h : Sk w altSub p q₁ (.ok p' ts q')) (hM : M ≤ Op.subscript.prec) : ¬ Halt w p M := by
  intro hs
  obtain ⟨op, ps, q, hf⟩ := hs.parts.sub
  exact sign_absurd ⟨rfl, by decide, by decide⟩ h (by decide +kernel) hM hf

theorem stop_slice (h : Sk w altSlice p q₁ (.ok p' ts q')) (hM : M ≤ Op.subscript.prec) : ¬ Halt w p M := by
  intro hs
  obtain ⟨op, ps, q, hf⟩ := hs.parts.slice
  exact sign_absurd ⟨rfl, by decide, by decide⟩ h (by decide +kernel) hM hf

theorem stop_map (h : Sk w altMap p q₁ (.ok p' ts q')) (hM : M ≤ Op.mapProjection.prec) : ¬ Halt w p M := by
  intro hs
  obtain ⟨op, ps, q, hf⟩ := hs.parts.map
  exact sign_absurd ⟨rfl, by decide, by decide⟩ h (by decide +kernel) hM hf

theorem stop_label (h : Sk w labelStep p q₁ (.ok p' ts q')) (hM : M ≤ Op.label.prec) : ¬ Halt w p M := by
  intro hs
  obtain ⟨op, ps, q, hf⟩ := hs.parts.label
  cases h with
  | seq_ok h1 h2 =>
    obtain ⟨q3, g5, g6⟩ := fail_seq h1 (v := false) (v' := true) (f := none) rfl (.none _ (op, M :: ps)) hf
    cases h1 with
    | pred_ok h1 =>
      cases h1
      exact chk_absurd h2 rfl (by decide +kernel) g5 hM g6

end
end Verif.Cypher
