import Verif.Cypher.DetailText
/-!
# Facts about the table of `detailstr` functions
-/
namespace Verif.Cypher
open Verif Verif.Print List

/-- Identifiers and strings are made in two ways; nothing in the node tells which. -/
def Ctor.plain : Ctor → Ctor
  | .blockIdentifier => .strbufIdentifier
  | .strbufString => .blockString
  | c => c

/-- The constructor with some type and flags. -/
def Ctor.again (fs : List Nat) : AstType → Ctor
  | .statement => .statement
  | .cypherOption => .cypherOption
  | .cypherOptionParam => .cypherOptionParam
  | .explainOption => .explainOption
  | .profileOption => .profileOption
  | .createNodePropsIndex => .createIndex
  | .dropNodePropsIndex => .dropIndex
  | .createNodePropConstraint => .createNodePropConstraint (fs == [1])
  | .dropNodePropConstraint => .dropNodePropConstraint (fs == [1])
  | .createRelPropConstraint => .createRelPropConstraint (fs == [1])
  | .dropRelPropConstraint => .dropRelPropConstraint (fs == [1])
  | .query => .query
  | .usingPeriodicCommit => .usingPeriodicCommit
  | .loadCsv => .loadCsv (fs == [1])
  | .start => .startClause
  | .nodeIndexLookup => .nodeIndexLookup
  | .nodeIndexQuery => .nodeIndexQuery
  | .nodeIdLookup => .nodeIdLookup
  | .allNodesScan => .allNodesScan
  | .relIndexLookup => .relIndexLookup
  | .relIndexQuery => .relIndexQuery
  | .relIdLookup => .relIdLookup
  | .allRelsScan => .allRelsScan
  | .match_ => .matchClause (fs == [1])
  | .usingIndex => .usingIndex
  | .usingJoin => .usingJoin
  | .usingScan => .usingScan
  | .merge => .mergeClause
  | .onMatch => .onMatch
  | .onCreate => .onCreate
  | .create => .createClause (fs == [1])
  | .set_ => .setClause
  | .setProperty => .setProperty
  | .setAllProperties => .setAllProperties
  | .mergeProperties => .mergeProperties
  | .setLabels => .setLabels
  | .deleteClause => .delete (fs == [1])
  | .remove => .removeClause
  | .removeProperty => .removeProperty
  | .removeLabels => .removeLabels
  | .foreach => .foreachClause
  | .with_ => .withClause (fs == [1] || fs == [3]) (fs == [2] || fs == [3])
  | .unwind => .unwindClause
  | .call => .callClause
  | .returnClause => .returnClause (fs == [1] || fs == [3]) (fs == [2] || fs == [3])
  | .projection => .projection
  | .orderBy => .orderBy
  | .sortItem => .sortItem (fs == [1])
  | .unionClause => .unionClause (fs == [1])
  | .unaryOperator => .unaryOperator
  | .binaryOperator => .binaryOperator
  | .comparison => .comparisonOperator
  | .applyOperator => .applyOperator (fs == [1])
  | .applyAllOperator => .applyAllOperator (fs == [1])
  | .propertyOperator => .propertyOperator
  | .subscriptOperator => .subscriptOperator
  | .sliceOperator => .sliceOperator
  | .mapProjection => .mapProjection
  | .mapProjectionLiteral => .mapProjectionLiteral
  | .mapProjectionProperty => .mapProjectionProperty
  | .mapProjectionIdentifier => .mapProjectionIdentifier
  | .mapProjectionAllProperties => .mapProjectionAllProperties
  | .labelsOperator => .labelsOperator
  | .listComprehension => .listComprehension
  | .patternComprehension => .patternComprehension
  | .caseExpression => .caseExpression
  | .filter_ => .filter
  | .extract => .extract
  | .reduce => .reduce
  | .all_ => .allPredicate
  | .any_ => .anyPredicate
  | .single => .singlePredicate
  | .none_ => .nonePredicate
  | .collection => .collectionLiteral
  | .map_ => .mapLiteral
  | .identifier => .strbufIdentifier
  | .parameter => .strbufParameter
  | .integer => .strbufInteger
  | .floatLiteral => .strbufFloat
  | .trueLiteral => .trueLiteral
  | .falseLiteral => .falseLiteral
  | .nullLiteral => .nullLiteral
  | .label => .strbufLabel
  | .reltype => .strbufReltype
  | .propName => .strbufPropName
  | .functionName => .strbufFunctionName
  | .indexName => .strbufIndexName
  | .procName => .strbufProcName
  | .pattern => .pattern
  | .namedPath => .namedPath
  | .shortestPath => .shortestPath (fs == [1])
  | .patternPath => .patternPath
  | .nodePattern => .nodePattern
  | .relPattern => .relPattern (if fs = [1, 0] then .inbound else if fs = [0, 1] then .outbound else .bidirectional)
  | .range => .range
  | .command => .command
  | .string => .blockString
  | .lineComment => .lineComment
  | .blockComment => .blockComment
  | .error => .skip
  | _ => .skip

theorem Ctor.again_spec (c : Ctor) : Ctor.again c.flags c.ty = c.plain := by
  cases c <;> first
    | rfl
    | (rename_i a; cases a <;> rfl)
    | (rename_i a b; cases a <;> cases b <;> rfl)

theorem Ctor.again_steps (c : Ctor) : (Ctor.again [] c.ty).steps = c.steps := by
  cases c <;> rfl

theorem Ctor.again_shape (c : Ctor) : (Ctor.again [] c.ty).wants.1 = c.wants.1 ∧
    (Ctor.again [] c.ty).flags.length = c.flags.length := by
  cases c <;> first
    | exact ⟨rfl, rfl⟩
    | (rename_i a; cases a <;> exact ⟨rfl, rfl⟩)

theorem Ctor.again_arrays (c : Ctor) : ((Ctor.again [] c.ty).wants.2 == .none) = (c.wants.2 == .none) ∧
    (match Ctor.again [] c.ty with | .callClause => 2 | _ => 1) = (match c with | .callClause => 2 | _ => 1) := by
  cases c <;> exact ⟨rfl, rfl⟩

theorem Ctor.steps_of_ty {c c' : Ctor} (h : c.ty = c'.ty) : c.steps = c'.steps := by
  rw [← c.again_steps, h, c'.again_steps]

theorem Ctor.wants_of_ty {c c' : Ctor} (h : c.ty = c'.ty) : c.wants.1 = c'.wants.1 := by
  rw [← c.again_shape.1, h, c'.again_shape.1]

theorem Ctor.flags_of_ty {c c' : Ctor} (h : c.ty = c'.ty) : c.flags.length = c'.flags.length := by
  rw [← c.again_shape.2, h, c'.again_shape.2]

theorem Ctor.plain_of {c c' : Ctor} (h : c.ty = c'.ty) (hf : c.flags = c'.flags) : c.plain = c'.plain := by
  rw [← c.again_spec, h, hf, c'.again_spec]

/-! ## The table -/

def Item.litsPlain : Item → Bool
  | .lit t | .flag _ t => t.all plainByte
  | .arg _ => true
  | .opt _ a b => a.all plainByte && b.all plainByte
  | .pick _ ts => ts.all fun t => t.all plainByte
  | .rep _ a b c d => a.all plainByte && b.all plainByte && c.all plainByte && d.all plainByte

def Item.argOf : Item → List Nat
  | .arg i | .opt i _ _ => [i]
  | _ => []

def Item.arrayOf : Item → List Nat
  | .rep k _ _ _ _ => [k]
  | _ => []

/-- An item that tells whether a flag with two values is set, or the flag itself. -/
def Item.flagOf (two : Bool) : Item → List Nat
  | .pick k _ => [k]
  | .flag k _ => if two then [k] else []
  | _ => []

/-- The types whose nodes have a text. -/
def hasText : AstType → Bool
  | .identifier | .parameter | .integer | .floatLiteral | .label | .reltype | .propName | .functionName
  | .indexName | .procName | .string | .lineComment | .blockComment | .error => true
  | _ => false

/-- What is before and after the text. -/
def textShape : List Step → Option (List UInt8 × List UInt8)
  | [.prim (.fmt [.text])] => some ([], [])
  | [.prim (.fmt [.s a, .text])] => some (ascii a, [])
  | [.prim (.fmt [.s a, .text, .s b])] => some (ascii a, ascii b)
  | _ => none

/-- The number of arrays. -/
def Ctor.narrays : Ctor → Nat
  | .callClause => 2
  | _ => 1

def Ctor.tidy (c : Ctor) : Bool :=
  if hasText c.ty then
    (textShape c.steps).isSome && c.wants == ([], .none) && c.flags == []
  else
    match stepsItems c.steps with
    | some is =>
      ok is && is.all Item.litsPlain &&
      (List.range c.wants.1.length).all (fun i => (is.flatMap Item.argOf).contains i) &&
      (c.wants.2 == .none || (List.range c.narrays).all fun k => (is.flatMap Item.arrayOf).contains k) &&
      (List.range c.flags.length).all fun k => (is.flatMap (Item.flagOf (c.flags.all (· ≤ 1)))).contains k
    | none => [.cypherOption, .range, .unaryOperator, .binaryOperator, .comparisonOperator].contains c

theorem Ctor.tidy_all (c : Ctor) : c.tidy = true := by
  cases c <;> first
    | decide +kernel
    | (rename_i a; cases a <;> decide +kernel)
    | (rename_i a b; cases a <;> cases b <;> decide +kernel)

/-! ## Steps that do not fail -/

def Pc.safe (c : Ctor) : Pc → Bool
  | .a i => match c.wants.1[i]? with | some (.node _) | some (.oneOf _ _) => true | _ => false
  | .pick k ts => (c.flags[k]?.getD 0) < ts.length
  | .op => c == .unaryOperator || c == .binaryOperator
  | _ => true

def Prim.safe (c : Ctor) : Prim → Bool
  | .fmt ps => ps.all (Pc.safe c)
  | .path k => k == 0 && c == .patternPath
  | .pairs k _ _ => k == 0 && (c == .caseExpression || c == .mapLiteral)
  | .comparison => c == .comparisonOperator
  | .copy t k | .copyAnd t k => k ≤ (ascii t).length
  | _ => true

def Step.safe (c : Ctor) : Step → Bool
  | .prim p => p.safe c
  | .ifSeq _ ps => ps.all (Prim.safe c)
  | .ifFlag _ t n => n ≤ (ascii t).length
  | .unlessNone _ _ => true

theorem Ctor.safe_all (c : Ctor) : c.steps.all (Step.safe c) = true := by
  cases c <;> first
    | decide +kernel
    | (rename_i a; cases a <;> decide +kernel)
    | (rename_i a b; cases a <;> cases b <;> decide +kernel)

/-- What a well-typed node gives to `detailstr`. -/
structure Given.For (g : Given) (c : Ctor) : Prop where
  args : g.args.length = c.wants.1.length
  arrays : g.arrays.length = c.narrays
  none : c.wants.2 = .none → g.arrays = [[]]
  flags : g.flags = c.flags
  fair : c = .caseExpression ∨ c = .mapLiteral → (g.array 0).length % 2 = 0
  odd : c = .patternPath → (g.array 0).length % 2 = 1
  one : c = .unaryOperator ∨ c = .binaryOperator → g.ops.length = 1
  more : c = .comparisonOperator → g.ops.length + 1 = (g.array 0).length
  others : c ≠ .unaryOperator → c ≠ .binaryOperator → c ≠ .comparisonOperator → g.ops = []
  plain : ∀ o ∈ g.ops, o.all plainByte = true
  need : ∀ i, (∃ t, c.wants.1[i]? = some (.node t)) ∨ (∃ t u, c.wants.1[i]? = some (.oneOf t u)) → g.arg i ≠ Option.none

theorem fits_length {ch : List Node} : ∀ {ws : List Want} {as : List (Option Ref)}, Fits ch ws as →
    as.length = ws.length
  | [], [], _ => rfl
  | w :: ws, a :: as, h => by simp [fits_length h.2]
  | [], a :: as, h => h.elim
  | w :: ws, [], h => h.elim

theorem fits_get {ch : List Node} : ∀ {ws : List Want} {as : List (Option Ref)}, Fits ch ws as → ∀ i : Nat,
    (∃ t, ws[i]? = some (.node t)) ∨ (∃ t u, ws[i]? = some (.oneOf t u)) → ∃ r, as[i]? = some (some r)
  | [], [], _, i, h => by simp at h
  | w :: ws, a :: as, hf, 0, h => by
    cases a with
    | some r => exact ⟨r, rfl⟩
    | none =>
      have h1 := hf.1
      rcases h with ⟨t, h⟩ | ⟨t, u, h⟩ <;>
      · simp only [getElem?_cons_zero, Option.some.injEq] at h
        subst h
        exact h1.elim
  | w :: ws, a :: as, hf, i + 1, h => by
    simp only [getElem?_cons_succ] at h ⊢
    exact fits_get hf.2 i h
  | [], a :: as, h, _, _ => h.elim
  | w :: ws, [], h, _, _ => h.elim

theorem op_plain (o : Op) : (ascii o.str).all plainByte = true := by cases o <;> decide +kernel

/-- C40. Well-typed nodes give what is needed. -/
theorem given_for (ord : Nat → Nat) {n : Node} (h : WellTyped n) : (n.given ord).For n.ctor := by
  cases h with
  | @mk id c ops args seq text range children hf hs ho ht hc hch =>
    have e0 : ((Node.mk id c ops args seq text range children).given ord).array 0 =
        (((Node.mk id c ops args seq text range children).arrays[0]?.getD []).map fun r => ord r.id) := by
      simp only [Node.given, Given.array, getElem?_map]
      cases (Node.mk id c ops args seq text range children).arrays[0]? <;> rfl
    refine ⟨?_, ?_, ?_, rfl, ?_, ?_, ?_, ?_, ?_, ?_, ?_⟩
    · simpa [Node.given, Node.args, Node.ctor] using fits_length hf
    · simp only [Node.given, length_map, Node.ctor, Node.arrays]
      cases c <;> rfl
    · intro hn
      simp only [Node.ctor] at hn
      have hs := hs.1
      rw [hn] at hs
      have hs : seq = [] := hs
      subst hs
      simp only [Node.given, Node.arrays, Node.ctor, Node.seq]
      cases c <;> first | rfl | cases hn
    · rintro (hc | hc) <;> simp only [Node.ctor] at hc <;> subst hc
      · have := hs.1.2.1
        rw [e0]; simpa [Node.arrays, Node.ctor, Node.seq] using this
      · have := hs.1.1
        rw [e0]; simpa [Node.arrays, Node.ctor, Node.seq] using this
    · intro hc
      simp only [Node.ctor] at hc
      subst hc
      have := hs.1.1
      rw [e0]; simpa [Node.arrays, Node.ctor, Node.seq] using this
    · rintro (hc | hc) <;> simp only [Node.ctor] at hc <;> subst hc
      · simpa [Node.given, Node.ops, Ctor.OpsFit] using ho
      · simpa [Node.given, Node.ops, Ctor.OpsFit] using ho
    · intro hc
      simp only [Node.ctor] at hc
      subst hc
      rw [e0]
      have ho : ops.length + 1 = seq.length := ho
      simpa [Node.given, Node.ops, Node.arrays, Node.ctor, Node.seq] using ho
    · intro h1 h2 h3
      simp only [Node.ctor] at h1 h2 h3
      have : ops = [] := by
        unfold Ctor.OpsFit at ho
        split at ho
        · exact absurd rfl h1
        · exact absurd rfl h2
        · exact absurd rfl h3
        · exact ho
      subst this
      rfl
    · intro o hmem
      simp only [Node.given, mem_map] at hmem
      obtain ⟨o', _, rfl⟩ := hmem
      exact op_plain o'
    · intro i hi
      obtain ⟨r, hr⟩ := fits_get hf i hi
      simp [Given.arg, Node.given, Node.args, hr]

theorem comparisonD_ok : ∀ {os : List (List UInt8)} {xs : List Nat}, os.length < xs.length →
    ∃ ds, comparisonD os xs = .ok ds ∧ ∀ d ∈ ds, d.toW.Ok
  | [], [], h => by simp at h
  | [], x :: xs, _ => ⟨[.fmt [.ord x]], rfl, by simp [D.toW, W.Ok]⟩
  | o :: os, [], h => by simp at h
  | o :: os, x :: xs, h => by
    obtain ⟨ds, h1, h2⟩ := comparisonD_ok (os := os) (xs := xs) (by simpa using h)
    refine ⟨_, by simp only [comparisonD, h1, bind, Except.bind]; rfl, ?_⟩
    intro d hd
    rcases mem_cons.1 hd with rfl | hd
    · trivial
    · exact h2 d hd

theorem Pc.toks_ok {c : Ctor} {g : Given} (hg : g.For c) {p : Pc} (h : p.safe c = true) :
    ∃ ts, p.toks g = .ok ts := by
  cases p with
  | a i =>
    have : g.arg i ≠ none := by
      refine hg.need i ?_
      simp only [Pc.safe] at h
      split at h
      · rename_i t e; exact .inl ⟨t, e⟩
      · rename_i t u e; exact .inr ⟨t, u, e⟩
      · cases h
    cases ha : g.arg i with
    | none => exact absurd ha this
    | some o => exact ⟨[.ord o], by simp [Pc.toks, ha, need, bind, Except.bind]⟩
  | pick k ts =>
    simp only [Pc.safe, decide_eq_true_eq] at h
    rw [← hg.flags] at h
    have h : g.flag k < ts.length := h
    exact ⟨lits (ascii ts[g.flag k]), by
      simp only [Pc.toks, List.getElem?_eq_getElem h, need, bind, Except.bind]⟩
  | op =>
    simp only [Pc.safe, Bool.or_eq_true, beq_iff_eq] at h
    have := hg.one h
    cases ho : g.ops with
    | nil => rw [ho] at this; cases this
    | cons o os => exact ⟨lits o, by simp [Pc.toks, ho, need, bind, Except.bind]⟩
  | s t => exact ⟨_, rfl⟩
  | flag k t => exact ⟨_, rfl⟩
  | having i t => exact ⟨_, rfl⟩
  | text => exact ⟨_, rfl⟩

theorem fmtToks_ok {c : Ctor} {g : Given} (hg : g.For c) : ∀ {ps : List Pc}, ps.all (Pc.safe c) = true →
    ∃ ts, fmtToks g ps = .ok ts
  | [], _ => ⟨[], rfl⟩
  | p :: ps, h => by
    simp only [all_cons, Bool.and_eq_true] at h
    obtain ⟨a, h1⟩ := Pc.toks_ok hg h.1
    obtain ⟨b, h2⟩ := fmtToks_ok hg h.2
    exact ⟨a ++ b, by simp only [fmtToks, h1, h2, bind, Except.bind]⟩

theorem toW_ok {d : D} (h : ∀ t k, d = .copy t k ∨ d = .copyAnd t k → k ≤ t.length) : d.toW.Ok := by
  cases d with
  | copy t k => exact h t k (.inl rfl)
  | copyAnd t k => exact h t k (.inr rfl)
  | _ => trivial

theorem elemsD_ok : ∀ (xs : List Nat), ∀ d ∈ elemsD xs, d.toW.Ok
  | [] => by simp [elemsD]
  | [x] => by simp [elemsD, D.toW, W.Ok]
  | x :: y :: xs => by
    intro d hd
    simp only [elemsD, mem_cons] at hd
    rcases hd with rfl | rfl | rfl | hd
    · trivial
    · trivial
    · trivial
    · exact elemsD_ok (y :: xs) d hd

theorem pairsD_ok {l r : List UInt8} : ∀ (xs : List Nat) (sep : List UInt8), ∀ d ∈ pairsD l r sep xs, d.toW.Ok
  | [], _ => by simp [pairsD]
  | [x], _ => by simp [pairsD]
  | x :: y :: xs, sep => by
    intro d hd
    simp only [pairsD, mem_cons] at hd
    rcases hd with rfl | hd
    · trivial
    · exact pairsD_ok xs _ d hd

theorem pathD_ok : ∀ (xs : List Nat), ∀ d ∈ pathD xs, d.toW.Ok
  | [] => by simp [pathD]
  | [x] => by simp [pathD, D.toW, W.Ok]
  | x :: y :: xs => by
    intro d hd
    simp only [pathD, mem_cons] at hd
    rcases hd with rfl | rfl | hd
    · trivial
    · trivial
    · exact pathD_ok xs d hd

theorem Prim.run_ok {c : Ctor} {g : Given} (hg : g.For c) {p : Prim} (h : p.safe c = true) :
    ∃ ds, p.run g = .ok ds ∧ ∀ d ∈ ds, d.toW.Ok := by
  cases p with
  | fmt ps =>
    obtain ⟨ts, h1⟩ := fmtToks_ok hg h
    exact ⟨[.fmt ts], by simp only [Prim.run, h1, bind, Except.bind], by simp [D.toW, W.Ok]⟩
  | ifArg i pre post =>
    refine ⟨_, rfl, ?_⟩
    cases g.arg i <;> simp [D.toW, W.Ok]
  | put x => exact ⟨_, rfl, by simp [D.toW, W.Ok]⟩
  | close x n => exact ⟨_, rfl, by simp [D.toW, W.Ok]⟩
  | copy t k => exact ⟨_, rfl, by simpa [D.toW, W.Ok, Prim.safe] using h⟩
  | copyAnd t k => exact ⟨_, rfl, by simpa [D.toW, W.Ok, Prim.safe] using h⟩
  | elems k => exact ⟨_, rfl, elemsD_ok _⟩
  | each k first next =>
    refine ⟨_, rfl, ?_⟩
    cases g.array k with
    | nil => simp [eachD]
    | cons x xs =>
      intro d hd
      simp only [eachD, mem_cons, mem_map] at hd
      rcases hd with rfl | ⟨y, _, rfl⟩ <;> trivial
  | pairs k l r => exact ⟨_, rfl, pairsD_ok _ _⟩
  | path k =>
    simp only [Prim.safe, Bool.and_eq_true, beq_iff_eq] at h
    have := hg.odd h.2
    rw [← h.1] at this
    exact ⟨pathD (g.array k), by simp only [Prim.run, this, if_true], pathD_ok _⟩
  | comparison =>
    simp only [Prim.safe, beq_iff_eq] at h
    have := hg.more h
    exact comparisonD_ok (by omega)

theorem runPrims_ok {c : Ctor} {g : Given} (hg : g.For c) : ∀ {ps : List Prim}, ps.all (Prim.safe c) = true →
    ∃ ds, runPrims g ps = .ok ds ∧ ∀ d ∈ ds, d.toW.Ok
  | [], _ => ⟨[], rfl, by simp⟩
  | p :: ps, h => by
    simp only [all_cons, Bool.and_eq_true] at h
    obtain ⟨a, h1, g1⟩ := Prim.run_ok hg h.1
    obtain ⟨b, h2, g2⟩ := runPrims_ok hg h.2
    refine ⟨a ++ b, by simp only [runPrims, h1, h2, bind, Except.bind], fun d hd => ?_⟩
    rcases mem_append.1 hd with hd | hd
    · exact g1 d hd
    · exact g2 d hd

theorem runSteps_ok {c : Ctor} {g : Given} (hg : g.For c) : ∀ {ss : List Step}, ss.all (Step.safe c) = true →
    ∃ ds, runSteps g ss = .ok ds ∧ ∀ d ∈ ds, d.toW.Ok
  | [], _ => ⟨[], rfl, by simp⟩
  | s :: ss, h => by
    simp only [all_cons, Bool.and_eq_true] at h
    obtain ⟨b, h2, g2⟩ := runSteps_ok hg h.2
    have hs := h.1
    cases s with
    | prim p =>
      obtain ⟨a, h1, g1⟩ := Prim.run_ok hg hs
      refine ⟨a ++ b, by simp only [runSteps, h1, h2, bind, Except.bind], fun d hd => ?_⟩
      rcases mem_append.1 hd with hd | hd
      · exact g1 d hd
      · exact g2 d hd
    | ifSeq k ps =>
      obtain ⟨a, h1, g1⟩ := runPrims_ok hg (ps := ps) hs
      by_cases hk : g.array k = []
      · exact ⟨b, by simp only [runSteps, hk, if_true, h2, bind, Except.bind]; rfl, g2⟩
      · refine ⟨a ++ b, by simp only [runSteps, hk, if_false, h1, h2, bind, Except.bind], fun d hd => ?_⟩
        rcases mem_append.1 hd with hd | hd
        · exact g1 d hd
        · exact g2 d hd
    | ifFlag k t n =>
      refine ⟨_, by simp only [runSteps, h2, bind, Except.bind]; rfl, fun d hd => ?_⟩
      rcases mem_append.1 hd with hd | hd
      · split at hd
        · cases hd
        · simp only [mem_singleton] at hd
          subst hd
          simpa [D.toW, W.Ok, Step.safe] using hs
      · exact g2 d hd
    | unlessNone i j =>
      by_cases hn : g.arg i = none ∧ g.arg j = none
      · exact ⟨[], by simp only [runSteps, hn, and_self, if_true], by simp⟩
      · exact ⟨b, by simp only [runSteps, hn, if_false, h2], g2⟩

/-! ## Plain texts -/

theorem lits_plain {t : List UInt8} (h : t.all plainByte = true) : ∀ x ∈ lits t, x.plain = true := by
  intro x hx
  obtain ⟨c, hc, rfl⟩ := mem_map.1 hx
  exact all_eq_true.1 h c hc

theorem alt_plain : ∀ {xs : List Nat} {p q : List UInt8}, p.all plainByte = true → q.all plainByte = true →
    ∀ x ∈ altToks p q xs, x.plain = true
  | [], _, _, _, _ => by simp [altToks]
  | y :: ys, p, q, hp, hq => by
    intro x hx
    simp only [altToks, mem_append, mem_cons] at hx
    rcases hx with hx | rfl | hx
    · exact lits_plain hp x hx
    · rfl
    · exact alt_plain hq hp x hx

theorem item_plain {g : Given} {i : Item} (h : i.litsPlain = true) : ∀ x ∈ i.toks g, x.plain = true := by
  cases i with
  | lit t => exact lits_plain h
  | arg i =>
    simp only [Item.toks]
    cases g.arg i <;> simp [Tok.plain]
  | opt i a b =>
    simp only [Item.litsPlain, Bool.and_eq_true] at h
    simp only [Item.toks]
    cases g.arg i with
    | none => simp
    | some o =>
      intro x hx
      simp only [mem_append, mem_cons] at hx
      rcases hx with hx | rfl | hx
      · exact lits_plain h.1 x hx
      · rfl
      · exact lits_plain h.2 x hx
  | flag k t =>
    simp only [Item.toks]
    split
    · simp
    · exact lits_plain h
  | pick k ts =>
    simp only [Item.toks]
    cases hk : ts[g.flag k]? with
    | none => simp
    | some t =>
      simp only [Item.litsPlain, all_eq_true] at h
      exact lits_plain (all_eq_true.2 (h t (List.mem_of_getElem? hk)))
  | rep k a p q b =>
    simp only [Item.litsPlain, Bool.and_eq_true] at h
    simp only [Item.toks]
    cases g.array k with
    | nil => simp
    | cons y ys =>
      intro x hx
      simp only [mem_append, mem_cons] at hx
      rcases hx with hx | rfl | hx | hx
      · exact lits_plain h.1.1.1 x hx
      · rfl
      · exact alt_plain h.1.1.2 h.1.2 x hx
      · exact lits_plain h.2 x hx

theorem items_plain {g : Given} {is : List Item} (h : is.all Item.litsPlain = true) :
    ∀ x ∈ itemToks g is, x.plain = true := by
  intro x hx
  obtain ⟨i, hi, hx⟩ := mem_flatMap.1 hx
  exact item_plain (all_eq_true.1 h i hi) x hx

end Verif.Cypher
