import Verif.Cypher.DetailTable
/-!
# What `detailstr` writes tells what it was given
-/
namespace Verif.Cypher
open Verif Verif.Print List

theorem textShape_toks {g : Given} {ss : List Step} {a b : List UInt8} {ds : List D} (h : textShape ss = some (a, b))
    (hd : runSteps g ss = .ok ds) : toksOf ds = lits (a ++ g.text.takeWhile (· ≠ 0) ++ b) := by
  unfold textShape at h
  split at h
  · injection h with h; injection h with h1 h2; subst h1 h2
    injection hd with hd; subst hd
    simp [D.toks]
  · injection h with h; injection h with h1 h2; subst h1 h2
    injection hd with hd; subst hd
    simp [D.toks]
  · injection h with h; injection h with h1 h2; subst h1 h2
    injection hd with hd; subst hd
    simp [D.toks]
  · cases h

/-- Bytes up to an ordinal. -/
theorem lits_ord_inj {o o' : Nat} {r r' : List Tok} : ∀ {a b : List UInt8},
    lits a ++ .ord o :: r = lits b ++ .ord o' :: r' → a = b ∧ o = o' ∧ r = r'
  | [], [], h => by simpa using h
  | [], y :: b, h => by simp [lits] at h
  | x :: a, [], h => by simp [lits] at h
  | x :: a, y :: b, h => by
    simp only [lits, map_cons, cons_append, cons.injEq, Tok.ch.injEq] at h
    obtain ⟨h1, h2, h3⟩ := lits_ord_inj (a := a) (b := b) h.2
    exact ⟨by rw [h.1, h1], h2, h3⟩

theorem lits_no_ord {o : Nat} {a : List UInt8} : Tok.ord o ∉ lits a := by
  intro h
  obtain ⟨c, _, h⟩ := mem_map.1 h
  cases h

theorem comparison_inj : ∀ {os os' : List (List UInt8)} {xs xs' : List Nat} {ds ds' : List D},
    os.length + 1 = xs.length → os'.length + 1 = xs'.length → comparisonD os xs = .ok ds →
    comparisonD os' xs' = .ok ds' → toksOf ds = toksOf ds' → os = os' ∧ xs = xs'
  | [], [], [x], [x'], ds, ds', _, _, h, h', e => by
    injection h with h; injection h' with h'; subst h h'
    simpa [D.toks] using e
  | [], o' :: os', [x], x' :: xs', ds, ds', _, _, h, h', e => by
    injection h with h; subst h
    simp only [comparisonD, bind, Except.bind] at h'
    cases h1 : comparisonD os' xs' with
    | error f => rw [h1] at h'; cases h'
    | ok b =>
      rw [h1] at h'
      injection h' with h'; subst h'
      have := congrArg List.length e
      simp [D.toks, ascii, lits] at this
  | o :: os, [], x :: xs, [x'], ds, ds', _, _, h, h', e => by
    injection h' with h'; subst h'
    simp only [comparisonD, bind, Except.bind] at h
    cases h1 : comparisonD os xs with
    | error f => rw [h1] at h; cases h
    | ok b =>
      rw [h1] at h
      injection h with h; subst h
      have := congrArg List.length e
      simp [D.toks, ascii, lits] at this
  | o :: os, o' :: os', x :: xs, x' :: xs', ds, ds', hl, hl', h, h', e => by
    simp only [comparisonD, bind, Except.bind] at h h'
    cases h1 : comparisonD os xs with
    | error f => rw [h1] at h; cases h
    | ok a =>
      cases h2 : comparisonD os' xs' with
      | error f => rw [h2] at h'; cases h'
      | ok b =>
        rw [h1] at h; rw [h2] at h'
        injection h with h; injection h' with h'; subst h h'
        have ord : ∀ {os : List (List UInt8)} {xs : List Nat} {ds : List D}, comparisonD os xs = .ok ds →
            ∃ y r, toksOf ds = .ord y :: r := by
          intro os xs ds h
          cases xs with
          | nil => cases os <;> cases h
          | cons y ys =>
            cases os with
            | nil => injection h with h; subst h; exact ⟨y, _, rfl⟩
            | cons o os =>
              simp only [comparisonD, bind, Except.bind] at h
              cases h3 : comparisonD os ys with
              | error f => rw [h3] at h; cases h
              | ok b => rw [h3] at h; injection h with h; subst h; exact ⟨y, _, rfl⟩
        obtain ⟨y, r, e1⟩ := ord h1
        obtain ⟨y', r', e2⟩ := ord h2
        simp only [toksOf_cons, D.toks] at e
        have e' : Tok.ord x :: (lits (ascii " " ++ o ++ ascii " ") ++ toksOf a) =
            .ord x' :: (lits (ascii " " ++ o' ++ ascii " ") ++ toksOf b) := by simpa using e
        injection e' with ex e'
        injection ex with ex
        rw [e1, e2] at e'
        obtain ⟨g1, g2, g3⟩ := lits_ord_inj e'
        have g1 := append_cancel_left (append_cancel_right g1 |> fun h => h)
        obtain ⟨i1, i2⟩ := comparison_inj (by simpa using hl) (by simpa using hl') h1 h2 (by rw [e1, e2, g2, g3])
        exact ⟨by rw [g1, i1], by rw [ex, i2]⟩
  | [], _, [], _, _, _, hl, _, _, _, _ => by simp at hl
  | [], _, _ :: _ :: _, _, _, _, hl, _, _, _, _ => by simp at hl
  | _ :: _, _, [], _, _, _, hl, _, _, _, _ => by simp at hl
  | _, [], _, [], _, _, _, hl, _, _, _ => by simp at hl
  | _, [], _, _ :: _ :: _, _, _, _, hl, _, _, _ => by simp at hl
  | _, _ :: _, _, [], _, _, _, hl, _, _, _ => by simp at hl

/-! ## Lists given by their elements -/

theorem list_ext_arg {g g' : Given} (hl : g.args.length = g'.args.length)
    (h : ∀ i < g.args.length, g.arg i = g'.arg i) : g.args = g'.args := by
  apply List.ext_getElem hl
  intro i h1 h2
  have := h i h1
  simpa [Given.arg, h1, h2] using this

theorem list_ext_array {g g' : Given} (hl : g.arrays.length = g'.arrays.length)
    (h : ∀ i < g.arrays.length, g.array i = g'.array i) : g.arrays = g'.arrays := by
  apply List.ext_getElem hl
  intro i h1 h2
  have := h i h1
  simpa [Given.array, h1, h2] using this

theorem list_ext_flag {g g' : Given} (hl : g.flags.length = g'.flags.length)
    (h : ∀ i < g.flags.length, g.flag i = g'.flag i) : g.flags = g'.flags := by
  apply List.ext_getElem hl
  intro i h1 h2
  have := h i h1
  simpa [Given.flag, h1, h2] using this

/-- All that the steps use, texts as printed. -/
structure Given.Same (c : Ctor) (g g' : Given) : Prop where
  args : g.args = g'.args
  arrays : g.arrays = g'.arrays
  flags : g.flags = g'.flags
  ops : g.ops = g'.ops
  text : hasText c.ty = true →
    (g.text.takeWhile (· ≠ 0)).flatMap escape = (g'.text.takeWhile (· ≠ 0)).flatMap escape

theorem Given.For.fairSteps {c : Ctor} {g : Given} (hg : g.For c) : ∀ s ∈ c.steps, s.Fair g := by
  intro s hs
  have h := all_eq_true.1 c.safe_all s hs
  cases s with
  | prim p =>
    cases p with
    | pairs k l r =>
      simp only [Step.safe, Prim.safe, Bool.and_eq_true, Bool.or_eq_true, beq_iff_eq] at h
      obtain ⟨rfl, h⟩ := h
      exact hg.fair h
    | _ => trivial
  | _ => trivial

theorem one_arg {g : Given} {x : Nat} (hl : g.args.length = 1) (h : g.arg 0 = some x) : g.args = [some x] := by
  cases ha : g.args with
  | nil => rw [ha] at hl; cases hl
  | cons y ys =>
    rw [ha] at hl
    cases ys with
    | nil => simp [Given.arg, ha] at h; rw [h]
    | cons z zs => simp at hl

theorem two_args {g : Given} {x y : Option Nat} (hl : g.args.length = 2) (h : g.arg 0 = x) (h' : g.arg 1 = y) :
    g.args = [x, y] := by
  cases ha : g.args with
  | nil => rw [ha] at hl; cases hl
  | cons a as =>
    rw [ha] at hl
    cases as with
    | nil => cases hl
    | cons b bs =>
      cases bs with
      | nil => simp [Given.arg, ha] at h h'; rw [h, h']
      | cons z zs => simp at hl

theorem one_op {g : Given} (hl : g.ops.length = 1) : ∃ o, g.ops = [o] := by
  cases ha : g.ops with
  | nil => rw [ha] at hl; cases hl
  | cons y ys =>
    rw [ha] at hl
    cases ys with
    | nil => exact ⟨y, rfl⟩
    | cons z zs => simp at hl

theorem unary_toks {g : Given} (hg : g.For .unaryOperator) : ∃ o x, g.ops = [o] ∧ g.args = [some x] ∧
    ∀ ds, runSteps g Ctor.unaryOperator.steps = .ok ds → toksOf ds = lits (o ++ ascii " ") ++ [.ord x] := by
  obtain ⟨o, ho⟩ := one_op (hg.one (.inl rfl))
  cases hx : g.arg 0 with
  | none => exact absurd hx (hg.need 0 (.inl ⟨_, rfl⟩))
  | some x =>
    refine ⟨o, x, ho, one_arg hg.args hx, fun ds h => ?_⟩
    simp only [Ctor.steps, runSteps, Prim.run, fmtToks, Pc.toks, ho, hx, need, head?_cons, bind, Except.bind,
      Except.ok.injEq] at h
    subst h
    simp [D.toks]

theorem binary_toks {g : Given} (hg : g.For .binaryOperator) : ∃ o x y, g.ops = [o] ∧ g.args = [some x, some y] ∧
    ∀ ds, runSteps g Ctor.binaryOperator.steps = .ok ds →
      toksOf ds = .ord x :: (lits (ascii " " ++ o ++ ascii " ") ++ [.ord y]) := by
  obtain ⟨o, ho⟩ := one_op (hg.one (.inr rfl))
  cases hx : g.arg 0 with
  | none => exact absurd hx (hg.need 0 (.inl ⟨_, rfl⟩))
  | some x =>
    cases hy : g.arg 1 with
    | none => exact absurd hy (hg.need 1 (.inl ⟨_, rfl⟩))
    | some y =>
      refine ⟨o, x, y, ho, two_args hg.args hx hy, fun ds h => ?_⟩
      simp only [Ctor.steps, runSteps, Prim.run, fmtToks, Pc.toks, ho, hx, hy, need, head?_cons, bind, Except.bind,
        Except.ok.injEq] at h
      subst h
      simp [D.toks]

theorem no_arrays {c c' : Ctor} {g g' : Given} (hg : g.For c) (hg' : g'.For c') (h : c.wants.2 = .none)
    (h' : c'.wants.2 = .none) : g.arrays = g'.arrays := by rw [hg.none h, hg'.none h']

theorem same_flags {c c' : Ctor} {g g' : Given} (hg : g.For c) (hg' : g'.For c') (h : c.flags = c'.flags) :
    g.flags = g'.flags := by rw [hg.flags, hg'.flags, h]

theorem unary_same {g g' : Given} (hg : g.For .unaryOperator) (hg' : g'.For .unaryOperator) {ds ds' : List D}
    (h : runSteps g Ctor.unaryOperator.steps = .ok ds) (h' : runSteps g' Ctor.unaryOperator.steps = .ok ds') :
    (∀ x ∈ toksOf ds, x.plain = true) ∧ (toksOf ds = toksOf ds' → g.Same .unaryOperator g') := by
  obtain ⟨o, x, h1, h2, h3⟩ := unary_toks hg
  obtain ⟨o', x', h1', h2', h3'⟩ := unary_toks hg'
  rw [h3 ds h, h3' ds' h']
  have hp := hg.plain o (by simp [h1])
  refine ⟨fun t ht => ?_, fun e => ?_⟩
  · rcases mem_append.1 ht with ht | ht
    · exact lits_plain (by rw [all_append, hp]; decide) t ht
    · simp only [mem_singleton] at ht; subst ht; rfl
  · obtain ⟨e1, e2, -⟩ := lits_ord_inj e
    have e1 := append_cancel_right e1
    exact ⟨by rw [h2, h2', e2], no_arrays hg hg' rfl rfl, same_flags hg hg' rfl, by rw [h1, h1', e1], by simp [hasText, Ctor.ty]⟩

theorem binary_same {g g' : Given} (hg : g.For .binaryOperator) (hg' : g'.For .binaryOperator) {ds ds' : List D}
    (h : runSteps g Ctor.binaryOperator.steps = .ok ds) (h' : runSteps g' Ctor.binaryOperator.steps = .ok ds') :
    (∀ x ∈ toksOf ds, x.plain = true) ∧ (toksOf ds = toksOf ds' → g.Same .binaryOperator g') := by
  obtain ⟨o, x, y, h1, h2, h3⟩ := binary_toks hg
  obtain ⟨o', x', y', h1', h2', h3'⟩ := binary_toks hg'
  rw [h3 ds h, h3' ds' h']
  have hp := hg.plain o (by simp [h1])
  refine ⟨fun t ht => ?_, fun e => ?_⟩
  · rcases mem_cons.1 ht with rfl | ht
    · rfl
    · rcases mem_append.1 ht with ht | ht
      · exact lits_plain (by rw [all_append, all_append, hp]; decide) t ht
      · simp only [mem_singleton] at ht; subst ht; rfl
  · injection e with e0 e
    injection e0 with e0
    obtain ⟨e1, e2, -⟩ := lits_ord_inj e
    have e1 := append_cancel_left (append_cancel_right e1 |> fun h => h)
    exact ⟨by rw [h2, h2', e0, e2], no_arrays hg hg' rfl rfl, same_flags hg hg' rfl, by rw [h1, h1', e1],
      by simp [hasText, Ctor.ty]⟩

theorem comparison_plain : ∀ {os : List (List UInt8)} {xs : List Nat} {ds : List D},
    (∀ o ∈ os, o.all plainByte = true) → comparisonD os xs = .ok ds → ∀ x ∈ toksOf ds, x.plain = true
  | [], [], ds, _, h => by cases h
  | [], x :: xs, ds, _, h => by
    injection h with h; subst h
    simp [D.toks, Tok.plain]
  | o :: os, [], ds, _, h => by cases h
  | o :: os, x :: xs, ds, hp, h => by
    simp only [comparisonD, bind, Except.bind] at h
    cases h1 : comparisonD os xs with
    | error f => rw [h1] at h; cases h
    | ok b =>
      rw [h1] at h
      injection h with h; subst h
      have ih := comparison_plain (fun o ho => hp o (mem_cons_of_mem _ ho)) h1
      intro t ht
      rw [toksOf_cons] at ht
      rcases mem_append.1 ht with ht | ht
      · simp only [D.toks, mem_append, mem_singleton] at ht
        rcases ht with ((rfl | ht) | ht) | ht
        · rfl
        · exact lits_plain (by decide) t ht
        · exact lits_plain (hp o mem_cons_self) t ht
        · exact lits_plain (by decide) t ht
      · exact ih t ht

theorem comparison_same {g g' : Given} (hg : g.For .comparisonOperator) (hg' : g'.For .comparisonOperator)
    {ds ds' : List D} (h : runSteps g Ctor.comparisonOperator.steps = .ok ds)
    (h' : runSteps g' Ctor.comparisonOperator.steps = .ok ds') :
    (∀ x ∈ toksOf ds, x.plain = true) ∧ (toksOf ds = toksOf ds' → g.Same .comparisonOperator g') := by
  have run : ∀ {g : Given} {ds : List D}, runSteps g Ctor.comparisonOperator.steps = .ok ds →
      comparisonD g.ops (g.array 0) = .ok ds := by
    intro g ds h
    simp only [Ctor.steps, runSteps, Prim.run, bind, Except.bind] at h
    cases h1 : comparisonD g.ops (g.array 0) with
    | error f => rw [h1] at h; cases h
    | ok b => rw [h1] at h; injection h with h; rw [← h, append_nil]
  refine ⟨comparison_plain hg.plain (run h), fun e => ?_⟩
  obtain ⟨h1, h2⟩ := comparison_inj (hg.more rfl) (hg'.more rfl) (run h) (run h') e
  refine ⟨?_, ?_, same_flags hg hg' rfl, h1, by simp [hasText, Ctor.ty]⟩
  · rw [length_eq_zero_iff.1 hg.args, length_eq_zero_iff.1 hg'.args]
  · refine list_ext_array (by rw [hg.arrays, hg'.arrays]) fun i hi => ?_
    rw [hg.arrays] at hi
    have : i = 0 := by simp only [Ctor.narrays] at hi; omega
    rw [this, h2]

theorem range_toks {g : Given} (hg : g.For .range) {ds : List D} (h : runSteps g Ctor.range.steps = .ok ds) :
    (g.args = [none, none] ∧ toksOf ds = lits (ascii "*")) ∨ (g.args ≠ [none, none] ∧
      toksOf ds = itemToks g [.lit (ascii "*"), .opt 0 [] [], .lit (ascii ".."), .opt 1 [] []]) := by
  cases hx : g.arg 0 with
  | none =>
    cases hy : g.arg 1 with
    | none =>
      left
      refine ⟨two_args hg.args hx hy, ?_⟩
      simp only [Ctor.steps, runSteps, Prim.run, hx, hy, bind, Except.bind, and_self, if_true, Except.ok.injEq] at h
      subst h; rfl
    | some y =>
      right
      refine ⟨fun e => by simp [Given.arg, e] at hy, ?_⟩
      simp only [Ctor.steps, runSteps, Prim.run, hx, hy, bind, Except.bind, Except.ok.injEq, reduceCtorEq, and_false,
        if_false] at h
      subst h
      simp only [itemToks_cons, itemToks_nil, Item.toks, hx, hy]
      rfl
  | some x =>
    right
    refine ⟨fun e => by simp [Given.arg, e] at hx, ?_⟩
    cases hy : g.arg 1 with
    | none =>
      simp only [Ctor.steps, runSteps, Prim.run, hx, hy, bind, Except.bind, Except.ok.injEq, reduceCtorEq, false_and,
        if_false] at h
      subst h
      simp only [itemToks_cons, itemToks_nil, Item.toks, hx, hy]
      rfl
    | some y =>
      simp only [Ctor.steps, runSteps, Prim.run, hx, hy, bind, Except.bind, Except.ok.injEq, reduceCtorEq, and_false,
        if_false] at h
      subst h
      simp only [itemToks_cons, itemToks_nil, Item.toks, hx, hy]
      rfl

theorem range_same {g g' : Given} (hg : g.For .range) (hg' : g'.For .range) {ds ds' : List D}
    (h : runSteps g Ctor.range.steps = .ok ds) (h' : runSteps g' Ctor.range.steps = .ok ds') :
    (∀ x ∈ toksOf ds, x.plain = true) ∧ (toksOf ds = toksOf ds' → g.Same .range g') := by
  have ops : g.ops = g'.ops := by
    rw [hg.others (by decide) (by decide) (by decide), hg'.others (by decide) (by decide) (by decide)]
  have mk : g.args = g'.args → g.Same .range g' := fun ha =>
    ⟨ha, no_arrays hg hg' rfl rfl, same_flags hg hg' rfl, ops, by simp [hasText, Ctor.ty]⟩
  have long : ∀ g : Given, itemToks g [.lit (ascii "*"), .opt 0 [] [], .lit (ascii ".."), .opt 1 [] []] ≠
      lits (ascii "*") := by
    intro g e
    have := congrArg List.length e
    simp only [itemToks_cons, itemToks_nil, Item.toks, length_append, lits, length_map] at this
    simp [ascii] at this
  rcases range_toks hg h with ⟨a1, a2⟩ | ⟨a1, a2⟩ <;> rcases range_toks hg' h' with ⟨b1, b2⟩ | ⟨b1, b2⟩ <;>
    rw [a2, b2]
  · exact ⟨lits_plain (by decide), fun _ => mk (by rw [a1, b1])⟩
  · exact ⟨lits_plain (by decide), fun e => absurd e.symm (long _)⟩
  · exact ⟨items_plain (by decide), fun e => absurd e (long _)⟩
  · refine ⟨items_plain (by decide), fun e => mk ?_⟩
    have ag := items_agree (by decide) (by simp [Item.Present]) (by simp [Item.Present]) e
    refine list_ext_arg (by rw [hg.args, hg'.args]) fun i hi => ?_
    rw [hg.args] at hi
    have : i = 0 ∨ i = 1 := by
      have : i < 2 := hi
      omega
    rcases this with rfl | rfl
    · exact ag (.opt 0 [] []) (by simp)
    · exact ag (.opt 1 [] []) (by simp)

/-- The items of a Cypher option, given whether there is a version. -/
def optionItems : Bool → List Item
  | true => [.opt 0 (ascii "version=") [], .rep 0 (ascii ", params=[") (ascii ", ") (ascii ", ") (ascii "]")]
  | false => [.rep 0 (ascii "params=[") (ascii ", ") (ascii ", ") (ascii "]")]

theorem option_toks {g : Given} {ds : List D} (h : runSteps g Ctor.cypherOption.steps = .ok ds) :
    toksOf ds = itemToks g (optionItems (g.arg 0).isSome) := by
  cases hx : g.arg 0 with
  | none =>
    cases hy : g.array 0 with
    | nil =>
      simp only [Ctor.steps, runSteps, Prim.run, hx, hy, bind, Except.bind, if_true, Except.ok.injEq] at h
      subst h
      simp [itemToks, optionItems, Item.toks, hy]
    | cons y ys =>
      simp only [Ctor.steps, runSteps, runPrims, Prim.run, fmtToks, Pc.toks, hx, hy, bind, Except.bind, if_true,
        Except.ok.injEq, reduceCtorEq, if_false] at h
      subst h
      simp only [optionItems, Option.isSome_none, itemToks_cons, itemToks_nil, Item.toks, hy, nil_append, toksOf_cons,
        toksOf_append, elems_toks, toksOf_nil, D.toks, append_nil, cons_append]
      rfl
  | some x =>
    cases hy : g.array 0 with
    | nil =>
      simp only [Ctor.steps, runSteps, Prim.run, hx, hy, bind, Except.bind, if_true, Except.ok.injEq] at h
      subst h
      simp [itemToks, optionItems, Item.toks, hx, hy, D.toks, ascii]
    | cons y ys =>
      simp only [Ctor.steps, runSteps, runPrims, Prim.run, fmtToks, Pc.toks, hx, hy, bind, Except.bind,
        Except.ok.injEq, reduceCtorEq, if_false] at h
      subst h
      simp only [optionItems, Option.isSome_some, itemToks_cons, itemToks_nil, Item.toks, hx, hy, nil_append,
        toksOf_cons, toksOf_append, elems_toks, toksOf_nil, D.toks, append_nil, append_assoc, cons_append]
      rfl

theorem option_mixed {g g' : Given} {x : Nat} (hx : g.arg 0 = some x) :
    itemToks g (optionItems true) ≠ itemToks g' (optionItems false) := by
  intro e
  simp only [optionItems, itemToks_cons, itemToks_nil, Item.toks, hx] at e
  have e := congrArg List.head? e
  cases hy : g'.array 0 with
  | nil => rw [hy] at e; revert e; simp [lits, ascii]
  | cons y ys => rw [hy] at e; revert e; simp [lits, ascii]

theorem option_same {g g' : Given} (hg : g.For .cypherOption) (hg' : g'.For .cypherOption) {ds ds' : List D}
    (h : runSteps g Ctor.cypherOption.steps = .ok ds) (h' : runSteps g' Ctor.cypherOption.steps = .ok ds') :
    (∀ x ∈ toksOf ds, x.plain = true) ∧ (toksOf ds = toksOf ds' → g.Same .cypherOption g') := by
  rw [option_toks h, option_toks h']
  have ops : g.ops = g'.ops := by
    rw [hg.others (by decide) (by decide) (by decide), hg'.others (by decide) (by decide) (by decide)]
  have mk : g.arg 0 = g'.arg 0 → g.array 0 = g'.array 0 → g.Same .cypherOption g' := fun ha hb => by
    refine ⟨list_ext_arg (by rw [hg.args, hg'.args]) fun i hi => ?_,
      list_ext_array (by rw [hg.arrays, hg'.arrays]) fun i hi => ?_, same_flags hg hg' rfl, ops,
      by simp [hasText, Ctor.ty]⟩
    · rw [hg.args] at hi
      have : i = 0 := by
        have : i < 1 := hi
        omega
      rw [this, ha]
    · rw [hg.arrays] at hi
      have : i = 0 := by simp only [Ctor.narrays] at hi; omega
      rw [this, hb]
  refine ⟨items_plain (by cases (g.arg 0).isSome <;> decide), fun e => ?_⟩
  cases hx : g.arg 0 with
  | none =>
    cases hx' : g'.arg 0 with
    | none =>
      rw [hx, hx'] at e
      have := items_agree (is := optionItems false) (by decide) (by simp [optionItems, Item.Present])
        (by simp [optionItems, Item.Present]) e
      exact mk (by rw [hx, hx']) (this
        (.rep 0 (ascii "params=[") (ascii ", ") (ascii ", ") (ascii "]")) (by simp [optionItems]))
    | some x' => rw [hx, hx'] at e; exact absurd e.symm (option_mixed hx')
  | some x =>
    cases hx' : g'.arg 0 with
    | none => rw [hx, hx'] at e; exact absurd e (option_mixed hx)
    | some x' =>
      rw [hx, hx'] at e
      have := items_agree (is := optionItems true) (by decide) (by simp [optionItems, Item.Present])
        (by simp [optionItems, Item.Present]) e
      exact mk (this (.opt 0 (ascii "version=") []) (by simp [optionItems]))
        (this (.rep 0 (ascii ", params=[") (ascii ", ") (ascii ", ") (ascii "]")) (by simp [optionItems]))

theorem items_same {c c' : Ctor} {g g' : Given} (hg : g.For c) (hg' : g'.For c') (hty : c.ty = c'.ty)
    (ht : hasText c.ty = false) {is : List Item} (hi : stepsItems c.steps = some is) {ds ds' : List D}
    (h : runSteps g c.steps = .ok ds) (h' : runSteps g' c'.steps = .ok ds') :
    (∀ x ∈ toksOf ds, x.plain = true) ∧ (toksOf ds = toksOf ds' → g.Same c g') := by
  have hc := c.tidy_all
  have hc' := c'.tidy_all
  have hs := Ctor.steps_of_ty hty
  have hi' : stepsItems c'.steps = some is := by rw [← hs]; exact hi
  simp only [Ctor.tidy, ht, hi, Bool.false_eq_true, if_false, Bool.and_eq_true] at hc
  rw [hty] at ht
  simp only [Ctor.tidy, ht, hi', Bool.false_eq_true, if_false, Bool.and_eq_true] at hc'
  obtain ⟨⟨⟨⟨k1, k2⟩, k3⟩, k4⟩, k5⟩ := hc
  obtain ⟨⟨⟨⟨-, -⟩, -⟩, k4'⟩, k5'⟩ := hc'
  obtain ⟨t1, p1⟩ := runSteps_items hg.fairSteps hi h
  obtain ⟨t2, p2⟩ := runSteps_items hg'.fairSteps hi' h'
  rw [t1, t2]
  refine ⟨items_plain k2, fun e => ?_⟩
  have ag := items_agree k1 p1 p2 e
  refine ⟨?_, ?_, ?_, ?_, ?_⟩
  · refine list_ext_arg (by rw [hg.args, hg'.args, Ctor.wants_of_ty hty]) fun i hi => ?_
    rw [hg.args] at hi
    have hm := all_eq_true.1 k3 i (mem_range.2 hi)
    rw [contains_iff_mem] at hm
    obtain ⟨it, h1, h2⟩ := mem_flatMap.1 hm
    have := ag it h1
    cases it with
    | arg j => simp only [Item.argOf, mem_singleton] at h2; subst h2; exact this
    | opt j a b => simp only [Item.argOf, mem_singleton] at h2; subst h2; exact this
    | _ => cases h2
  · have en : (c.wants.2 == .none) = (c'.wants.2 == .none) := by
      rw [← c.again_arrays.1, hty, c'.again_arrays.1]
    have el : c.narrays = c'.narrays := c.again_arrays.2.symm.trans (by rw [hty]; exact c'.again_arrays.2)
    by_cases hn : (c.wants.2 == .none) = true
    · have hn' := hn
      rw [en] at hn'
      rw [hg.none (beq_iff_eq.1 hn), hg'.none (beq_iff_eq.1 hn')]
    · refine list_ext_array (by rw [hg.arrays, hg'.arrays, el]) fun i hi => ?_
      rw [hg.arrays] at hi
      rw [Bool.or_eq_true] at k4
      rcases k4 with k4 | k4
      · exact absurd k4 hn
      · have hm := all_eq_true.1 k4 i (mem_range.2 hi)
        rw [contains_iff_mem] at hm
        obtain ⟨it, h1, h2⟩ := mem_flatMap.1 hm
        have := ag it h1
        cases it with
        | rep j _ _ _ _ => simp only [Item.arrayOf, mem_singleton] at h2; subst h2; exact this
        | _ => cases h2
  · refine list_ext_flag (by rw [hg.flags, hg'.flags, Ctor.flags_of_ty hty]) fun i hi => ?_
    rw [hg.flags] at hi
    have small : ∀ {c : Ctor} {g : Given}, g.For c → c.flags.all (· ≤ 1) = true → g.flag i ≤ 1 := by
      intro c g hg hf
      rw [Given.flag, hg.flags]
      cases hx : c.flags[i]? with
      | none => simp
      | some x => simpa using all_eq_true.1 hf x (List.mem_of_getElem? hx)
    have hm := all_eq_true.1 k5 i (mem_range.2 hi)
    have hm' := all_eq_true.1 k5' i (mem_range.2 (by rw [← Ctor.flags_of_ty hty]; exact hi))
    rw [contains_iff_mem] at hm hm'
    obtain ⟨it, h1, h2⟩ := mem_flatMap.1 hm
    obtain ⟨it', h1', h2'⟩ := mem_flatMap.1 hm'
    have a1 := ag it h1
    have a2 := ag it' h1'
    have step : ∀ {it : Item} {c : Ctor}, i ∈ it.flagOf (c.flags.all (· ≤ 1)) → it.Agree g g' →
        g.flag i = g'.flag i ∨ ((g.flag i = 0 ↔ g'.flag i = 0) ∧ c.flags.all (· ≤ 1) = true) := by
      intro it c h a
      cases it with
      | pick j ts => simp only [Item.flagOf, mem_singleton] at h; subst h; exact .inl a
      | flag j t =>
        simp only [Item.flagOf] at h
        split at h
        · rename_i ht
          simp only [mem_singleton] at h; subst h; exact .inr ⟨a, ht⟩
        · cases h
      | _ => cases h
    rcases step h2 a1 with r | ⟨r, s⟩
    · exact r
    · rcases step h2' a2 with r' | ⟨_, s'⟩
      · exact r'
      · have := small hg s
        have := small hg' s'
        omega
  · have no : ∀ {c : Ctor}, stepsItems c.steps = some is → c ≠ .unaryOperator ∧ c ≠ .binaryOperator ∧
        c ≠ .comparisonOperator := by
      intro c hi
      refine ⟨?_, ?_, ?_⟩ <;> rintro rfl
      · have : stepsItems Ctor.unaryOperator.steps = none := by decide +kernel
        rw [this] at hi; cases hi
      · have : stepsItems Ctor.binaryOperator.steps = none := by decide +kernel
        rw [this] at hi; cases hi
      · have : stepsItems Ctor.comparisonOperator.steps = none := by decide +kernel
        rw [this] at hi; cases hi
    obtain ⟨n1, n2, n3⟩ := no hi
    obtain ⟨m1, m2, m3⟩ := no hi'
    rw [hg.others n1 n2 n3, hg'.others m1 m2 m3]
  · rw [hty, ht]; simp

theorem Ctor.lone {c c' : Ctor} (hty : c.ty = c'.ty)
    (hc : c = .cypherOption ∨ c = .range ∨ c = .unaryOperator ∨ c = .binaryOperator ∨ c = .comparisonOperator) :
    c' = c := by
  rcases hc with rfl | rfl | rfl | rfl | rfl <;> cases c' <;> first | rfl | cases hty

/-- Tokens of nodes that have no text are plain, and equal tokens tell everything. -/
theorem toks_same {c c' : Ctor} {g g' : Given} (hg : g.For c) (hg' : g'.For c') (hty : c.ty = c'.ty)
    (ht : hasText c.ty = false) {ds ds' : List D}
    (h : runSteps g c.steps = .ok ds) (h' : runSteps g' c'.steps = .ok ds') :
    (∀ x ∈ toksOf ds, x.plain = true) ∧ (toksOf ds = toksOf ds' → g.Same c g') := by
  have hc := c.tidy_all
  cases hi : stepsItems c.steps with
  | some is => exact items_same hg hg' hty ht hi h h'
  | none =>
    simp only [Ctor.tidy, ht, hi, Bool.false_eq_true, if_false, contains_iff_mem, mem_cons, not_mem_nil, or_false] at hc
    have e := Ctor.lone hty hc
    subst e
    rcases hc with rfl | rfl | rfl | rfl | rfl
    · exact option_same hg hg' h h'
    · exact range_same hg hg' h h'
    · exact unary_same hg hg' h h'
    · exact binary_same hg hg' h h'
    · exact comparison_same hg hg' h h'

/-- The text of a node with a text. -/
theorem text_toks {c : Ctor} {g : Given} (ht : hasText c.ty = true) {ds : List D}
    (h : runSteps g c.steps = .ok ds) :
    ∃ a b, textShape c.steps = some (a, b) ∧ toksOf ds = lits (a ++ g.text.takeWhile (· ≠ 0) ++ b) := by
  have hc := c.tidy_all
  simp only [Ctor.tidy, ht, if_true, Bool.and_eq_true] at hc
  obtain ⟨⟨a, b⟩, hs⟩ := Option.isSome_iff_exists.1 hc.1.1
  exact ⟨a, b, hs, textShape_toks hs h⟩

/-- Bytes, as printed, tell everything. -/
theorem bytes_same {c c' : Ctor} {g g' : Given} (hg : g.For c) (hg' : g'.For c') (hty : c.ty = c'.ty)
    {ds ds' : List D} (h : runSteps g c.steps = .ok ds) (h' : runSteps g' c'.steps = .ok ds')
    (e : (bytesOf (toksOf ds)).flatMap escape = (bytesOf (toksOf ds')).flatMap escape) : g.Same c g' := by
  cases ht : hasText c.ty with
  | false =>
    obtain ⟨p1, r⟩ := toks_same hg hg' hty ht h h'
    obtain ⟨p2, -⟩ := toks_same hg' hg hty.symm (hty ▸ ht) h' h
    rw [bytesOf_escape p1, bytesOf_escape p2] at e
    exact r (bytesOf_inj p1 p2 e)
  | true =>
    obtain ⟨a, b, s1, t1⟩ := text_toks ht h
    obtain ⟨a', b', s2, t2⟩ := text_toks (hty ▸ ht) h'
    rw [Ctor.steps_of_ty hty, s2] at s1
    injection s1 with s1
    injection s1 with ea eb
    subst ea eb
    have shape : ∀ {c : Ctor} {g : Given}, g.For c → hasText c.ty = true →
        g.args = [] ∧ g.arrays = [[]] ∧ g.flags = [] ∧ g.ops = [] := by
      intro c g hg ht
      have hc := c.tidy_all
      simp only [Ctor.tidy, ht, if_true, Bool.and_eq_true, beq_iff_eq] at hc
      have w := hc.1.2
      refine ⟨length_eq_zero_iff.1 (by rw [hg.args, w]; rfl), hg.none (by rw [w]), by rw [hg.flags, hc.2],
        hg.others ?_ ?_ ?_⟩ <;> rintro rfl <;> cases ht
    obtain ⟨q1, q2, q3, q4⟩ := shape hg ht
    obtain ⟨r1, r2, r3, r4⟩ := shape hg' (hty ▸ ht)
    refine ⟨by rw [q1, r1], by rw [q2, r2], by rw [q3, r3], by rw [q4, r4], fun _ => ?_⟩
    rw [t1, t2, bytesOf_lits, bytesOf_lits] at e
    simp only [flatMap_append] at e
    exact append_cancel_left (append_cancel_right e)

end Verif.Cypher
