import Verif.Data.Segment
import Verif.Props.Ast
import Mathlib.Data.List.Perm.Basic
/-!
# C09 (results are concatenations of segments), C10 (segment lifetime), C11 (indexed accessors)
-/
namespace Verif

/-! ## Helper lemmas -/

/-- A segment whose counts do not exceed its arrays. -/
structure Segment.WF (s : Segment) : Prop where
  errs : s.nerrors ≤ s.errors.length
  rts : s.nroots ≤ s.roots.length

/-- A result whose counts match its arrays. -/
structure Result.WF (r : Result) : Prop where
  errs : r.errors.length = r.nerrors
  rts : r.roots.length = r.nroots
  dirs : r.directives.length = r.ndirectives
  cap : r.ndirectives ≤ r.directivesCap

/-- The errors a segment holds. -/
def Segment.errs (s : Segment) : List PErr := s.errors.take s.nerrors
/-- The roots a segment holds. -/
def Segment.rts (s : Segment) : List Root := s.roots.take s.nroots

theorem guardedRead_eq {α : Type} (l : List α) (n i : Nat) (h : n ≤ l.length) :
    guardedRead l n i = .ok ((l.take n)[i]?) := by
  unfold guardedRead arrayRead
  by_cases hi : i ≥ n
  · rw [if_pos hi]
    congr 1
    symm
    simp only [List.getElem?_eq_none_iff, List.length_take]
    omega
  · rw [if_neg hi]
    have hi' : i < l.length := by omega
    rw [List.getElem?_eq_getElem hi', List.getElem?_take_of_lt (by omega),
      List.getElem?_eq_getElem hi']

theorem setRootOrdinals_length (rs : List Root) : ∀ n,
    (setRootOrdinals rs n).1.length = rs.length := by
  induction rs with
  | nil => intro n; rfl
  | cons a rs ih => intro n; obtain ⟨a, t⟩ := a; simp [setRootOrdinals, ih]

theorem setRootOrdinals_addr (rs : List Root) : ∀ n,
    (setRootOrdinals rs n).1.map (·.1) = rs.map (·.1) := by
  induction rs with
  | nil => intro n; rfl
  | cons a rs ih => intro n; obtain ⟨a, t⟩ := a; simp [setRootOrdinals, ih]

theorem Segment.new_wf (o : Nat) (rg : Range) (es : List PErr) (rs : List Root) (d : Option Nat)
    (e : Bool) : (Segment.new o rg es rs d e).WF ∧ (Segment.new o rg es rs d e).errs = es ∧
      (Segment.new o rg es rs d e).rts = (setRootOrdinals rs o).1 := by
  refine ⟨⟨?_, ?_⟩, ?_, ?_⟩
  · simp only [Segment.new]; split <;> simp
  · simp only [Segment.new]; split <;> simp [setRootOrdinals_length]
  · simp only [Segment.new, Segment.errs]
    split
    · simp
    · have : es = [] := by simpa using ‹¬ es.length > 0›
      simp [this]
  · simp only [Segment.new, Segment.rts]
    split
    · rw [List.take_of_length_le (by simp [setRootOrdinals_length])]
    · have : rs = [] := by simpa using ‹¬ rs.length > 0›
      simp [this, setRootOrdinals]

theorem appendCopy_eq {α : Type} (dst src : List α) (n m : Nat) (hn : dst.length = n)
    (h : m ≤ src.length) : Result.appendCopy dst n src m = .ok (dst ++ src.take m) := by
  unfold Result.appendCopy
  rw [if_neg (by omega), ← hn, List.take_length]

theorem Result.mergeEof_spec (r : Result) (s : Segment) (hr : r.WF) :
    (r.mergeEof s).WF ∧ (r.mergeEof s).errors = r.errors ∧ (r.mergeEof s).roots = r.roots ∧
    (r.mergeEof s).directives = r.directives ∧ (r.mergeEof s).nnodes = r.nnodes ∧
    (r.mergeEof s).eof =
      (r.eof || (s.eof && (s.directive.isSome || decide (s.nerrors > 0)))) := by
  obtain ⟨he, hrt, hd, hc⟩ := hr
  unfold Result.mergeEof
  split
  · rename_i h
    refine ⟨⟨he, hrt, hd, hc⟩, rfl, rfl, rfl, rfl, ?_⟩
    simp only [Bool.and_eq_true] at h
    simp [h.1.2, h.2]
  · rename_i h
    refine ⟨⟨he, hrt, hd, hc⟩, rfl, rfl, rfl, rfl, ?_⟩
    cases hre : r.eof
    · simp only [hre, Bool.not_false, Bool.true_and, Bool.not_eq_true] at h
      simp [h]
    · simp

theorem Result.mergeErrors_spec (r : Result) (s : Segment) (hr : r.WF) (hs : s.WF) :
    ∃ r' s', r.mergeErrors s = .ok (r', s') ∧ r'.WF ∧ s'.WF ∧
      r'.errors = r.errors ++ s.errs ∧ r'.roots = r.roots ∧
      r'.directives = r.directives ∧ r'.nnodes = r.nnodes ∧ r'.eof = r.eof ∧
      s'.errs = [] ∧ s'.rts = s.rts ∧ s'.refcount = s.refcount ∧ s'.directive = s.directive ∧
      s'.nnodes = s.nnodes := by
  obtain ⟨he, hrt, hd, hc⟩ := hr
  obtain ⟨se, srt⟩ := hs
  unfold Result.mergeErrors
  by_cases h : s.nerrors > 0
  · rw [if_pos h, appendCopy_eq _ _ _ _ he se]
    refine ⟨_, _, rfl, ⟨?_, hrt, hd, hc⟩, ⟨by simp, srt⟩, rfl, rfl, rfl, rfl, rfl,
      by simp [Segment.errs], rfl, rfl, rfl, rfl⟩
    simp [he, se]
  · rw [if_neg h]
    have h0 : s.nerrors = 0 := by omega
    refine ⟨_, _, rfl, ⟨he, hrt, hd, hc⟩, ⟨se, srt⟩, ?_, rfl, rfl, rfl, rfl, ?_, rfl, rfl, rfl, rfl⟩ <;>
    simp [Segment.errs, h0]

theorem Result.mergeRoots_spec (r : Result) (s : Segment) (hr : r.WF) (hs : s.WF) :
    ∃ r' s', r.mergeRoots s = .ok (r', s') ∧ r'.WF ∧ s'.WF ∧
      r'.errors = r.errors ∧ r'.roots = r.roots ++ s.rts ∧
      r'.directives = r.directives ∧ r'.nnodes = r.nnodes ∧ r'.eof = r.eof ∧
      s'.errs = s.errs ∧ s'.rts = [] ∧ s'.refcount = s.refcount ∧ s'.directive = s.directive ∧
      s'.nnodes = s.nnodes := by
  obtain ⟨he, hrt, hd, hc⟩ := hr
  obtain ⟨se, srt⟩ := hs
  unfold Result.mergeRoots
  by_cases h : s.nroots > 0
  · rw [if_pos h, appendCopy_eq _ _ _ _ hrt srt]
    refine ⟨_, _, rfl, ⟨he, ?_, hd, hc⟩, ⟨se, by simp⟩, rfl, rfl, rfl, rfl, rfl, rfl,
      by simp [Segment.rts], rfl, rfl, rfl⟩
    simp [hrt, srt]
  · rw [if_neg h]
    have h0 : s.nroots = 0 := by omega
    refine ⟨_, _, rfl, ⟨he, hrt, hd, hc⟩, ⟨se, srt⟩, rfl, ?_, rfl, rfl, rfl, rfl, ?_, rfl, rfl, rfl⟩ <;>
    simp [Segment.rts, h0]

theorem Result.mergeDirective_spec (r : Result) (s : Segment) (hr : r.WF) (hs : s.WF) :
    ∃ r' s', r.mergeDirective s = .ok (r', s') ∧ r'.WF ∧ s'.WF ∧
      r'.errors = r.errors ∧ r'.roots = r.roots ∧
      r'.directives = r.directives ++ s.directive.toList ∧ r'.nnodes = r.nnodes ∧
      r'.eof = r.eof ∧ s'.errs = s.errs ∧ s'.rts = s.rts ∧ s'.refcount = s.refcount ∧
      s'.directive = none := by
  obtain ⟨he, hrt, hd, hc⟩ := hr
  unfold Result.mergeDirective
  cases hdir : s.directive with
  | none =>
    exact ⟨_, _, rfl, ⟨he, hrt, hd, hc⟩, hs, rfl, rfl, by simp, rfl, rfl, rfl, rfl, rfl, hdir⟩
  | some d =>
    simp only
    rw [if_neg (by omega), if_pos (by split <;> (try split) <;> omega)]
    refine ⟨_, _, rfl, ⟨he, hrt, ?_, ?_⟩, ⟨hs.1, hs.2⟩, rfl, rfl, ?_, rfl, rfl, rfl, rfl, rfl, rfl⟩
    · simp [hd]
    · simp only; split <;> (try split) <;> omega
    · simp [← hd]

theorem Result.merge_spec (r : Result) (s : Segment) (hr : r.WF) (hs : s.WF) :
    ∃ r' s', r.merge s = .ok (r', s') ∧ r'.WF ∧ s'.WF ∧
      r'.errors = r.errors ++ s.errs ∧ r'.roots = r.roots ++ s.rts ∧
      r'.directives = r.directives ++ s.directive.toList ∧ r'.nnodes = r.nnodes + s.nnodes ∧
      r'.eof = (r.eof || (s.eof && (s.directive.isSome || decide (s.nerrors > 0)))) ∧
      s'.errs = [] ∧ s'.rts = [] ∧ s'.refcount = s.refcount ∧ s'.directive = none := by
  obtain ⟨w0, a1, a2, a3, a4, a5⟩ := Result.mergeEof_spec r s hr
  obtain ⟨r1, s1, q1, w1, v1, b1, b2, b3, b4, b5, b6, b7, b8, b9, b10⟩ :=
    Result.mergeErrors_spec (r.mergeEof s) s w0 hs
  obtain ⟨r2, s2, q2, w2, v2, c1, c2, c3, c4, c5, c6, c7, c8, c9, c10⟩ :=
    Result.mergeRoots_spec r1 s1 w1 v1
  obtain ⟨r3, s3, q3, w3, v3, d1, d2, d3, d4, d5, d6, d7, d8, d9⟩ :=
    Result.mergeDirective_spec { r2 with nnodes := r2.nnodes + s2.nnodes } s2
      ⟨w2.1, w2.2, w2.3, w2.4⟩ v2
  refine ⟨r3, s3, ?_, w3, v3, ?_, ?_, ?_, ?_, ?_, ?_, ?_, ?_, d9⟩
  · simp only [Result.merge, q1, q2, q3, bind, Except.bind]
  · simp only [d1, c1, b1, a1]
  · simp only [d2, c2, b2, a2, b7]
  · simp only [d3, c3, b3, a3, c9, b9]
  · simp only [d4, c4, b4, a4, c10, b10]
  · simp only [d5, c5, b5, a5]
  · rw [d6, c6, b6]
  · rw [d7, c7]
  · rw [d8, c8, b8]

theorem Result.mergeAll_spec (ss : List Segment) (hs : ∀ s ∈ ss, s.WF) : ∀ r : Result, r.WF →
    ∃ r', r.mergeAll ss = .ok r' ∧ r'.WF ∧
      r'.errors = r.errors ++ ss.flatMap Segment.errs ∧
      r'.roots = r.roots ++ ss.flatMap Segment.rts ∧
      r'.directives = r.directives ++ ss.filterMap Segment.directive ∧
      r'.nnodes = r.nnodes + (ss.map Segment.nnodes).sum ∧
      r'.eof = (r.eof || ss.any fun s => s.eof && (s.directive.isSome || decide (s.nerrors > 0))) := by
  induction ss with
  | nil => intro r hr; exact ⟨r, rfl, hr, by simp, by simp, by simp, by simp, by simp⟩
  | cons s ss ih =>
    intro r hr
    obtain ⟨r1, s1, q, w1, -, b1, b2, b3, b4, b5, -, -, -, -⟩ :=
      Result.merge_spec r s hr (hs s (by simp))
    obtain ⟨r2, q2, w2, c1, c2, c3, c4, c5⟩ := ih (fun t ht => hs t (by simp [ht])) r1 w1
    refine ⟨r2, ?_, w2, ?_, ?_, ?_, ?_, ?_⟩
    · simp only [Result.mergeAll, q, q2]
    · simp [c1, b1]
    · simp [c2, b2]
    · rw [c3, b3]; cases h : s.directive <;> simp [h]
    · rw [c4, b4]; simp; omega
    · rw [c5, b5]; simp [Bool.or_assoc]

/-! ## C09 -/

/-- What a client sees of an indexed collection: a count, and an accessor answering every index. -/
def Shows {α : Type} (n : Nat) (get : Nat → Except Fault (Option α)) (l : List α) : Prop :=
  n = l.length ∧ ∀ i, get i = .ok l[i]?

/-- One description of a segment as handed to the constructor. -/
structure SegDesc where
  range : Range
  errors : List PErr
  roots : List Root
  directive : Option Nat
  eof : Bool

/-- The segments `parse_each` builds from successive descriptions: each continues the ordinals
where the previous one stopped (parser.c:644-655). -/
def buildSegments : Nat → List SegDesc → List Segment
  | _, [] => []
  | o, d :: ds =>
    let s := Segment.new o d.range d.errors d.roots d.directive d.eof
    s :: buildSegments (o + s.nnodes) ds

theorem buildSegments_wf (ds : List SegDesc) : ∀ o, ∀ s ∈ buildSegments o ds, s.WF := by
  induction ds with
  | nil => intro o s h; simp [buildSegments] at h
  | cons d ds ih =>
    intro o s h
    simp only [buildSegments, List.mem_cons] at h
    rcases h with rfl | h
    · exact (Segment.new_wf _ _ _ _ _ _).1
    · exact ih _ s h

theorem buildSegments_errs (ds : List SegDesc) : ∀ o,
    (buildSegments o ds).flatMap Segment.errs = ds.flatMap SegDesc.errors := by
  induction ds with
  | nil => intro o; rfl
  | cons d ds ih =>
    intro o
    simp only [buildSegments, List.flatMap_cons, ih]
    rw [(Segment.new_wf _ _ _ _ _ _).2.1]

theorem setRootOrdinals_eq (rs : List Root) : ∀ n, setRootOrdinals rs n =
    ((rs.map (·.1)).zip (Ast.setOrdinalsList (rs.map (·.2)) n).1,
      (Ast.setOrdinalsList (rs.map (·.2)) n).2) := by
  induction rs with
  | nil => intro n; simp [setRootOrdinals, Ast.setOrdinalsList]
  | cons a rs ih => intro n; obtain ⟨a, t⟩ := a; simp [setRootOrdinals, Ast.setOrdinalsList, ih]


/-- **C09.** Collecting any sequence of segments yields a result whose errors, roots and directives,
as seen through the accessors at every index, are the concatenation of those of the segments in
order (as seen through the segment accessors before merging), whose node count is the sum, and whose
eof flag says whether some segment that holds a directive or an error ended at the end of the input.
Collecting never faults. -/
theorem result_is_concatenation (o : Nat) (ds : List SegDesc) :
    ∃ r, Result.empty.mergeAll (buildSegments o ds) = .ok r ∧
      ∃ (errs : List (List PErr)) (rts : List (List Root)),
        List.Forall₂ (fun s l => Shows s.nerrors s.getError l) (buildSegments o ds) errs ∧
        List.Forall₂ (fun s l => Shows s.nroots s.getRoot l) (buildSegments o ds) rts ∧
        Shows r.nerrors r.getError errs.flatten ∧
        Shows r.nroots r.getRoot rts.flatten ∧
        Shows r.ndirectives r.getDirective (ds.filterMap SegDesc.directive) ∧
        r.nnodes = ((buildSegments o ds).map Segment.nnodes).sum ∧
        (r.eof = true ↔ ∃ d ∈ ds, d.eof = true ∧ (d.directive ≠ none ∨ d.errors ≠ [])) := by
  obtain ⟨r, q, w, c1, c2, c3, c4, c5⟩ := Result.mergeAll_spec _ (buildSegments_wf ds o) Result.empty
    ⟨rfl, rfl, rfl, Nat.le_refl _⟩
  have hdir : ∀ ds o, (buildSegments o ds).filterMap Segment.directive
      = ds.filterMap SegDesc.directive := by
    intro ds
    induction ds with
    | nil => intro o; rfl
    | cons d ds ih => intro o; simp only [buildSegments, List.filterMap_cons, ih]; rfl
  have heof : ∀ ds o, ((buildSegments o ds).any fun s => s.eof &&
      (s.directive.isSome || decide (s.nerrors > 0))) =
      ds.any fun d => d.eof && (d.directive.isSome || decide (d.errors ≠ [])) := by
    intro ds
    induction ds with
    | nil => intro o; rfl
    | cons d ds ih =>
      intro o
      simp only [buildSegments, List.any_cons, ih]
      congr 1
      simp only [Segment.new]
      congr 2
      cases d.errors <;> simp
  refine ⟨r, q, (buildSegments o ds).map Segment.errs, (buildSegments o ds).map Segment.rts,
    ?_, ?_, ?_, ?_, ?_, ?_, ?_⟩
  · rw [List.forall₂_map_right_iff, List.forall₂_same]
    intro s hs
    have := buildSegments_wf ds o s hs
    exact ⟨by simp [Segment.errs, this.1], fun i => guardedRead_eq _ _ _ this.1⟩
  · rw [List.forall₂_map_right_iff, List.forall₂_same]
    intro s hs
    have := buildSegments_wf ds o s hs
    exact ⟨by simp [Segment.rts, this.2], fun i => guardedRead_eq _ _ _ this.2⟩
  · rw [← List.flatMap_def]
    simp only [Result.empty, List.nil_append] at c1
    rw [← c1]
    refine ⟨w.1.symm, fun i => ?_⟩
    rw [Result.getError, guardedRead_eq _ _ _ (by simp [w.1]), ← w.1, List.take_length]
  · rw [← List.flatMap_def]
    simp only [Result.empty, List.nil_append] at c2
    rw [← c2]
    refine ⟨w.2.symm, fun i => ?_⟩
    rw [Result.getRoot, guardedRead_eq _ _ _ (by simp [w.2]), ← w.2, List.take_length]
  · rw [← hdir ds o]
    simp only [Result.empty, List.nil_append] at c3
    rw [← c3]
    refine ⟨w.3.symm, fun i => ?_⟩
    rw [Result.getDirective, guardedRead_eq _ _ _ (by simp [w.3]), ← w.3, List.take_length]
  · rw [c4]; simp [Result.empty]
  · rw [c5, heof]
    simp [Result.empty, Option.isSome_iff_ne_none]

/-- Three segments: a directive, an error without directive, and blank input at the end. -/
example : ∃ r, Result.empty.mergeAll (buildSegments 5
    [⟨default, [], [(1, .node .statement default 0 [] [])], some 1, false⟩,
     ⟨default, [⟨default, [65], none⟩], [], none, false⟩, ⟨default, [], [], none, true⟩]) = .ok r ∧
    r.nroots = 1 ∧ r.nerrors = 1 ∧ r.ndirectives = 1 ∧ r.nnodes = 1 ∧ r.eof = false :=
  ⟨_, rfl, rfl, rfl, rfl, rfl, rfl⟩

/-! ## C11 -/

/-- **C11.** Every indexed accessor shows a collection: below the count it yields the item, at or
beyond the count NULL, and it never reads outside the array.  Segments are those the constructor
builds, results those collected from segments, nodes arbitrary. -/
theorem accessors_total (o : Nat) (d : SegDesc) (ds : List SegDesc) (a : Ast) :
    (Shows (Segment.new o d.range d.errors d.roots d.directive d.eof).nerrors
      (Segment.new o d.range d.errors d.roots d.directive d.eof).getError d.errors) ∧
    (∃ rts, rts.map (·.1) = d.roots.map (·.1) ∧
      Shows (Segment.new o d.range d.errors d.roots d.directive d.eof).nroots
        (Segment.new o d.range d.errors d.roots d.directive d.eof).getRoot rts) ∧
    (∃ r, Result.empty.mergeAll (buildSegments o ds) = .ok r ∧
      (∃ l, Shows r.nroots r.getRoot l) ∧ (∃ l, Shows r.nerrors r.getError l) ∧
      (∃ l, Shows r.ndirectives r.getDirective l)) ∧
    Shows a.children.length a.getChild a.children := by
  have hw := Segment.new_wf o d.range d.errors d.roots d.directive d.eof
  refine ⟨⟨?_, ?_⟩, ⟨(setRootOrdinals d.roots o).1, ?_, ?_, ?_⟩, ?_, rfl, ?_⟩
  · have := congrArg List.length hw.2.1
    rw [← this]; simp [Segment.errs, hw.1.1]
  · intro i
    rw [Segment.getError, guardedRead_eq _ _ _ hw.1.1]
    exact congrArg (fun l : List PErr => Except.ok l[i]?) hw.2.1
  · exact setRootOrdinals_addr d.roots o
  · have := congrArg List.length hw.2.2
    rw [← this]; simp [Segment.rts, hw.1.2]
  · intro i
    rw [Segment.getRoot, guardedRead_eq _ _ _ hw.1.2]
    exact congrArg (fun l : List Root => Except.ok l[i]?) hw.2.2
  · obtain ⟨r, q, errs, rts, -, -, h1, h2, h3, -⟩ := result_is_concatenation o ds
    exact ⟨r, q, ⟨_, h2⟩, ⟨_, h1⟩, ⟨_, h3⟩⟩
  · intro i
    rw [Ast.getChild, guardedRead_eq _ _ _ (Nat.le_refl _), List.take_length]

/-- A node with two children answers 0, 1 and (NULL) 2. -/
example : let a : Ast := .node .query default 0 [] [.node .match_ default 1 [] [],
      .node .returnClause default 2 [] []]
    (∃ c, a.getChild 1 = .ok (some c) ∧ c.ordinal = 2) ∧ a.getChild 2 = .ok none :=
  ⟨⟨_, rfl, rfl⟩, rfl⟩

/-! ## Ordinals across segments (the data part of C30) -/

theorem setOrdinalsList_length (ts : List Ast) : ∀ n,
    (Ast.setOrdinalsList ts n).1.length = ts.length := by
  induction ts with
  | nil => intro n; rfl
  | cons t ts ih => intro n; simp [Ast.setOrdinalsList, ih]

mutual
theorem size_erase : ∀ t : Ast, t.erase.size = t.size
  | .node _ _ _ _ cs => by simp [Ast.erase, Ast.size, sizeList_erase cs]
theorem sizeList_erase : ∀ ts : List Ast, sizeList (eraseList ts) = sizeList ts
  | [] => rfl
  | t :: ts => by simp [eraseList, sizeList, size_erase t, sizeList_erase ts]
end

/-- The ordinals of all nodes of all segments, in order, are consecutive from the initial one, and
each segment's node count is the number of its nodes. -/
theorem ordinals_across_segments (ds : List SegDesc) : ∀ o,
    ((buildSegments o ds).flatMap fun s => preorderList (s.rts.map (·.2))) =
      List.range' o (((buildSegments o ds).map Segment.nnodes).sum) ∧
    ∀ s ∈ buildSegments o ds, s.nnodes = sizeList (s.rts.map (·.2)) := by
  induction ds with
  | nil => intro o; simp [buildSegments]
  | cons d ds ih =>
    intro o
    have hw := (Segment.new_wf o d.range d.errors d.roots d.directive d.eof).2.2
    obtain ⟨h1, h2, h3⟩ := setOrdinalsList_spec (d.roots.map (·.2)) o
    have hr : (Segment.new o d.range d.errors d.roots d.directive d.eof).rts.map (·.2) =
        (Ast.setOrdinalsList (d.roots.map (·.2)) o).1 := by
      rw [hw, setRootOrdinals_eq]
      exact List.map_snd_zip (by simp [setOrdinalsList_length])
    have hn : (Segment.new o d.range d.errors d.roots d.directive d.eof).nnodes =
        sizeList (d.roots.map (·.2)) := by
      simp only [Segment.new, setRootOrdinals_eq, h1]; omega
    obtain ⟨i1, i2⟩ := ih (o + (Segment.new o d.range d.errors d.roots d.directive d.eof).nnodes)
    constructor
    · simp only [buildSegments, List.flatMap_cons, List.map_cons, List.sum_cons]
      rw [i1, hr, h2, ← hn, List.range'_append_1]
    · intro s hs
      simp only [buildSegments, List.mem_cons] at hs
      rcases hs with rfl | hs
      · rw [hn, hr, ← sizeList_erase (Ast.setOrdinalsList _ _).1, h3, sizeList_erase]
      · exact i2 s hs

/-! ## C10 -/

/-- Specification, on histories only: the segments created so far. -/
def created (ops : List SegOp) : Nat :=
  ops.countP fun | .create .. => true | _ => false
/-- How often handle `h` was retained. -/
def retains (ops : List SegOp) (h : Nat) : Nat :=
  ops.countP fun | .retain h' => h' == h | _ => false
/-- How often handle `h` was released. -/
def releases (ops : List SegOp) (h : Nat) : Nat :=
  ops.countP fun | .release h' => h' == h | _ => false
/-- Whether the result was freed. -/
def resultFreed (ops : List SegOp) : Bool :=
  ops.any fun | .freeResult => true | _ => false
/-- A handle a client may still use: created, and released less often than one plus the number of
retains. -/
def usable (ops : List SegOp) (h : Nat) : Prop := h < created ops ∧ releases ops h < 1 + retains ops h

/-- The client's side of the contract for the next operation. -/
def allowed (past : List SegOp) : SegOp → Prop
  | .create .. => True
  | .retain h => usable past h
  | .release h => usable past h
  | .merge h => usable past h ∧ resultFreed past = false
  | .freeResult => resultFreed past = false

/-- A history that respects the contract at each step. -/
def Disciplined (ops : List SegOp) : Prop :=
  ∀ past op rest, ops = past ++ op :: rest → allowed past op

/-- Addresses of all roots ever handed to segments. -/
def allRoots (ops : List SegOp) : List Nat :=
  ops.flatMap fun | .create _ _ _ rs _ _ => rs.map (·.1) | _ => []
/-- All errors ever handed to segments. -/
def allErrors (ops : List SegOp) : List PErr :=
  ops.flatMap fun | .create _ _ es _ _ _ => es | _ => []

/-- Addresses of the roots owned by live objects. -/
def Heap.ownedRoots (w : Heap) : List Nat :=
  (w.segs.flatMap fun o => match o with | some s => s.rts.map (·.1) | none => []) ++
    (match w.result with | some r => r.roots.map (·.1) | none => [])
def Heap.ownedErrors (w : Heap) : List PErr :=
  (w.segs.flatMap fun o => match o with | some s => s.errs | none => []) ++
    (match w.result with | some r => r.errors | none => [])

/-- The invariant tying the heap to the history. -/
structure HeapInv (w : Heap) (ops : List SegOp) : Prop where
  len : w.segs.length = created ops
  cnt : ∀ (h : Nat) o, w.segs[h]? = some o → match o with
    | some s => s.WF ∧ 0 < s.refcount ∧ s.refcount + releases ops h = 1 + retains ops h
    | none => releases ops h = 1 + retains ops h
  fresh : ∀ h, created ops ≤ h → releases ops h = 0 ∧ retains ops h = 0
  res : match w.result with
    | some r => r.WF ∧ resultFreed ops = false
    | none => resultFreed ops = true
  roots : (w.freedRoots ++ w.ownedRoots).Perm (allRoots ops)
  errs : (w.freedErrors ++ w.ownedErrors).Perm (allErrors ops)

theorem flatMap_set_perm {α β : Type} (f : α → List β) (l : List α) (i : Nat) (a b : α)
    (x : List β) (h : l[i]? = some a) (hx : (f b ++ x).Perm (f a)) :
    ((l.set i b).flatMap f ++ x).Perm (l.flatMap f) := by
  induction l generalizing i with
  | nil => simp at h
  | cons c l ih =>
    cases i with
    | zero =>
      simp only [List.getElem?_cons_zero, Option.some.injEq] at h
      subst h
      simp only [List.set_cons_zero, List.flatMap_cons]
      calc (f b ++ l.flatMap f ++ x).Perm (f b ++ x ++ l.flatMap f) := by
            rw [List.append_assoc, List.append_assoc]
            exact List.Perm.append_left _ List.perm_append_comm
        _ |>.Perm _ := List.Perm.append_right _ hx
    | succ i =>
      simp only [List.getElem?_cons_succ] at h
      simp only [List.set_cons_succ, List.flatMap_cons, List.append_assoc]
      exact List.Perm.append_left _ (ih i h)

theorem perm_move {β : Type} {f s s' r r' x : List β} (h1 : (s' ++ x).Perm s)
    (h2 : r' = r ++ x) : (f ++ (s' ++ r')).Perm (f ++ (s ++ r)) := by
  subst h2
  refine List.Perm.append_left _ ?_
  calc (s' ++ (r ++ x)).Perm (s' ++ (x ++ r)) := List.Perm.append_left _ List.perm_append_comm
    _ |>.Perm (s' ++ x ++ r) := by rw [List.append_assoc]
    _ |>.Perm _ := List.Perm.append_right _ h1

theorem perm_free {β : Type} {f s s' r x : List β} (h1 : (s' ++ x).Perm s) :
    (f ++ x ++ (s' ++ r)).Perm (f ++ (s ++ r)) := by
  rw [List.append_assoc]
  refine List.Perm.append_left _ ?_
  rw [← List.append_assoc]
  exact List.Perm.append_right _ (List.perm_append_comm.trans h1)

theorem HeapInv.step {w : Heap} {ops : List SegOp} {op : SegOp} (hi : HeapInv w ops)
    (ha : allowed ops op) : ∃ w', w.step op = .ok w' ∧ HeapInv w' (ops ++ [op]) := by
  obtain ⟨len, cnt, fresh, res, rts, ers⟩ := hi
  have live : ∀ h, usable ops h → ∃ s, w.segs[h]? = some (some s) ∧ w.deref h = .ok s ∧ s.WF ∧
      0 < s.refcount ∧ s.refcount + releases ops h = 1 + retains ops h := by
    intro h hu
    have hl : h < w.segs.length := by rw [len]; exact hu.1
    have := cnt h w.segs[h] (List.getElem?_eq_getElem hl)
    cases hh : w.segs[h] with
    | none =>
      rw [hh] at this
      have := hu.2
      simp only at *
      omega
    | some s =>
      rw [hh] at this
      refine ⟨s, by rw [List.getElem?_eq_getElem hl, hh], ?_, this⟩
      simp [Heap.deref, List.getElem?_eq_getElem hl, hh]
  cases op with
  | create o rg es rs d e =>
    refine ⟨_, rfl, ?_, ?_, ?_, ?_, ?_, ?_⟩
    · simp [created, len]
    · intro h o' ho
      have hr : releases (ops ++ [.create o rg es rs d e]) h = releases ops h := by simp [releases]
      have hr' : retains (ops ++ [.create o rg es rs d e]) h = retains ops h := by simp [retains]
      rw [hr, hr']
      simp only at ho
      by_cases hlt : h < w.segs.length
      · rw [List.getElem?_append_left hlt] at ho
        exact cnt h o' ho
      · rw [List.getElem?_append_right (by omega)] at ho
        have : h - w.segs.length = 0 := by
          by_contra hne
          rw [List.getElem?_eq_none (by simp; omega)] at ho
          simp at ho
        rw [this] at ho
        simp only [List.getElem?_cons_zero, Option.some.injEq] at ho
        subst ho
        have hf := fresh h (by omega)
        refine ⟨(Segment.new_wf _ _ _ _ _ _).1, by simp [Segment.new], ?_⟩
        simp [Segment.new, hf.1, hf.2]
    · intro h hh
      have : created ops ≤ h := by simp [created] at hh ⊢; omega
      simpa [releases, retains] using fresh h this
    · have hrf : resultFreed (ops ++ [.create o rg es rs d e]) = resultFreed ops := by
        simp [resultFreed]
      simpa only [hrf] using res
    · have hw := (Segment.new_wf o rg es rs d e).2.2
      simp only [Heap.ownedRoots, List.flatMap_append, List.flatMap_cons, List.flatMap_nil,
        List.append_nil, allRoots, hw, setRootOrdinals_addr]
      refine List.Perm.trans ?_ (List.Perm.append_right _ rts)
      simp only [Heap.ownedRoots, List.append_assoc]
      exact List.Perm.append_left _ (List.Perm.append_left _ List.perm_append_comm)
    · have hw := (Segment.new_wf o rg es rs d e).2.1
      simp only [Heap.ownedErrors, List.flatMap_append, List.flatMap_cons, List.flatMap_nil,
        List.append_nil, allErrors, hw]
      refine List.Perm.trans ?_ (List.Perm.append_right _ ers)
      simp only [Heap.ownedErrors, List.append_assoc]
      exact List.Perm.append_left _ (List.Perm.append_left _ List.perm_append_comm)
  | retain h =>
    obtain ⟨s, hs, hd, hw, hp, hc⟩ := live h ha
    refine ⟨{ w with segs := w.segs.set h (some { s with refcount := s.refcount + 1 }) },
      ?_, ?_, ?_, ?_, ?_, ?_, ?_⟩
    · simp [Heap.step, hd, hp, bind, Except.bind, pure, Except.pure]
    · simp [created, len]
    · intro k o' ho
      have hr : releases (ops ++ [.retain h]) k = releases ops k := by simp [releases]
      simp only [List.getElem?_set] at ho
      by_cases hk : h = k
      · subst hk
        have hl : h < w.segs.length := by rw [len]; exact ha.1
        simp only [if_true, hl] at ho
        cases ho
        have hr' : retains (ops ++ [.retain h]) h = retains ops h + 1 := by simp [retains]
        refine ⟨⟨hw.1, hw.2⟩, by simp, ?_⟩
        simp only [hr, hr']; omega
      · rw [if_neg hk] at ho
        have hr' : retains (ops ++ [.retain h]) k = retains ops k := by simp [retains, hk]
        rw [hr, hr']
        exact cnt k o' ho
    · intro k hk
      have hk' : created ops ≤ k := by simpa [created] using hk
      have hne : h ≠ k := by have := ha.1; omega
      simpa [releases, retains, hne] using fresh k hk'
    · have hrf : resultFreed (ops ++ [.retain h]) = resultFreed ops := by simp [resultFreed]
      simpa only [hrf] using res
    · have e : allRoots (ops ++ [.retain h]) = allRoots ops := by simp [allRoots]
      rw [e]
      refine List.Perm.trans ?_ rts
      refine perm_move (x := []) ?_ (by simp)
      exact flatMap_set_perm _ _ _ _ _ [] hs (by simp [Segment.rts])
    · have e : allErrors (ops ++ [.retain h]) = allErrors ops := by simp [allErrors]
      rw [e]
      refine List.Perm.trans ?_ ers
      refine perm_move (x := []) ?_ (by simp)
      exact flatMap_set_perm _ _ _ _ _ [] hs (by simp [Segment.errs])
  | release h =>
    obtain ⟨s, hs, hd, hw, hp, hc⟩ := live h ha
    have hl : h < w.segs.length := by rw [len]; exact ha.1
    have e1 : allRoots (ops ++ [.release h]) = allRoots ops := by simp [allRoots]
    have e2 : allErrors (ops ++ [.release h]) = allErrors ops := by simp [allErrors]
    have e3 : resultFreed (ops ++ [.release h]) = resultFreed ops := by simp [resultFreed]
    have e4 : ∀ k, retains (ops ++ [.release h]) k = retains ops k := by simp [retains]
    have e5 : ∀ k, releases (ops ++ [.release h]) k = releases ops k + if h = k then 1 else 0 := by
      intro k; simp [releases, List.countP_singleton]
    have hfresh : ∀ k, created (ops ++ [.release h]) ≤ k →
        releases (ops ++ [.release h]) k = 0 ∧ retains (ops ++ [.release h]) k = 0 := by
      intro k hk
      have hk' : created ops ≤ k := by simpa [created] using hk
      have hne : h ≠ k := by have := ha.1; omega
      simpa [e4, e5, hne] using fresh k hk'
    by_cases hrc : s.refcount - 1 > 0
    · refine ⟨{ w with segs := w.segs.set h (some { s with refcount := s.refcount - 1 }) },
        ?_, ?_, ?_, hfresh, ?_, ?_, ?_⟩
      · simp only [Heap.step, hd, hp, bind, Except.bind, pure, Except.pure]
        simp [hrc]
      · simp [created, len]
      · intro k o' ho
        simp only [List.getElem?_set] at ho
        rw [e4, e5]
        by_cases hk : h = k
        · subst hk
          simp only [if_true, hl] at ho
          cases ho
          refine ⟨⟨hw.1, hw.2⟩, hrc, ?_⟩
          simp only [if_true]; omega
        · rw [if_neg hk] at ho
          rw [if_neg hk]
          exact cnt k o' ho
      · simpa only [e3] using res
      · rw [e1]
        refine List.Perm.trans ?_ rts
        refine perm_move (x := []) ?_ (by simp)
        exact flatMap_set_perm _ _ _ _ _ [] hs (by simp [Segment.rts])
      · rw [e2]
        refine List.Perm.trans ?_ ers
        refine perm_move (x := []) ?_ (by simp)
        exact flatMap_set_perm _ _ _ _ _ [] hs (by simp [Segment.errs])
    · refine ⟨{ w with segs := w.segs.set h none,
                       freedErrors := w.freedErrors ++ s.errors.take s.nerrors,
                       freedRoots := w.freedRoots ++ (s.roots.take s.nroots).map (·.1) },
        ?_, ?_, ?_, hfresh, ?_, ?_, ?_⟩
      · have h1 : ¬ (s.errors.length < s.nerrors ∨ s.roots.length < s.nroots) := by
          have := hw.1; have := hw.2; omega
        simp only [Heap.step, hd, hp, bind, Except.bind, pure, Except.pure]
        simp [hrc, h1]
      · simp [created, len]
      · intro k o' ho
        simp only [List.getElem?_set] at ho
        rw [e4, e5]
        by_cases hk : h = k
        · subst hk
          simp only [if_true, hl] at ho
          cases ho
          simp only [if_true]; omega
        · rw [if_neg hk] at ho
          rw [if_neg hk]
          exact cnt k o' ho
      · simpa only [e3] using res
      · rw [e1]
        refine List.Perm.trans ?_ rts
        refine perm_free ?_
        exact flatMap_set_perm _ _ _ _ _ _ hs (by simp [Segment.rts])
      · rw [e2]
        refine List.Perm.trans ?_ ers
        refine perm_free ?_
        exact flatMap_set_perm _ _ _ _ _ _ hs (by simp [Segment.errs])
  | merge h =>
    obtain ⟨s, hs, hd, hw, hp, hc⟩ := live h ha.1
    have hl : h < w.segs.length := by rw [len]; exact ha.1.1
    cases hr : w.result with
    | none => rw [hr] at res; simp only at res; rw [ha.2] at res; simp at res
    | some r =>
      rw [hr] at res
      obtain ⟨r', s', q, w1, w2, b1, b2, -, -, -, b3, b4, b5, -⟩ := Result.merge_spec r s res.1 hw
      have e1 : allRoots (ops ++ [.merge h]) = allRoots ops := by simp [allRoots]
      have e2 : allErrors (ops ++ [.merge h]) = allErrors ops := by simp [allErrors]
      have e3 : resultFreed (ops ++ [.merge h]) = resultFreed ops := by simp [resultFreed]
      have e4 : ∀ k, retains (ops ++ [.merge h]) k = retains ops k := by simp [retains]
      have e5 : ∀ k, releases (ops ++ [.merge h]) k = releases ops k := by simp [releases]
      refine ⟨{ w with segs := w.segs.set h (some s'), result := some r' },
        ?_, ?_, ?_, ?_, ?_, ?_, ?_⟩
      · simp [Heap.step, hd, hr, q, bind, Except.bind]
      · simp [created, len]
      · intro k o' ho
        simp only [List.getElem?_set] at ho
        rw [e4, e5]
        by_cases hk : h = k
        · subst hk
          simp only [if_true, hl] at ho
          cases ho
          exact ⟨w2, by omega, by omega⟩
        · rw [if_neg hk] at ho
          exact cnt k o' ho
      · intro k hk
        rw [e4, e5]
        exact fresh k (by simpa [created] using hk)
      · simp only [e3]; exact ⟨w1, res.2⟩
      · rw [e1]
        refine List.Perm.trans ?_ rts
        simp only [Heap.ownedRoots, hr]
        refine perm_move (x := s.rts.map (·.1)) ?_ (by simp [b2])
        exact flatMap_set_perm _ _ _ _ _ _ hs (by simp [b4])
      · rw [e2]
        refine List.Perm.trans ?_ ers
        simp only [Heap.ownedErrors, hr]
        refine perm_move (x := s.errs) ?_ (by simp [b1])
        exact flatMap_set_perm _ _ _ _ _ _ hs (by simp [b3])
  | freeResult =>
    cases hr : w.result with
    | none => rw [hr] at res; simp only at res; have := ha.symm.trans res; simp at this
    | some r =>
      rw [hr] at res
      have hrw := res.1
      refine ⟨{ w with result := none,
                        freedErrors := w.freedErrors ++ r.errors.take r.nerrors,
                        freedRoots := w.freedRoots ++ (r.roots.take r.nroots).map (·.1) },
        ?_, ?_, ?_, ?_, ?_, ?_, ?_⟩
      · have h1 : ¬ (r.errors.length < r.nerrors ∨ r.roots.length < r.nroots) := by
          have := hrw.1; have := hrw.2; omega
        simp [Heap.step, hr, h1]
      · simp [created, len]
      · intro k o' ho
        have hr1 : releases (ops ++ [.freeResult]) k = releases ops k := by simp [releases]
        have hr2 : retains (ops ++ [.freeResult]) k = retains ops k := by simp [retains]
        rw [hr1, hr2]; exact cnt k o' ho
      · intro k hk
        simpa [releases, retains] using fresh k (by simpa [created] using hk)
      · simp [resultFreed]
      · have e1 : allRoots (ops ++ [.freeResult]) = allRoots ops := by simp [allRoots]
        rw [e1]
        refine List.Perm.trans ?_ rts
        simp only [Heap.ownedRoots, hr, ← hrw.2, List.take_length, List.append_nil,
          List.append_assoc]
        exact List.Perm.append_left _ List.perm_append_comm
      · have e1 : allErrors (ops ++ [.freeResult]) = allErrors ops := by simp [allErrors]
        rw [e1]
        refine List.Perm.trans ?_ ers
        simp only [Heap.ownedErrors, hr, ← hrw.1, List.take_length, List.append_nil,
          List.append_assoc]
        exact List.Perm.append_left _ List.perm_append_comm

theorem HeapInv.run {w : Heap} {past : List SegOp} (ops : List SegOp) (hi : HeapInv w past)
    (hd : Disciplined (past ++ ops)) : ∃ w', w.run ops = .ok w' ∧ HeapInv w' (past ++ ops) := by
  induction ops generalizing w past with
  | nil => exact ⟨w, rfl, by simpa using hi⟩
  | cons op ops ih =>
    obtain ⟨w1, q, h1⟩ := hi.step (hd past op ops rfl)
    obtain ⟨w2, q2, h2⟩ := ih h1 (by simpa using hd)
    refine ⟨w2, ?_, by simpa using h2⟩
    simp [Heap.run, q, q2]

theorem heapInv_init : HeapInv Heap.init [] := by
  refine ⟨rfl, ?_, ?_, ?_, ?_, ?_⟩
  · intro h o ho; simp [Heap.init] at ho
  · intro h _; simp [releases, retains]
  · exact ⟨⟨rfl, rfl, rfl, Nat.le_refl _⟩, rfl⟩
  · simp [Heap.init, Heap.ownedRoots, Result.empty, allRoots]
  · simp [Heap.init, Heap.ownedErrors, Result.empty, allErrors]

/-- Merging moves: afterwards the segment no longer owns a root, an error or a directive, so nothing
the result hands out is reachable from (or freed with) the segment. -/
theorem merge_hands_over (r : Result) (s : Segment) (hr : r.WF) (hs : s.WF) :
    ∃ r' s', r.merge s = .ok (r', s') ∧ s'.errs = [] ∧ s'.rts = [] ∧ s'.directive = none ∧
      s'.refcount = s.refcount := by
  obtain ⟨r', s', q, -, -, -, -, -, -, -, h1, h2, h3, h4⟩ := Result.merge_spec r s hr hs
  exact ⟨r', s', q, h1, h2, h4, h3⟩

/-- **C10.** For every history in which clients only use segments they still hold a reference to
(in any interleaving over any number of segments, including handing contents over to the result):
no operation faults; a segment has been freed exactly when the number of releases has reached one
plus the number of retains; what has been freed together with what live objects own is exactly what
was ever allocated, each item once — so nothing is freed twice, and once every segment has been
released and the result freed, nothing is leaked. -/
theorem segment_lifetime (ops : List SegOp) (hd : Disciplined ops) :
    ∃ w, Heap.init.run ops = .ok w ∧ w.segs.length = created ops ∧
      (∀ h < created ops, w.segs[h]? = some none ↔ releases ops h = 1 + retains ops h) ∧
      (w.freedRoots ++ w.ownedRoots).Perm (allRoots ops) ∧
      (w.freedErrors ++ w.ownedErrors).Perm (allErrors ops) ∧
      ((∀ h < created ops, releases ops h = 1 + retains ops h) → resultFreed ops = true →
        w.freedRoots.Perm (allRoots ops) ∧ w.freedErrors.Perm (allErrors ops)) := by
  obtain ⟨w, q, hi⟩ := HeapInv.run ops heapInv_init hd
  rw [List.nil_append] at hi
  have key : ∀ h < created ops, w.segs[h]? = some none ↔ releases ops h = 1 + retains ops h := by
    intro h hh
    have hl : h < w.segs.length := by rw [hi.len]; exact hh
    have := hi.cnt h w.segs[h] (List.getElem?_eq_getElem hl)
    rw [List.getElem?_eq_getElem hl]
    cases hs : w.segs[h] with
    | none => rw [hs] at this; simpa using this
    | some s => rw [hs] at this; simp only at this; simp; omega
  refine ⟨w, q, hi.len, key, hi.roots, hi.errs, ?_⟩
  intro hall hrf
  have hres : w.result = none := by
    have := hi.res
    cases hr : w.result with
    | none => rfl
    | some r => rw [hr] at this; simp [hrf] at this
  have hnone : ∀ o ∈ w.segs, o = none := by
    intro o ho
    obtain ⟨h, hl, rfl⟩ := List.getElem_of_mem ho
    have hh : h < created ops := by rw [← hi.len]; exact hl
    have := (key h hh).2 (hall h hh)
    rw [List.getElem?_eq_getElem hl] at this
    simpa using this
  constructor
  · have := hi.roots
    have he : w.ownedRoots = [] := by
      simp only [Heap.ownedRoots, hres, List.append_nil, List.flatMap_eq_nil_iff]
      intro o ho; rw [hnone o ho]
    rwa [he, List.append_nil] at this
  · have := hi.errs
    have he : w.ownedErrors = [] := by
      simp only [Heap.ownedErrors, hres, List.append_nil, List.flatMap_eq_nil_iff]
      intro o ho; rw [hnone o ho]
    rwa [he, List.append_nil] at this

/-- One segment retained once by a callback and released twice, another merged into the result. -/
def lifetimeExample : List SegOp :=
  [.create 0 default [] [(1, .node .statement default 0 [] [])] (some 1) false,
   .retain 0, .release 0, .create 1 default [] [(2, .node .command default 0 [] [])] (some 2) true,
   .merge 1, .release 1, .release 0, .freeResult]

/-- The history above runs, frees both roots, and the release counts are as specified. -/
example : (∃ w, Heap.init.run lifetimeExample = .ok w ∧ w.freedRoots = [1, 2]) ∧
    releases lifetimeExample 0 = 1 + retains lifetimeExample 0 ∧
    releases lifetimeExample 1 = 1 + retains lifetimeExample 1 := ⟨⟨_, rfl, rfl⟩, rfl, rfl⟩

/-- Releasing once more than allowed is a use after free in the model. -/
example : Heap.init.run (lifetimeExample ++ [.release 0]) = .error .outOfBounds := rfl

end Verif
