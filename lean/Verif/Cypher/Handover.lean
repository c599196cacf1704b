import Verif.Cypher.Abort
import Mathlib.Data.List.Nodup
/-!
# From the parser to the result, when allocations may fail (`lib/src/parser.c`, `segment.c`, `result.c`)

`parse` with `parse_each`, `cypher_parse_segment`, `cp_result_merge_segment`, `cypher_parse_segment_release` and
`cypher_parse_result_free`, as far as they allocate, free and hand over what was allocated. Whether an allocation
succeeds is decided by `ask`, by its number.

What `parse_one` delivers is given: it is the list of the segments. Allocations that fail inside of `parse_one` are the
subject of `Abort.lean`.

Simplifications: the operator stacks and the string buffer are not modelled; they belong to `parse_each` alone. The two
vectors of a block are one cell with the block. The ordinals, the numbers of nodes and the ranges are those of
`Data/Segment.lean`.
-/
namespace Verif.Handover
open Verif Verif.Cypher

/-- An error, with the segment and the position that name its strings. -/
structure TErr where
  seg : Nat
  place : Nat
  err : PErr

def TErr.cells (x : TErr) : Cells := [.message x.seg x.place] ++ (contextPtr x.seg x.place x.err).toList

def errsCells : List TErr → Cells
  | [] => []
  | x :: xs => x.cells ++ errsCells xs

/-- The errors of the `k`-th segment. -/
def tag (k : Nat) : Nat → List PErr → List TErr
  | _, [] => []
  | j, e :: es => ⟨k, j, e⟩ :: tag k (j + 1) es

/-- What is allocated, and the number of the next allocation. -/
structure Mem where
  tick : Nat
  cells : Cells

/-- `free` -/
def freeIn (p : Option Cell) (m : Mem) : Except MemFault Mem := do
  let h ← freeCell p m.cells
  .ok { m with cells := h }

/-- `cp_errors_vcleanup` (errors.c:55-64). -/
def errsFree (array : Option Cell) : List TErr → Mem → Except MemFault Mem
  | [], m => .ok m
  | x :: xs, m => do
    loadCell array m.cells
    let m ← freeIn (some (.message x.seg x.place)) m
    let m ← freeIn (contextPtr x.seg x.place x.err) m
    errsFree array xs m

/-- `cypher_ast_vfree` (ast.c:450-456). -/
def rootsFree (array : Option Cell) (ns : List Node) (m : Mem) : Except MemFault Mem := do
  let h ← vFree array ns m.cells
  .ok { m with cells := h }

/-- A segment (segment.h:24-36): what its arrays hold, up to the counts, and the pointers to the arrays. -/
structure Seg where
  num : Nat
  errs : List TErr
  errsPtr : Option Cell
  roots : List Node
  rootsPtr : Option Cell
  directive : Option Ref
  eof : Bool

/-- A result (result.h:25-38). -/
structure Res where
  errs : List TErr
  errsPtr : Option Cell
  roots : List Node
  rootsPtr : Option Cell
  directives : List Ref
  dirsPtr : Option Cell
  cap : Nat
  eof : Bool

/-- After `calloc`. -/
def Res.start : Res := ⟨[], none, [], none, [], none, 0, false⟩

/-- What `parse_each` owns. -/
structure Ctx where
  lines : Option Cell
  blocks : Option Cell
  top : Option Cell
  children : List Node
  noted : Option Cell
  errs : List TErr

/-- After `memset` and the calls of `.._init` (parser.c:590-602). -/
def Ctx.start : Ctx := ⟨none, none, none, [], none, []⟩

/-- `cypher_parse_segment_release` (segment.c:90-109) of the last reference. -/
def Seg.release (s : Seg) (m : Mem) : Except MemFault Mem := do
  loadCell (some (.segment s.num)) m.cells
  let m ← errsFree s.errsPtr s.errs m
  let m ← freeIn s.errsPtr m
  let m ← rootsFree s.rootsPtr s.roots m
  let m ← freeIn s.rootsPtr m
  freeIn (some (.segment s.num)) m

/-- `cypher_parse_result_free` (result.c:173-187). -/
def Res.free (r : Res) (m : Mem) : Except MemFault Mem := do
  loadCell (some .result) m.cells
  let m ← errsFree r.errsPtr r.errs m
  let m ← freeIn r.errsPtr m
  let m ← rootsFree r.rootsPtr r.roots m
  let m ← freeIn r.rootsPtr m
  let m ← freeIn r.dirsPtr m
  freeIn (some .result) m

/-- `block_free(top_block)` (parser.c:998-1012). -/
def topFree (top : Option Cell) (children : List Node) (m : Mem) : Except MemFault Mem :=
  match top with
  | none => .ok m
  | some _ => do
    let h ← blockFree 0 ⟨0, 0, ⟨0, 0, 0⟩, ⟨0, 0, 0⟩, [], children⟩ m.cells
    .ok { m with cells := h }

/-- The end of `parse_each` (parser.c:686-697), with `cp_et_cleanup` (errors.c:305-315). -/
def Ctx.cleanup (c : Ctx) (m : Mem) : Except MemFault Mem := do
  let m ← freeIn c.lines m
  let m ← topFree c.top c.children m
  let m ← freeIn c.blocks m
  let m ← errsFree c.noted c.errs m
  freeIn c.noted m

section
variable (ask : Nat → Bool)

/-- `malloc` and `calloc`; the block has the name `c` -/
def alloc (c : Cell) (m : Mem) : Option Cell × Mem :=
  if ask m.tick then (some c, ⟨m.tick + 1, c :: m.cells⟩) else (none, ⟨m.tick + 1, m.cells⟩)

/-- `realloc` -/
def realloc (p : Option Cell) (c : Cell) (m : Mem) : Except MemFault (Option Cell × Mem) :=
  match p with
  | none => .ok (alloc ask c m)
  | some d =>
    if d ∈ m.cells then
      if ask m.tick then .ok (some c, ⟨m.tick + 1, c :: m.cells.filter (· ≠ d)⟩) else .ok (none, ⟨m.tick + 1, m.cells⟩)
    else .error .doubleFree

/-- `if (n > 0) { p = mdup(src, n); if (p == NULL) .. }` (mdup: util.h:140-155): whether that went well, and the pointer. -/
def copyOf (src : Option Cell) (n : Nat) (c : Cell) (m : Mem) : Except MemFault ((Bool × Option Cell) × Mem) :=
  if n > 0 then
    match alloc ask c m with
    | (none, m) => .ok ((false, none), m)
    | (some p, m) => do
      loadCell src m.cells
      .ok ((true, some p), m)
  else .ok ((true, none), m)

/-- The cleanup of `cypher_parse_segment` (segment.c:68-78). -/
def segFailure (k : Nat) (p q : Option Cell) (m : Mem) : Except MemFault (Option Seg × Mem) := do
  let m ← freeIn p m
  let m ← freeIn q m
  let m ← freeIn (some (.segment k)) m
  .ok (none, m)

/-- `cypher_parse_segment` (segment.c:24-79); `src` and `top` are where the errors and the roots are. -/
def segNew (k : Nat) (src : Option Cell) (es : List TErr) (top : Option Cell) (rs : List Node)
    (d : Option Ref) (eof : Bool) (m : Mem) : Except MemFault (Option Seg × Mem) :=
  match alloc ask (.segment k) m with
  | (none, m) => .ok (none, m)
  | (some _, m) => do
    let ((ok, p), m) ← copyOf ask src es.length (.errors k) m
    if ok then do
      let ((ok, q), m) ← copyOf ask top rs.length (.roots k) m
      if ok then .ok (some ⟨k, es, p, rs, q, d, eof⟩, m)
      else segFailure k p q m
    else segFailure k p none m

/-- The errors (result.c:98-113). -/
def mergeErrs (r : Res) (s : Seg) (m : Mem) : Except MemFault ((Bool × Res × Seg) × Mem) :=
  if s.errs.length > 0 then do
    let (p, m) ← realloc ask r.errsPtr .resErrors m
    match p with
    | none => .ok ((false, r, s), m)
    | some p => do
      loadCell s.errsPtr m.cells
      .ok ((true, { r with errs := r.errs ++ s.errs, errsPtr := some p }, { s with errs := [] }), m)
  else .ok ((true, r, s), m)

/-- The roots (result.c:115-130). -/
def mergeRoots (r : Res) (s : Seg) (m : Mem) : Except MemFault ((Bool × Res × Seg) × Mem) :=
  if s.roots.length > 0 then do
    let (p, m) ← realloc ask r.rootsPtr .resRoots m
    match p with
    | none => .ok ((false, r, s), m)
    | some p => do
      loadCell s.rootsPtr m.cells
      .ok ((true, { r with roots := r.roots ++ s.roots, rootsPtr := some p }, { s with roots := [] }), m)
  else .ok ((true, r, s), m)

/-- Writing the directive (result.c:148-149). -/
def storeDir (r : Res) (s : Seg) (d : Ref) (m : Mem) : Except MemFault ((Bool × Res × Seg) × Mem) := do
  loadCell r.dirsPtr m.cells
  .ok ((true, { r with directives := r.directives ++ [d] }, { s with directive := none }), m)

/-- The directive (result.c:134-150). -/
def mergeDir (r : Res) (s : Seg) (m : Mem) : Except MemFault ((Bool × Res × Seg) × Mem) :=
  match s.directive with
  | none => .ok ((true, r, s), m)
  | some d =>
    if r.cap ≤ r.directives.length then do
      let (p, m) ← realloc ask r.dirsPtr .resDirectives m
      match p with
      | none => .ok ((false, r, s), m)
      | some p => storeDir { r with dirsPtr := some p, cap := if r.cap = 0 then 8 else r.cap * 2 } s d m
    else storeDir r s d m

/-- The flag (result.c:92-96). -/
def mergeEof (r : Res) (s : Seg) : Res :=
  if !r.eof && s.eof && (s.directive.isSome || decide (s.errs.length > 0)) then { r with eof := true } else r

/-- `cp_result_merge_segment` (result.c:89-153): whether 0 is returned, the result and the segment. -/
def merge (r : Res) (s : Seg) (m : Mem) : Except MemFault ((Bool × Res × Seg) × Mem) := do
  let ((ok, r, s), m) ← mergeErrs ask (mergeEof r s) s m
  if ok then do
    let ((ok, r, s), m) ← mergeRoots ask r s m
    if ok then mergeDir ask r s m else .ok ((false, r, s), m)
  else .ok ((false, r, s), m)

/-- What `parse_one` leaves behind: the roots in the outermost block, and the errors. -/
def deliver (k : Nat) (s : PSeg) (c : Ctx) (m : Mem) : Ctx × Mem :=
  ({ c with children := s.roots, errs := tag k 0 s.errors,
            noted := if s.errors.length > 0 then some .noted else c.noted },
   { m with cells := Node.cellss s.roots ++ (errsCells (tag k 0 s.errors) ++
      ((if s.errors.length > 0 ∧ c.noted.isNone then [.noted] else []) ++ m.cells)) })

/-- The loop of `parse_each` (parser.c:617-681) with `parse_all_callback` (701-705), for what `parse_one` delivers.
`offsets_push` (677) cannot fail there: the vector has room after `offsets_clear`. -/
def each : List PSeg → Nat → Ctx → Res → Mem → Except MemFault ((Bool × Ctx × Res) × Mem)
  | [], _, c, r, m => .ok ((true, c, r), m)
  | s :: ss, k, c, r, m => do
    let (c, m) := deliver k s c m
    let (o, m) ← segNew ask k c.noted c.errs c.top c.children s.directive s.eof m
    match o with
    | none => .ok ((false, c, r), m)
    | some g => do
      let c := { c with errs := [], children := [] }
      let ((ok, r, g), m) ← merge ask r g m
      let m ← g.release m
      if ok then each ss (k + 1) c r m else .ok ((false, c, r), m)

/-- `cp_vector_push` (vector.c:63-83) to a vector that has no elements yet. If `checked` is false, a `realloc` that
fails is not noticed, as in the code, and the element is written through NULL. -/
def firstPush (checked : Bool) (c : Cell) (m : Mem) : Except MemFault (Option Cell × Mem) :=
  match alloc ask c m with
  | (none, m) => if checked then .ok (none, m) else .error .nullWrite
  | (some p, m) => .ok (some p, m)

/-- `parse_each` up to the cleanup (parser.c:604-681), with `block_start` (903-922). -/
def begin_ (checked : Bool) (L : List PSeg) (m : Mem) : Except MemFault ((Bool × Ctx × Res) × Mem) := do
  let (p, m) ← firstPush ask checked .lines m
  match p with
  | none => .ok ((false, .start, .start), m)
  | some p =>
    let c := { Ctx.start with lines := some p }
    match alloc ask (.block 0) m with
    | (none, m) => .ok ((false, c, .start), m)
    | (some b, m) => do
      let (q, m) ← firstPush ask checked .blocks m
      match q with
      | none => do
        let m ← freeIn (some b) m
        .ok ((false, c, .start), m)
      | some q => each ask L 0 { c with blocks := some q, top := some b } .start m

/-- `parse` (parser.c:708-726), called by `cypher_parse` and the like. -/
def parse (checked : Bool) (L : List PSeg) (m : Mem) : Except MemFault (Option Res × Mem) :=
  match alloc ask .result m with
  | (none, m) => .ok (none, m)
  | (some _, m) => do
    let ((ok, c, r), m) ← begin_ ask checked L m
    let m ← c.cleanup m
    if ok then .ok (some r, m)
    else do
      let m ← r.free m
      .ok (none, m)

end

/-! ## Ownership -/

/-- What is allocated is what is owned, each once. -/
def Own (h own : Cells) : Prop := h.Perm own ∧ h.Nodup

/-- Rearranging. -/
macro "perm" : tactic => `(tactic| (
  refine List.perm_iff_count.2 fun _ => ?_
  simp only [List.count_append, List.count_nil, Option.toList_some, Option.toList_none, List.append_nil, List.nil_append]
  try omega))

theorem Own.to {h a b : Cells} (ho : Own h a) (hp : a.Perm b) : Own h b := ⟨ho.1.trans hp, ho.2⟩

theorem Own.nodup {h a : Cells} (ho : Own h a) : a.Nodup := ho.1.nodup_iff.1 ho.2

theorem Own.mem {h a : Cells} (ho : Own h a) {c : Cell} : c ∈ h ↔ c ∈ a := ho.1.mem_iff

theorem Own.add {h a : Cells} (ho : Own h a) {c : Cell} (hc : c ∉ a) : Own (c :: h) ([c] ++ a) :=
  ⟨ho.1.cons c, List.nodup_cons.2 ⟨fun hm => hc (ho.mem.1 hm), ho.2⟩⟩

/-- Taking away a part. -/
theorem Own.without {h x a : Cells} (ho : Own h (x ++ a)) : Own (h.filter (· ∉ x)) a := by
  refine ⟨(ho.1.filter _).trans ?_, ho.2.filter _⟩
  have hd := List.nodup_append.1 ho.nodup
  rw [List.filter_append, List.filter_eq_nil_iff.2, List.filter_eq_self.2]
  · rfl
  · exact fun c hc => decide_eq_true fun hx => hd.2.2 c hx c hc rfl
  · simp

theorem Own.free {h a : Cells} {p : Option Cell} (ho : Own h (p.toList ++ a)) :
    ∃ h', freeCell p h = .ok h' ∧ Own h' a :=
  ⟨_, freeCell_ok fun _ hc => ho.mem.2 (List.mem_append_left _ hc), ho.without⟩

theorem freeIn_ok {m : Mem} {a : Cells} {p : Option Cell} (ho : Own m.cells (p.toList ++ a)) :
    ∃ h', freeIn p m = .ok ⟨m.tick, h'⟩ ∧ Own h' a := by
  obtain ⟨h', e, ho⟩ := ho.free
  exact ⟨h', by simp [freeIn, e, Bind.bind, Except.bind], ho⟩

mutual
theorem ids_cells : ∀ n : Node, (n.ids.map Cell.node).Sublist n.cells
  | .mk i c o a s t r ch => by
    simp only [Node.ids, Node.cells, List.map_cons]
    exact ((ids_cellss ch).trans ((List.sublist_append_right _ _).trans (List.sublist_append_right _ _))).cons₂ _
theorem ids_cellss : ∀ ns : List Node, ((Node.idss ns).map Cell.node).Sublist (Node.cellss ns)
  | [] => by simp [Node.idss, Node.cellss]
  | n :: ns => by
    simp only [Node.idss, Node.cellss, List.map_append]
    exact (ids_cells n).append (ids_cellss ns)
end

theorem ids_nodup {ns : List Node} (h : (Node.cellss ns).Nodup) : (Node.idss ns).Nodup :=
  List.Nodup.of_map _ (h.sublist (ids_cellss ns))

theorem rootsFree_ok {m : Mem} {ns : List Node} {a : Cells} {array : Option Cell}
    (ho : Own m.cells (Node.cellss ns ++ a)) (ha : ns ≠ [] → ∃ c ∈ a, array = some c) :
    ∃ h', rootsFree array ns m = .ok ⟨m.tick, h'⟩ ∧ Own h' a := by
  have hd := List.nodup_append.1 ho.nodup
  refine ⟨_, ?_, ho.without⟩
  unfold rootsFree
  rw [vFree_ok (ids_nodup hd.1) (fun c hc => ho.mem.2 (List.mem_append_left _ hc))]
  · rfl
  · intro hne
    obtain ⟨c, hc, e⟩ := ha hne
    exact ⟨c, e, ho.mem.2 (List.mem_append_right _ hc), fun hx => hd.2.2 c hx c hc rfl⟩

theorem topFree_ok {m : Mem} {ns : List Node} {a : Cells}
    (ho : Own m.cells ([.block 0] ++ Node.cellss ns ++ a)) :
    ∃ h', topFree (some (.block 0)) ns m = .ok ⟨m.tick, h'⟩ ∧ Own h' a := by
  have hd := List.nodup_append.1 (List.nodup_append.1 ho.nodup).1
  refine ⟨_, ?_, ho.without⟩
  unfold topFree
  simp only
  rw [blockFree_ok (ids_nodup hd.2.1)]
  · rfl
  · exact fun c hc => ho.mem.2 (by simp [hc])
  · exact ho.mem.2 (by simp)

theorem errsFree_ok {array : Option Cell} {a : Cells} : ∀ {es : List TErr} {m : Mem},
    Own m.cells (errsCells es ++ a) → (es ≠ [] → ∃ c ∈ a, array = some c) →
    ∃ h', errsFree array es m = .ok ⟨m.tick, h'⟩ ∧ Own h' a
  | [], m, ho, _ => ⟨m.cells, rfl, ho⟩
  | x :: xs, m, ho, ha => by
    obtain ⟨c, hc, rfl⟩ := ha (by simp)
    simp only [errsCells, TErr.cells] at ho
    have hl : loadCell (some c) m.cells = .ok () := loadCell_ok (ho.mem.2 (List.mem_append_right _ hc))
    obtain ⟨h1, e1, o1⟩ := freeIn_ok (p := some (.message x.seg x.place))
      (a := (contextPtr x.seg x.place x.err).toList ++ (errsCells xs ++ a)) (ho.to (by perm))
    obtain ⟨h2, e2, o2⟩ := freeIn_ok (m := ⟨m.tick, h1⟩) o1
    obtain ⟨h3, e3, o3⟩ := errsFree_ok (es := xs) (m := ⟨m.tick, h2⟩) o2 fun _ => ⟨c, hc, rfl⟩
    exact ⟨h3, by simp [errsFree, hl, e1, e2, e3, Bind.bind, Except.bind], o3⟩

/-- The allocations from the `a`-th up to the `b`-th succeed. -/
def Went (ask : Nat → Bool) (a b : Nat) : Prop := ∀ i, a ≤ i → i < b → ask i = true

theorem went_refl {ask : Nat → Bool} {a : Nat} : Went ask a a := fun _ _ _ => by omega

theorem went_succ {ask : Nat → Bool} {a : Nat} : Went ask a (a + 1) ↔ ask a = true :=
  ⟨fun h => h a (Nat.le_refl _) (by omega), fun h i h1 h2 => by have : i = a := by omega
                                                                rwa [this]⟩

theorem went_trans {ask : Nat → Bool} {a b c : Nat} (h1 : a ≤ b) (h2 : b ≤ c) :
    Went ask a c ↔ Went ask a b ∧ Went ask b c :=
  ⟨fun h => ⟨fun i _ _ => h i (by omega) (by omega), fun i _ _ => h i (by omega) (by omega)⟩,
   fun h i _ _ => by
    rcases Nat.lt_or_ge i b with hi | hi
    · exact h.1 i (by omega) hi
    · exact h.2 i hi (by omega)⟩

section
variable {ask : Nat → Bool}

theorem alloc_ok {c : Cell} {m : Mem} {a : Cells} (ho : Own m.cells a) (hc : c ∉ a) :
    ∃ o h', alloc ask c m = (o, ⟨m.tick + 1, h'⟩) ∧ o.isSome = ask m.tick ∧ (o = none ∨ o = some c) ∧
      Own h' (o.toList ++ a) := by
  unfold alloc
  cases ask m.tick
  · exact ⟨none, _, rfl, rfl, .inl rfl, ho⟩
  · exact ⟨some c, _, rfl, rfl, .inr rfl, ho.add hc⟩

/-- `realloc` of an array that has the name `c` if it exists. -/
theorem realloc_ok {p : Option Cell} {c : Cell} {m : Mem} {a : Cells} (ho : Own m.cells (p.toList ++ a)) (hc : c ∉ a)
    (hp : p = none ∨ p = some c) :
    ∃ o h', realloc ask p c m = .ok (o, ⟨m.tick + 1, h'⟩) ∧ o.isSome = ask m.tick ∧
      (o = none ∧ Own h' (p.toList ++ a) ∨ o = some c ∧ Own h' ([c] ++ a)) := by
  unfold realloc
  rcases hp with rfl | rfl
  · obtain ⟨o, h', e, e1, e2, e3⟩ := alloc_ok (ask := ask) ho hc
    refine ⟨o, h', by rw [e], e1, ?_⟩
    rcases e2 with rfl | rfl
    · exact .inl ⟨rfl, e3⟩
    · exact .inr ⟨rfl, e3⟩
  · have hm : c ∈ m.cells := ho.mem.2 (by simp)
    simp only [hm, if_true]
    cases ask m.tick
    · exact ⟨none, _, rfl, rfl, .inl ⟨rfl, ho⟩⟩
    · refine ⟨some c, _, rfl, rfl, .inr ⟨rfl, ?_⟩⟩
      have := ho.without
      simp only [Option.toList_some, List.mem_singleton] at this
      exact this.add hc

theorem copyOf_ok {src : Option Cell} {n : Nat} {c : Cell} {m : Mem} {a : Cells} (ho : Own m.cells a) (hc : c ∉ a)
    (hs : n > 0 → ∃ d ∈ a, src = some d) :
    ∃ ok p t h', copyOf ask src n c m = .ok ((ok, p), ⟨t, h'⟩) ∧ m.tick ≤ t ∧ (ok = true ↔ Went ask m.tick t) ∧
      Own h' (p.toList ++ a) ∧ (ok = true → p = if n > 0 then some c else none) := by
  unfold copyOf
  by_cases hn : n > 0
  · simp only [hn, if_true]
    obtain ⟨o, h', e, e1, e2, e3⟩ := alloc_ok (ask := ask) ho hc
    rw [e]
    rcases e2 with rfl | rfl
    · refine ⟨false, none, _, _, rfl, by simp, ?_, e3, by simp⟩
      rw [went_succ, ← e1]; simp
    · obtain ⟨d, hd, rfl⟩ := hs hn
      have hl : loadCell (some d) h' = .ok () := loadCell_ok (e3.mem.2 (by simp [hd]))
      refine ⟨true, some c, _, _, by simp [hl, Bind.bind, Except.bind]; rfl, by simp, ?_, e3, by simp⟩
      rw [went_succ, ← e1]; simp
  · simp only [hn, if_false]
    exact ⟨true, none, _, _, rfl, by simp, by simp [went_refl], ho, by simp⟩

/-- The arrays of a segment. -/
def Seg.shell (g : Seg) : Cells := [.segment g.num] ++ (g.errsPtr.toList ++ g.rootsPtr.toList)

theorem segFailure_ok {k : Nat} {p q : Option Cell} {m : Mem} {a : Cells}
    (ho : Own m.cells (p.toList ++ (q.toList ++ ([.segment k] ++ a)))) :
    ∃ h', segFailure k p q m = .ok (none, ⟨m.tick, h'⟩) ∧ Own h' a := by
  obtain ⟨h1, e1, o1⟩ := freeIn_ok ho
  obtain ⟨h2, e2, o2⟩ := freeIn_ok (m := ⟨m.tick, h1⟩) o1
  obtain ⟨h3, e3, o3⟩ := freeIn_ok (m := ⟨m.tick, h2⟩) (p := some (.segment k)) o2
  exact ⟨h3, by simp [segFailure, e1, e2, e3, Bind.bind, Except.bind], o3⟩

theorem segNew_ok {k : Nat} {src top : Option Cell} {es : List TErr} {rs : List Node} {d : Option Ref} {eof : Bool}
    {m : Mem} {a : Cells} (ho : Own m.cells a) (h1 : .segment k ∉ a) (h2 : .errors k ∉ a) (h3 : .roots k ∉ a)
    (hs : es.length > 0 → ∃ d ∈ a, src = some d) (ht : rs.length > 0 → ∃ d ∈ a, top = some d) :
    ∃ o t h', segNew ask k src es top rs d eof m = .ok (o, ⟨t, h'⟩) ∧ m.tick ≤ t ∧
      (o.isSome = true ↔ Went ask m.tick t) ∧
      (o = none ∧ Own h' a ∨ ∃ g, o = some g ∧ g = ⟨k, es, if es.length > 0 then some (.errors k) else none,
        rs, if rs.length > 0 then some (.roots k) else none, d, eof⟩ ∧ Own h' (g.shell ++ a)) := by
  unfold segNew
  obtain ⟨o, h', e, e1, e2, e3⟩ := alloc_ok (ask := ask) ho h1
  rw [e]
  rcases e2 with rfl | rfl
  · refine ⟨none, _, _, rfl, by simp, ?_, .inl ⟨rfl, e3⟩⟩
    rw [went_succ, ← e1]; simp
  · have e1' : Went ask m.tick (m.tick + 1) := by rw [went_succ, ← e1]; rfl
    obtain ⟨ok, p, t, h'', c1, c2, c3, c4, c5⟩ := copyOf_ok (ask := ask) (m := ⟨m.tick + 1, h'⟩) (src := src)
      (n := es.length) (c := .errors k) e3 (by simpa using h2)
      (fun hn => by obtain ⟨d, hd, e⟩ := hs hn; exact ⟨d, by simp [hd], e⟩)
    simp only at c2 c3
    simp only [c1, Bind.bind, Except.bind]
    cases ok with
    | false =>
      obtain ⟨h3, f1, f2⟩ := segFailure_ok (k := k) (m := ⟨t, h''⟩) (p := p) (q := none) (a := a) (c4.to (by perm))
      refine ⟨none, _, _, f1, by first | omega | (simp only; omega), ?_, .inl ⟨rfl, f2⟩⟩
      simp only [Option.isSome_none, Bool.false_eq_true, false_iff] at c3 ⊢
      rw [went_trans (Nat.le_succ _) c2]
      exact fun h => c3 h.2
    | true =>
      have hp := c5 rfl
      obtain ⟨ok, q, t', h3, d1, d2, d3, d4, d5⟩ := copyOf_ok (ask := ask) (m := ⟨t, h''⟩) (src := top)
        (n := rs.length) (c := .roots k) c4 (by rw [hp]; split <;> simpa using h3)
        (fun hn => by obtain ⟨d, hd, e⟩ := ht hn; exact ⟨d, by simp [hd], e⟩)
      simp only at d2 d3
      simp only [d1]
      have hw : Went ask m.tick t' ↔ Went ask t t' := by
        rw [went_trans (Nat.le_succ _) (Nat.le_trans c2 d2), went_trans c2 d2]
        exact ⟨fun h => h.2.2, fun h => ⟨e1', c3.1 rfl, h⟩⟩
      cases ok with
      | false =>
        obtain ⟨h4, f1, f2⟩ := segFailure_ok (k := k) (m := ⟨t', h3⟩) (p := p) (q := q) (a := a) (d4.to (by perm))
        refine ⟨none, _, _, f1, by first | omega | (simp only; omega), ?_, .inl ⟨rfl, f2⟩⟩
        rw [hw, ← d3]; simp
      | true =>
        refine ⟨_, _, _, rfl, by first | omega | (simp only; omega), by rw [hw, ← d3]; simp, .inr ⟨_, rfl, ?_, ?_⟩⟩
        · rw [hp, d5 rfl]
        · refine d4.to ?_
          simp only [Seg.shell]
          perm

theorem Seg.release_ok {g : Seg} {m : Mem} {a : Cells}
    (ho : Own m.cells (g.shell ++ (errsCells g.errs ++ (Node.cellss g.roots ++ a))))
    (he : g.errs ≠ [] → g.errsPtr.isSome) (hr : g.roots ≠ [] → g.rootsPtr.isSome) :
    ∃ h', g.release m = .ok ⟨m.tick, h'⟩ ∧ Own h' a := by
  simp only [Seg.shell] at ho
  have hl : loadCell (some (.segment g.num)) m.cells = .ok () := loadCell_ok (ho.mem.2 (by simp))
  obtain ⟨h1, e1, o1⟩ := errsFree_ok (array := g.errsPtr) (es := g.errs)
    (a := g.errsPtr.toList ++ (Node.cellss g.roots ++ (g.rootsPtr.toList ++ ([.segment g.num] ++ a)))) (ho.to (by perm))
    (fun h => by obtain ⟨c, e⟩ := Option.isSome_iff_exists.1 (he h); exact ⟨c, by simp [e], e⟩)
  obtain ⟨h2, e2, o2⟩ := freeIn_ok (m := ⟨m.tick, h1⟩) o1
  obtain ⟨h3, e3, o3⟩ := rootsFree_ok (m := ⟨m.tick, h2⟩) (array := g.rootsPtr) o2
    (fun h => by obtain ⟨c, e⟩ := Option.isSome_iff_exists.1 (hr h); exact ⟨c, by simp [e], e⟩)
  obtain ⟨h4, e4, o4⟩ := freeIn_ok (m := ⟨m.tick, h3⟩) o3
  obtain ⟨h5, e5, o5⟩ := freeIn_ok (m := ⟨m.tick, h4⟩) (p := some (.segment g.num)) o4
  exact ⟨h5, by simp [Seg.release, hl, e1, e2, e3, e4, e5, Bind.bind, Except.bind], o5⟩

/-- What a result owns, apart from its own structure. -/
def Res.parts (r : Res) : Cells :=
  r.errsPtr.toList ++ (errsCells r.errs ++ (r.rootsPtr.toList ++ (Node.cellss r.roots ++ r.dirsPtr.toList)))

/-- The pointers of a result fit to the counts. -/
structure Res.Fits (r : Res) : Prop where
  errs : r.errsPtr = none ∧ r.errs = [] ∨ r.errsPtr = some .resErrors
  roots : r.rootsPtr = none ∧ r.roots = [] ∨ r.rootsPtr = some .resRoots
  dirs : r.dirsPtr = none ∧ r.cap = 0 ∨ r.dirsPtr = some .resDirectives ∧ r.cap > 0
  cap : r.directives.length ≤ r.cap

theorem Res.free_ok {r : Res} {m : Mem} {a : Cells} (hr : r.Fits) (ho : Own m.cells ([.result] ++ (r.parts ++ a))) :
    ∃ h', r.free m = .ok ⟨m.tick, h'⟩ ∧ Own h' a := by
  simp only [Res.parts] at ho
  have hl : loadCell (some .result) m.cells = .ok () := loadCell_ok (ho.mem.2 (by simp))
  obtain ⟨h1, e1, o1⟩ := errsFree_ok (array := r.errsPtr) (es := r.errs)
    (a := r.errsPtr.toList ++ (Node.cellss r.roots ++ (r.rootsPtr.toList ++ (r.dirsPtr.toList ++ ([.result] ++ a)))))
    (ho.to (by perm)) (fun h => by
      rcases hr.errs with ⟨_, e⟩ | e
      · exact absurd e h
      · exact ⟨_, by simp [e], e⟩)
  obtain ⟨h2, e2, o2⟩ := freeIn_ok (m := ⟨m.tick, h1⟩) o1
  obtain ⟨h3, e3, o3⟩ := rootsFree_ok (m := ⟨m.tick, h2⟩) (array := r.rootsPtr) o2 (fun h => by
      rcases hr.roots with ⟨_, e⟩ | e
      · exact absurd e h
      · exact ⟨_, by simp [e], e⟩)
  obtain ⟨h4, e4, o4⟩ := freeIn_ok (m := ⟨m.tick, h3⟩) o3
  obtain ⟨h5, e5, o5⟩ := freeIn_ok (m := ⟨m.tick, h4⟩) o4
  obtain ⟨h6, e6, o6⟩ := freeIn_ok (m := ⟨m.tick, h5⟩) (p := some .result) o5
  exact ⟨h6, by simp [Res.free, hl, e1, e2, e3, e4, e5, e6, Bind.bind, Except.bind], o6⟩

theorem not_cellss {c : Cell} {ns : List Node} (h : c.owner = none) : c ∉ Node.cellss ns := fun hm => by
  obtain ⟨i, e, -⟩ := Node.cellss_owner hm
  rw [h] at e; cases e

theorem mem_errsCells {c : Cell} : ∀ {es : List TErr}, c ∈ errsCells es →
    ∃ x ∈ es, c = .message x.seg x.place ∨ c = .context x.seg x.place
  | [], h => by simp [errsCells] at h
  | x :: xs, h => by
    simp only [errsCells, TErr.cells, List.mem_append, List.mem_singleton] at h
    rcases h with (h | h) | h
    · exact ⟨x, by simp, .inl h⟩
    · exact ⟨x, by simp, .inr (contextPtr_eq h)⟩
    · obtain ⟨y, hy, e⟩ := mem_errsCells h
      exact ⟨y, by simp [hy], e⟩

theorem errsCells_append (a b : List TErr) : errsCells (a ++ b) = errsCells a ++ errsCells b := by
  induction a with
  | nil => rfl
  | cons x a ih => simp [errsCells, ih]

/-- The arrays of the results. -/
def Cell.ofRes : Cell → Bool
  | .resErrors | .resRoots | .resDirectives => true
  | _ => false

theorem ofRes_errs {c : Cell} {es : List TErr} (h : Cell.ofRes c = true) : c ∉ errsCells es := fun hm => by
  obtain ⟨x, -, rfl | rfl⟩ := mem_errsCells hm <;> cases h

theorem ofRes_nodes {c : Cell} {ns : List Node} (h : Cell.ofRes c = true) : c ∉ Node.cellss ns :=
  not_cellss (by cases c <;> first | rfl | cases h)

/-- The pointers of a segment fit to the counts. -/
structure Seg.Fits (g : Seg) : Prop where
  errs : g.errsPtr = none ∧ g.errs = [] ∨ g.errsPtr = some (.errors g.num)
  roots : g.rootsPtr = none ∧ g.roots = [] ∨ g.rootsPtr = some (.roots g.num)

theorem ofRes_shell {c : Cell} {g : Seg} (hg : g.Fits) (h : Cell.ofRes c = true) : c ∉ g.shell := by
  unfold Seg.shell
  rcases hg.errs with ⟨e, -⟩ | e <;> rcases hg.roots with ⟨e', -⟩ | e' <;> rw [e, e'] <;> cases c <;>
    first | (simp; done) | cases h

/-- What a part of `cp_result_merge_segment` does. -/
structure Merged (ask : Nat → Bool) (a : Cells) (r : Res) (g : Seg) (m : Mem) (ok : Bool) (r' : Res) (g' : Seg)
    (m' : Mem) : Prop where
  tick : m.tick ≤ m'.tick
  went : ok = true ↔ Went ask m.tick m'.tick
  fits : r'.Fits
  sfits : g'.Fits
  shell : g'.shell = g.shell
  own : Own m'.cells (r'.parts ++ (g'.shell ++ (errsCells g'.errs ++ (Node.cellss g'.roots ++ a))))

theorem mergeErrs_ok {r : Res} {g : Seg} {m : Mem} {a : Cells} (hr : r.Fits) (hg : g.Fits)
    (ha : ∀ c ∈ a, Cell.ofRes c = false)
    (ho : Own m.cells (r.parts ++ (g.shell ++ (errsCells g.errs ++ (Node.cellss g.roots ++ a))))) :
    ∃ ok r' g' m', mergeErrs ask r g m = .ok ((ok, r', g'), m') ∧ Merged ask a r g m ok r' g' m' ∧
      (ok = true → r'.errs = r.errs ++ g.errs ∧ r'.roots = r.roots ∧ r'.directives = r.directives ∧ r'.eof = r.eof ∧
        g'.errs = [] ∧ g'.roots = g.roots ∧ g'.directive = g.directive) := by
  unfold mergeErrs
  by_cases hn : g.errs.length > 0
  · simp only [hn, if_true]
    have hf : ∀ (x : Cells), (∀ c ∈ x, Cell.ofRes c = false) → Cell.resErrors ∉ x := fun x h hm => by cases h _ hm
    obtain ⟨o, h', e, e1, e2⟩ := realloc_ok (ask := ask) (p := r.errsPtr) (c := .resErrors) (m := m)
      (a := errsCells r.errs ++ (r.rootsPtr.toList ++ (Node.cellss r.roots ++ r.dirsPtr.toList)) ++
        (g.shell ++ (errsCells g.errs ++ (Node.cellss g.roots ++ a))))
      (ho.to (by simp only [Res.parts]; perm))
      (by
        simp only [List.mem_append, not_or]
        refine ⟨⟨ofRes_errs rfl, ?_, ofRes_nodes rfl, ?_⟩, ofRes_shell hg rfl, ofRes_errs rfl, ofRes_nodes rfl, hf _ ha⟩
        · rcases hr.roots with ⟨e, -⟩ | e <;> simp [e]
        · rcases hr.dirs with ⟨e, -⟩ | ⟨e, -⟩ <;> simp [e])
      (by rcases hr.errs with ⟨e, -⟩ | e <;> simp [e])
    rw [e]
    simp only [Bind.bind, Except.bind]
    rcases e2 with ⟨rfl, o1⟩ | ⟨rfl, o1⟩
    · refine ⟨_, _, _, _, rfl, ⟨by simp, ?_, hr, hg, rfl, o1.to (by simp only [Res.parts]; perm)⟩, by simp⟩
      rw [went_succ, ← e1]; simp
    · obtain ⟨-, e3⟩ | e3 := hg.errs
      · rw [e3] at hn; simp at hn
      · have hl : loadCell g.errsPtr h' = .ok () := by
          rw [e3]; exact loadCell_ok (o1.mem.2 (by simp [Seg.shell, e3]))
        simp only [hl]
        refine ⟨_, _, _, _, rfl, ⟨by simp, ?_, ⟨.inr rfl, hr.roots, hr.dirs, hr.cap⟩, ⟨.inr e3, hg.roots⟩, rfl,
          o1.to ?_⟩, by simp⟩
        · rw [went_succ, ← e1]; simp
        · simp only [Res.parts, Seg.shell, errsCells_append, errsCells]
          perm
  · simp only [hn, if_false]
    refine ⟨_, _, _, _, rfl, ⟨Nat.le_refl _, by simp [went_refl], hr, hg, rfl, ho⟩, fun _ => ?_⟩
    have : g.errs = [] := List.length_eq_zero_iff.1 (by omega)
    simp [this]

theorem mergeRoots_ok {r : Res} {g : Seg} {m : Mem} {a : Cells} (hr : r.Fits) (hg : g.Fits)
    (ha : ∀ c ∈ a, Cell.ofRes c = false)
    (ho : Own m.cells (r.parts ++ (g.shell ++ (errsCells g.errs ++ (Node.cellss g.roots ++ a))))) :
    ∃ ok r' g' m', mergeRoots ask r g m = .ok ((ok, r', g'), m') ∧ Merged ask a r g m ok r' g' m' ∧
      (ok = true → r'.errs = r.errs ∧ r'.roots = r.roots ++ g.roots ∧ r'.directives = r.directives ∧ r'.eof = r.eof ∧
        g'.errs = g.errs ∧ g'.roots = [] ∧ g'.directive = g.directive) := by
  unfold mergeRoots
  by_cases hn : g.roots.length > 0
  · simp only [hn, if_true]
    have hf : ∀ (x : Cells), (∀ c ∈ x, Cell.ofRes c = false) → Cell.resRoots ∉ x := fun x h hm => by cases h _ hm
    obtain ⟨o, h', e, e1, e2⟩ := realloc_ok (ask := ask) (p := r.rootsPtr) (c := .resRoots) (m := m)
      (a := r.errsPtr.toList ++ (errsCells r.errs ++ (Node.cellss r.roots ++ r.dirsPtr.toList)) ++
        (g.shell ++ (errsCells g.errs ++ (Node.cellss g.roots ++ a))))
      (ho.to (by simp only [Res.parts]; perm))
      (by
        simp only [List.mem_append, not_or]
        refine ⟨⟨?_, ofRes_errs rfl, ofRes_nodes rfl, ?_⟩, ofRes_shell hg rfl, ofRes_errs rfl, ofRes_nodes rfl, hf _ ha⟩
        · rcases hr.errs with ⟨e, -⟩ | e <;> simp [e]
        · rcases hr.dirs with ⟨e, -⟩ | ⟨e, -⟩ <;> simp [e])
      (by rcases hr.roots with ⟨e, -⟩ | e <;> simp [e])
    rw [e]
    simp only [Bind.bind, Except.bind]
    rcases e2 with ⟨rfl, o1⟩ | ⟨rfl, o1⟩
    · refine ⟨_, _, _, _, rfl, ⟨by simp, ?_, hr, hg, rfl, o1.to (by simp only [Res.parts]; perm)⟩, by simp⟩
      rw [went_succ, ← e1]; simp
    · obtain ⟨-, e3⟩ | e3 := hg.roots
      · rw [e3] at hn; simp at hn
      · have hl : loadCell g.rootsPtr h' = .ok () := by
          rw [e3]; exact loadCell_ok (o1.mem.2 (by simp [Seg.shell, e3]))
        simp only [hl]
        refine ⟨_, _, _, _, rfl, ⟨by simp, ?_, ⟨hr.errs, .inr rfl, hr.dirs, hr.cap⟩, ⟨hg.errs, .inr e3⟩, rfl,
          o1.to ?_⟩, by simp⟩
        · rw [went_succ, ← e1]; simp
        · simp only [Res.parts, Seg.shell, Node.cellss_append, Node.cellss]
          perm
  · simp only [hn, if_false]
    refine ⟨_, _, _, _, rfl, ⟨Nat.le_refl _, by simp [went_refl], hr, hg, rfl, ho⟩, fun _ => ?_⟩
    have : g.roots = [] := List.length_eq_zero_iff.1 (by omega)
    simp [this]

theorem mergeDir_ok {r : Res} {g : Seg} {m : Mem} {a : Cells} (hr : r.Fits) (hg : g.Fits)
    (ha : ∀ c ∈ a, Cell.ofRes c = false)
    (ho : Own m.cells (r.parts ++ (g.shell ++ (errsCells g.errs ++ (Node.cellss g.roots ++ a))))) :
    ∃ ok r' g' m', mergeDir ask r g m = .ok ((ok, r', g'), m') ∧ Merged ask a r g m ok r' g' m' ∧
      (ok = true → r'.errs = r.errs ∧ r'.roots = r.roots ∧ r'.directives = r.directives ++ g.directive.toList ∧
        r'.eof = r.eof ∧ g'.errs = g.errs ∧ g'.roots = g.roots) := by
  unfold mergeDir
  cases hd : g.directive with
  | none => exact ⟨_, _, _, _, rfl, ⟨Nat.le_refl _, by simp [went_refl], hr, hg, rfl, ho⟩, by simp⟩
  | some d =>
    simp only
    by_cases hn : r.cap ≤ r.directives.length
    · simp only [hn, if_true]
      have hf : ∀ (x : Cells), (∀ c ∈ x, Cell.ofRes c = false) → Cell.resDirectives ∉ x := fun x h hm => by cases h _ hm
      obtain ⟨o, h', e, e1, e2⟩ := realloc_ok (ask := ask) (p := r.dirsPtr) (c := .resDirectives) (m := m)
        (a := r.errsPtr.toList ++ (errsCells r.errs ++ (r.rootsPtr.toList ++ Node.cellss r.roots)) ++
          (g.shell ++ (errsCells g.errs ++ (Node.cellss g.roots ++ a))))
        (ho.to (by simp only [Res.parts]; perm))
        (by
          simp only [List.mem_append, not_or]
          refine ⟨⟨?_, ofRes_errs rfl, ?_, ofRes_nodes rfl⟩, ofRes_shell hg rfl, ofRes_errs rfl, ofRes_nodes rfl, hf _ ha⟩
          · rcases hr.errs with ⟨e, -⟩ | e <;> simp [e]
          · rcases hr.roots with ⟨e, -⟩ | e <;> simp [e])
        (by rcases hr.dirs with ⟨e, -⟩ | ⟨e, -⟩ <;> simp [e])
      rw [e]
      simp only [Bind.bind, Except.bind]
      rcases e2 with ⟨rfl, o1⟩ | ⟨rfl, o1⟩
      · refine ⟨_, _, _, _, rfl, ⟨by simp, ?_, hr, hg, rfl, o1.to (by simp only [Res.parts]; perm)⟩, by simp⟩
        rw [went_succ, ← e1]; simp
      · have hl : loadCell (some .resDirectives) h' = .ok () := loadCell_ok (o1.mem.2 (by simp))
        simp only [storeDir, hl, Bind.bind, Except.bind]
        have hcap := hr.cap
        refine ⟨_, _, _, _, rfl, ⟨by simp, ?_, ⟨hr.errs, hr.roots, .inr ⟨rfl, ?_⟩, ?_⟩, ⟨hg.errs, hg.roots⟩, rfl,
          o1.to ?_⟩, by simp⟩
        · rw [went_succ, ← e1]; simp
        · simp only; split <;> omega
        · simp only [List.length_append, List.length_singleton]; split <;> omega
        · simp only [Res.parts, Seg.shell]
          perm
    · simp only [hn, if_false]
      rcases hr.dirs with ⟨-, e⟩ | ⟨e, e'⟩
      · omega
      · have hl : loadCell r.dirsPtr m.cells = .ok () := by
          rw [e]; exact loadCell_ok (ho.mem.2 (by simp [Res.parts, e]))
        simp only [storeDir, hl, Bind.bind, Except.bind]
        exact ⟨_, _, _, _, rfl, ⟨Nat.le_refl _, by simp [went_refl], ⟨hr.errs, hr.roots, .inr ⟨e, e'⟩, by
          simp only [List.length_append, List.length_singleton]; omega⟩, ⟨hg.errs, hg.roots⟩, rfl, ho⟩, by simp⟩

/-- The flag of the result after a segment. -/
def eofAfter (b : Bool) (errs : List TErr) (directive : Option Ref) (eof : Bool) : Bool :=
  b || (eof && (directive.isSome || decide (errs ≠ [])))

theorem mergeEof_ok (r : Res) (g : Seg) : ∃ b, mergeEof r g = { r with eof := b } ∧
    b = eofAfter r.eof g.errs g.directive g.eof := by
  unfold mergeEof eofAfter
  refine ⟨_, ?_, rfl⟩
  have : decide (g.errs.length > 0) = decide (g.errs ≠ []) := by
    rw [decide_eq_decide]; exact List.length_pos_iff
  rw [this]
  obtain ⟨_, _, _, _, _, _, _, b⟩ := r
  cases b <;> cases g.eof <;> cases g.directive <;> cases decide (g.errs ≠ []) <;> rfl

theorem merge_ok {r : Res} {g : Seg} {m : Mem} {a : Cells} (hr : r.Fits) (hg : g.Fits)
    (ha : ∀ c ∈ a, Cell.ofRes c = false)
    (ho : Own m.cells (r.parts ++ (g.shell ++ (errsCells g.errs ++ (Node.cellss g.roots ++ a))))) :
    ∃ ok r' g' m', merge ask r g m = .ok ((ok, r', g'), m') ∧ Merged ask a r g m ok r' g' m' ∧
      (ok = true → r'.errs = r.errs ++ g.errs ∧ r'.roots = r.roots ++ g.roots ∧
        r'.directives = r.directives ++ g.directive.toList ∧
        r'.eof = eofAfter r.eof g.errs g.directive g.eof ∧ g'.errs = [] ∧ g'.roots = []) := by
  obtain ⟨b, e0, hb⟩ := mergeEof_ok r g
  unfold merge
  rw [e0]
  obtain ⟨ok, r1, g1, m1, e1, w1, c1⟩ := mergeErrs_ok (ask := ask) (r := { r with eof := b })
    ⟨hr.errs, hr.roots, hr.dirs, hr.cap⟩ hg ha ho
  simp only [e1, Bind.bind, Except.bind]
  cases ok with
  | false => exact ⟨_, _, _, _, rfl, ⟨w1.tick, w1.went, w1.fits, w1.sfits, w1.shell, w1.own⟩, by simp⟩
  | true =>
    simp only [if_true]
    obtain ⟨ok, r2, g2, m2, e2, w2, c2⟩ := mergeRoots_ok (ask := ask) w1.fits w1.sfits ha w1.own
    simp only [e2]
    have t2 := w2.went
    have t1 := w1.went.1 rfl
    cases ok with
    | false =>
      refine ⟨_, _, _, _, rfl, ⟨Nat.le_trans w1.tick w2.tick, ?_, w2.fits, w2.sfits, w2.shell.trans w1.shell, w2.own⟩,
        by simp⟩
      rw [went_trans w1.tick w2.tick, ← t2]
      simp
    | true =>
      simp only [if_true]
      obtain ⟨ok, r3, g3, m3, e3, w3, c3⟩ := mergeDir_ok (ask := ask) w2.fits w2.sfits ha w2.own
      simp only [e3]
      refine ⟨_, _, _, _, rfl, ⟨Nat.le_trans w1.tick (Nat.le_trans w2.tick w3.tick), ?_, w3.fits, w3.sfits,
        w3.shell.trans (w2.shell.trans w1.shell), w3.own⟩, ?_⟩
      · rw [went_trans w1.tick (Nat.le_trans w2.tick w3.tick), went_trans w2.tick w3.tick, ← w3.went]
        exact ⟨fun h => ⟨t1, t2.1 rfl, h⟩, fun h => h.2.2⟩
      · intro hok
        obtain ⟨a1, a2, a3, a4, a5, a6, a7⟩ := c1 rfl
        obtain ⟨b1, b2, b3, b4, b5, b6, b7⟩ := c2 rfl
        obtain ⟨d1, d2, d3, d4, d5, d6⟩ := c3 hok
        simp only at a1 a2 a3 a4
        refine ⟨by rw [d1, b1, a1], by rw [d2, b2, a2, a6], by rw [d3, b3, a3, b7, a7], by rw [d4, b4, a4, hb],
          by rw [d5, b5, a5], by rw [d6, b6]⟩

/-! ## What `parse_one` allocates is new -/

mutual
theorem cells_nodup : ∀ n : Node, n.ids.Nodup → n.cells.Nodup
  | .mk i c o a s t r ch, h => by
    simp only [Node.ids, List.nodup_cons] at h
    obtain ⟨n, hn⟩ : ∃ n, n = Node.mk i c o a s t r ch := ⟨_, rfl⟩
    have hi : n.id = i := by rw [hn]; rfl
    simp only [Node.cells, ← hn]
    have hout : ∀ {c : Cell}, c.owner = some i → c ∉ Node.cellss ch := fun {c} ho hm => by
      obtain ⟨j, h1, h2⟩ := Node.cellss_owner hm
      rw [ho] at h1; cases h1
      exact h.1 h2
    have hc := cellss_nodup ch h.2
    refine List.nodup_cons.2 ⟨?_, List.nodup_append.2 ⟨?_, List.nodup_append.2 ⟨?_, hc, ?_⟩, ?_⟩⟩
    · simp only [List.mem_append, not_or]
      exact ⟨fun h => by (cases Node.childrenPtr_owner h), fun h => by (cases Node.extraPtr_owner h), hout rfl⟩
    · cases n.childrenPtr <;> simp
    · cases n.extraPtr <;> simp
    · intro x hx y hy e
      rw [← e, Node.extraPtr_owner hx, hi] at hy
      exact hout rfl hy
    · intro x hx y hy e
      rw [← e, Node.childrenPtr_owner hx] at hy
      rcases List.mem_append.1 hy with hy | hy
      · cases Node.extraPtr_owner hy
      · rw [hi] at hy; exact hout rfl hy
theorem cellss_nodup : ∀ ns : List Node, (Node.idss ns).Nodup → (Node.cellss ns).Nodup
  | [], _ => by simp [Node.cellss]
  | n :: ns, h => by
    simp only [Node.idss] at h
    obtain ⟨h1, h2, h3⟩ := List.nodup_append.1 h
    simp only [Node.cellss]
    refine List.nodup_append.2 ⟨cells_nodup n h1, cellss_nodup ns h2, ?_⟩
    rintro x hx _ hy rfl
    obtain ⟨i, e1, e2⟩ := Node.cells_owner hx
    obtain ⟨j, e3, e4⟩ := Node.cellss_owner hy
    rw [e1] at e3; cases e3
    exact h3 i e2 i e4 rfl
end

theorem mem_tag {k : Nat} : ∀ {es : List PErr} {j : Nat} {x : TErr}, x ∈ tag k j es → x.seg = k ∧ j ≤ x.place
  | [], j, x, h => by simp [tag] at h
  | e :: es, j, x, h => by
    simp only [tag, List.mem_cons] at h
    rcases h with rfl | h
    · exact ⟨rfl, Nat.le_refl _⟩
    · have := mem_tag h
      exact ⟨this.1, by omega⟩

theorem tag_errs {k : Nat} : ∀ {es : List PErr} {j : Nat}, (tag k j es).map (·.err) = es
  | [], _ => rfl
  | _ :: _, _ => by simp [tag, tag_errs]

theorem tag_length {k j : Nat} {es : List PErr} : (tag k j es).length = es.length := by
  rw [← List.length_map (f := (·.err)), tag_errs]

theorem tag_nodup {k : Nat} : ∀ {es : List PErr} {j : Nat}, (errsCells (tag k j es)).Nodup
  | [], _ => by simp [tag, errsCells]
  | e :: es, j => by
    simp only [tag, errsCells, TErr.cells]
    refine List.nodup_append.2 ⟨?_, tag_nodup, ?_⟩
    · refine List.nodup_append.2 ⟨by simp, by cases contextPtr k j e <;> simp, ?_⟩
      rintro x hx _ hy rfl
      rw [contextPtr_eq hy] at hx
      simp at hx
    · rintro x hx _ hy rfl
      obtain ⟨y, hy, hxy⟩ := mem_errsCells hy
      have := (mem_tag hy).2
      simp only [List.mem_append, List.mem_singleton] at hx
      rcases hx with hx | hx
      · rw [hx] at hxy
        rcases hxy with h | h
        · cases h; omega
        · cases h
      · rw [contextPtr_eq hx] at hxy
        rcases hxy with h | h
        · cases h
        · cases h; omega

/-- What `parse_each` owns. -/
def Ctx.cells (c : Ctx) : Cells :=
  c.lines.toList ++ (c.blocks.toList ++ (c.top.toList ++ (Node.cellss c.children ++ (c.noted.toList ++ errsCells c.errs))))

/-- The context in the loop. -/
structure Ctx.Fits (c : Ctx) : Prop where
  lines : c.lines = some .lines
  blocks : c.blocks = some .blocks
  top : c.top = some (.block 0)
  noted : c.noted = none ∧ c.errs = [] ∨ c.noted = some .noted

theorem Ctx.cleanup_ok {c : Ctx} {m : Mem} {a : Cells} (hc : c.Fits) (ho : Own m.cells (c.cells ++ a)) :
    ∃ h', c.cleanup m = .ok ⟨m.tick, h'⟩ ∧ Own h' a := by
  simp only [Ctx.cells] at ho
  obtain ⟨h1, e1, o1⟩ := freeIn_ok (p := c.lines) (m := m)
    (a := [.block 0] ++ Node.cellss c.children ++ (c.blocks.toList ++ (errsCells c.errs ++ (c.noted.toList ++ a))))
    (ho.to (by rw [hc.top]; perm))
  obtain ⟨h2, e2, o2⟩ := topFree_ok (m := ⟨m.tick, h1⟩) o1
  obtain ⟨h3, e3, o3⟩ := freeIn_ok (m := ⟨m.tick, h2⟩) o2
  obtain ⟨h4, e4, o4⟩ := errsFree_ok (m := ⟨m.tick, h3⟩) (array := c.noted) o3 (fun h => by
      rcases hc.noted with ⟨_, e⟩ | e
      · exact absurd e h
      · exact ⟨_, by simp [e], e⟩)
  obtain ⟨h5, e5, o5⟩ := freeIn_ok (m := ⟨m.tick, h4⟩) o4
  exact ⟨h5, by simp [Ctx.cleanup, hc.top, e1, e2, e3, e4, e5, Bind.bind, Except.bind], o5⟩

/-- The cells with fixed names. -/
def Cell.fixed : Cell → Bool
  | .lines | .blocks | .noted | .result | .resErrors | .resRoots | .resDirectives | .block _ => true
  | _ => false

theorem Res.parts_mem {r : Res} {c : Cell} (hr : r.Fits) (h : c ∈ r.parts) :
    c = .resErrors ∨ c = .resRoots ∨ c = .resDirectives ∨ c ∈ errsCells r.errs ∨ c ∈ Node.cellss r.roots := by
  simp only [Res.parts, List.mem_append] at h
  rcases hr.errs with ⟨e, -⟩ | e <;> rcases hr.roots with ⟨e', -⟩ | e' <;> rcases hr.dirs with ⟨e'', -⟩ | ⟨e'', -⟩ <;>
    rw [e, e', e''] at h <;> simp at h <;> tauto

/-- The cells of the context, when nothing was delivered yet. -/
theorem Ctx.cells_mem {c : Ctx} {x : Cell} (hc : c.Fits) (h1 : c.children = []) (h2 : c.errs = [])
    (h : x ∈ c.cells) : x = .lines ∨ x = .blocks ∨ x = .block 0 ∨ x ∈ c.noted.toList ∧ x = .noted := by
  simp only [Ctx.cells, hc.lines, hc.blocks, hc.top, h1, h2, Node.cellss, errsCells] at h
  rcases hc.noted with ⟨e, -⟩ | e <;> rw [e] at h ⊢ <;> simp at h ⊢ <;> tauto

theorem deliver_ok {k : Nat} {s : PSeg} {c : Ctx} {r : Res} {m : Mem} (hc : c.Fits) (h1 : c.children = [])
    (h2 : c.errs = []) (hr : r.Fits) (hk : ∀ x ∈ r.errs, x.seg < k)
    (hn : (Node.idss r.roots ++ Node.idss s.roots).Nodup) (ho : Own m.cells (r.parts ++ ([.result] ++ c.cells))) :
    (deliver k s c m).1.Fits ∧ (deliver k s c m).2.tick = m.tick ∧
      Own (deliver k s c m).2.cells (r.parts ++ ([.result] ++ (deliver k s c m).1.cells)) := by
  obtain ⟨n1, n2, n3⟩ := List.nodup_append.1 hn
  -- what is there already
  have hold : ∀ x ∈ r.parts ++ ([.result] ++ c.cells), x ∉ Node.cellss s.roots ∧ x ∉ errsCells (tag k 0 s.errors) := by
    intro x hx
    simp only [List.mem_append, List.mem_singleton] at hx
    have fx : Cell.fixed x = true → x ∉ Node.cellss s.roots ∧ x ∉ errsCells (tag k 0 s.errors) := fun h =>
      ⟨not_cellss (by cases x <;> first | rfl | cases h), fun hm => by
        obtain ⟨y, -, rfl | rfl⟩ := mem_errsCells hm <;> cases h⟩
    rcases hx with hx | rfl | hx
    · rcases Res.parts_mem hr hx with rfl | rfl | rfl | hx | hx
      · exact fx rfl
      · exact fx rfl
      · exact fx rfl
      · obtain ⟨y, hy, e⟩ := mem_errsCells hx
        refine ⟨not_cellss (by rcases e with rfl | rfl <;> rfl), fun hm => ?_⟩
        obtain ⟨z, hz, e'⟩ := mem_errsCells hm
        have := hk y hy
        have := (mem_tag hz).1
        rcases e with rfl | rfl <;> rcases e' with e' | e' <;> simp at e' <;> omega
      · obtain ⟨i, e1, e2⟩ := Node.cellss_owner hx
        refine ⟨fun hm => ?_, fun hm => ?_⟩
        · obtain ⟨j, e3, e4⟩ := Node.cellss_owner hm
          rw [e1] at e3; cases e3
          exact n3 i e2 i e4 rfl
        · obtain ⟨y, -, rfl | rfl⟩ := mem_errsCells hm <;> cases e1
    · exact fx rfl
    · rcases Ctx.cells_mem hc h1 h2 hx with rfl | rfl | rfl | ⟨-, rfl⟩ <;> exact fx rfl
  have hnoted : c.noted.isNone → Cell.noted ∉ r.parts ++ ([.result] ++ c.cells) := by
    intro hno hx
    simp only [List.mem_append, List.mem_singleton] at hx
    rcases hx with hx | hx | hx
    · rcases Res.parts_mem hr hx with h | h | h | h | h
      · cases h
      · cases h
      · cases h
      · obtain ⟨y, -, h | h⟩ := mem_errsCells h <;> cases h
      · exact not_cellss rfl h
    · cases hx
    · rcases Ctx.cells_mem hc h1 h2 hx with h | h | h | ⟨h, -⟩
      · cases h
      · cases h
      · cases h
      · rw [Option.isNone_iff_eq_none] at hno; rw [hno] at h; simp at h
  refine ⟨⟨hc.lines, hc.blocks, hc.top, ?_⟩, rfl, ?_⟩
  · simp only [deliver]
    split
    · exact .inr rfl
    · rename_i h
      have : s.errors = [] := List.length_eq_zero_iff.1 (by omega)
      rcases hc.noted with ⟨e, -⟩ | e
      · exact .inl ⟨e, by rw [this]; rfl⟩
      · exact .inr e
  · -- the array of the errors
    have ho' : Own ((if s.errors.length > 0 ∧ c.noted.isNone then [.noted] else []) ++ m.cells)
        (r.parts ++ ([.result] ++ { c with noted := if s.errors.length > 0 then some .noted else c.noted }.cells)) := by
      by_cases hp : s.errors.length > 0
      · simp only [hp, true_and, if_true]
        by_cases hno : c.noted.isNone
        · simp only [hno, if_true]
          have := ho.add (hnoted hno)
          rw [Option.isNone_iff_eq_none] at hno
          refine this.to ?_
          simp only [Ctx.cells, hno]
          perm
        · simp only [hno]
          rcases hc.noted with ⟨e, -⟩ | e
          · rw [e] at hno; simp at hno
          · simp only [Ctx.cells, e] at ho ⊢
            exact ho
      · simp only [hp, false_and, if_false]
        exact ho
    have hm : ∀ x ∈ (if s.errors.length > 0 ∧ c.noted.isNone then [Cell.noted] else []) ++ m.cells,
        x ∉ Node.cellss s.roots ∧ x ∉ errsCells (tag k 0 s.errors) := by
      intro x hx
      rcases List.mem_append.1 hx with hx | hx
      · split at hx
        · cases List.mem_singleton.1 hx
          exact ⟨not_cellss rfl, fun hm => by obtain ⟨y, -, h | h⟩ := mem_errsCells hm <;> cases h⟩
        · simp at hx
      · exact hold x (ho.mem.1 hx)
    refine ⟨?_, ?_⟩
    · simp only [deliver]
      refine ((ho'.1.append_left _).append_left _).trans ?_
      simp only [Ctx.cells, h1, h2, Node.cellss, errsCells]
      perm
    · simp only [deliver]
      refine List.nodup_append.2 ⟨cellss_nodup _ n2, List.nodup_append.2 ⟨tag_nodup, ho'.2, ?_⟩, ?_⟩
      · rintro x hx _ hy rfl
        exact (hm x hy).2 hx
      · rintro x hx _ hy rfl
        rcases List.mem_append.1 hy with hy | hy
        · obtain ⟨y, -, rfl | rfl⟩ := mem_errsCells hy <;> exact not_cellss rfl hx
        · exact (hm x hy).1 hx

/-- The flag of the result after segments. -/
def eofsAfter (b : Bool) : List PSeg → Bool
  | [] => b
  | s :: ss => eofsAfter (b || (s.eof && (s.directive.isSome || decide (s.errors ≠ [])))) ss

/-- The errors of the segments. -/
def tags : Nat → List PSeg → List TErr
  | _, [] => []
  | k, s :: ss => tag k 0 s.errors ++ tags (k + 1) ss

theorem each_ok : ∀ {L : List PSeg} {k : Nat} {c : Ctx} {r : Res} {m : Mem}, c.Fits → c.children = [] → c.errs = [] →
    r.Fits → (∀ x ∈ r.errs, x.seg < k) → (Node.idss r.roots ++ L.flatMap fun s => Node.idss s.roots).Nodup →
    Own m.cells (r.parts ++ ([.result] ++ c.cells)) →
    ∃ ok c' r' m', each ask L k c r m = .ok ((ok, c', r'), m') ∧ m.tick ≤ m'.tick ∧
      (ok = true ↔ Went ask m.tick m'.tick) ∧ c'.Fits ∧ r'.Fits ∧ Own m'.cells (r'.parts ++ ([.result] ++ c'.cells)) ∧
      (ok = true → r'.errs = r.errs ++ tags k L ∧ r'.roots = r.roots ++ L.flatMap (·.roots) ∧
        r'.directives = r.directives ++ L.flatMap (·.directive.toList) ∧ r'.eof = eofsAfter r.eof L)
  | [], k, c, r, m, hc, h1, h2, hr, hk, hn, ho =>
    ⟨_, _, _, _, rfl, Nat.le_refl _, by simp [went_refl], hc, hr, ho, by simp [tags, eofsAfter]⟩
  | s :: ss, k, c, r, m, hc, h1, h2, hr, hk, hn, ho => by
    simp only [List.flatMap_cons, ← List.append_assoc] at hn
    have hn1 := (List.nodup_append.1 hn).1
    obtain ⟨d1, d2, d3⟩ := deliver_ok hc h1 h2 hr hk hn1 ho
    obtain ⟨c1, hc1⟩ : ∃ c1, c1 = (deliver k s c m).1 := ⟨_, rfl⟩
    obtain ⟨m1, hm1⟩ : ∃ m1, m1 = (deliver k s c m).2 := ⟨_, rfl⟩
    have hd : deliver k s c m = (c1, m1) := by rw [hc1, hm1]
    have hch : c1.children = s.roots := by rw [hc1]; rfl
    have hes : c1.errs = tag k 0 s.errors := by rw [hc1]; rfl
    rw [← hc1] at d1
    rw [← hm1] at d2
    rw [← hc1, ← hm1] at d3
    unfold each
    simp only [hd]
    have hseg : ∀ x : Cell, x.place = some k → (∀ j, x ≠ .message k j) → (∀ j, x ≠ .context k j) →
        x ∉ r.parts ++ ([.result] ++ c1.cells) := by
      intro x hx hx1 hx2 hm
      have he : ∀ es : List TErr, x ∉ errsCells es := by
        intro es hm
        obtain ⟨y, -, rfl | rfl⟩ := mem_errsCells hm
        · simp only [Cell.place, Option.some.injEq] at hx
          exact hx1 _ (by rw [hx])
        · simp only [Cell.place, Option.some.injEq] at hx
          exact hx2 _ (by rw [hx])
      have hno : ∀ ns : List Node, x ∉ Node.cellss ns := fun ns => not_cellss (by cases x <;> first | rfl | cases hx)
      simp only [List.mem_append, List.mem_singleton, Ctx.cells, d1.lines, d1.blocks, d1.top, Option.toList_some] at hm
      rcases hm with hm | rfl | rfl | rfl | rfl | hm | hm | hm
      · rcases Res.parts_mem hr hm with rfl | rfl | rfl | hm | hm
        · cases hx
        · cases hx
        · cases hx
        · exact he _ hm
        · exact hno _ hm
      · cases hx
      · cases hx
      · cases hx
      · cases hx
      · exact hno _ hm
      · rcases d1.noted with ⟨e, -⟩ | e <;> rw [e] at hm
        · simp at hm
        · cases List.mem_singleton.1 hm; cases hx
      · exact he _ hm
    obtain ⟨o, t, h', e1, t1, w1, o1⟩ := segNew_ok (ask := ask) (k := k) (src := c1.noted) (es := c1.errs)
      (top := c1.top) (rs := c1.children) (d := s.directive) (eof := s.eof) d3
      (hseg _ rfl (by simp) (by simp)) (hseg _ rfl (by simp) (by simp)) (hseg _ rfl (by simp) (by simp))
      (fun hl => by
        rcases d1.noted with ⟨-, e⟩ | e
        · rw [e] at hl; simp at hl
        · exact ⟨_, by simp [Ctx.cells, e], e⟩)
      (fun _ => ⟨_, by simp [Ctx.cells, d1.top], d1.top⟩)
    rw [d2] at t1 w1
    simp only [e1, Bind.bind, Except.bind]
    rcases o1 with ⟨rfl, o1⟩ | ⟨g, rfl, hg, o1⟩
    · refine ⟨_, _, _, _, rfl, t1, ?_, d1, hr, o1, by simp⟩
      rw [← w1]; simp
    · simp only
      have hw1 := w1.1 rfl
      have hgf : g.Fits := by
        rw [hg]
        refine ⟨?_, ?_⟩
        · simp only
          split
          · exact .inr rfl
          · exact .inl ⟨rfl, List.length_eq_zero_iff.1 (by omega)⟩
        · simp only
          split
          · exact .inr rfl
          · exact .inl ⟨rfl, List.length_eq_zero_iff.1 (by omega)⟩
      have hge : g.errs = tag k 0 s.errors := by rw [hg, hes]
      have hgr : g.roots = s.roots := by rw [hg, hch]
      have hgd : g.directive = s.directive := by rw [hg]
      have hgeof : g.eof = s.eof := by rw [hg]
      obtain ⟨c2, hc2⟩ : ∃ c2 : Ctx, c2 = { c1 with errs := [], children := [] } := ⟨_, rfl⟩
      have hf2 : c2.Fits := by
        rw [hc2]
        refine ⟨d1.lines, d1.blocks, d1.top, ?_⟩
        rcases d1.noted with ⟨e, -⟩ | e
        · exact .inl ⟨e, rfl⟩
        · exact .inr e
      obtain ⟨ok, r1, g1, m2, e2, w2, q2⟩ := merge_ok (ask := ask) (r := r) (g := g) (m := ⟨t, h'⟩)
        (a := [.result] ++ c2.cells) hr hgf
        (by
          intro x hx
          rcases List.mem_append.1 hx with hx | hx
          · cases List.mem_singleton.1 hx; rfl
          · rcases Ctx.cells_mem hf2 (by rw [hc2]) (by rw [hc2]) hx with rfl | rfl | rfl | ⟨-, rfl⟩ <;> rfl)
        (o1.to (by
          rw [hge, hgr, hc2]
          simp only [Ctx.cells, hch, hes, Node.cellss, errsCells]
          perm))
      have t2 : t ≤ m2.tick := w2.tick
      have hw2 : ok = true ↔ Went ask t m2.tick := w2.went
      rw [← hc2]
      simp only [e2]
      obtain ⟨h3, e3, o3⟩ := Seg.release_ok (g := g1) (m := m2) (a := r1.parts ++ ([.result] ++ c2.cells))
        (w2.own.to (by perm))
        (fun h => by
          rcases w2.sfits.errs with ⟨-, e⟩ | e
          · exact absurd e h
          · rw [e]; rfl)
        (fun h => by
          rcases w2.sfits.roots with ⟨-, e⟩ | e
          · exact absurd e h
          · rw [e]; rfl)
      simp only [e3]
      cases ok with
      | false =>
        refine ⟨_, _, _, _, rfl, Nat.le_trans t1 t2, ?_, hf2, w2.fits, o3, by simp⟩
        rw [went_trans t1 t2, ← hw2]; simp
      | true =>
        simp only [if_true]
        obtain ⟨q21, q22, q23, q24, -, -⟩ := q2 rfl
        rw [hge] at q21 q24
        rw [hgr] at q22
        rw [hgd] at q23 q24
        rw [hgeof] at q24
        obtain ⟨ok, c', r', m', f1, f2, f3, f4, f5, f6, f7⟩ := each_ok (L := ss) (k := k + 1) (c := c2) (r := r1)
          (m := ⟨m2.tick, h3⟩) hf2 (by rw [hc2]) (by rw [hc2]) w2.fits
          (fun x hx => by
            rw [q21] at hx
            rcases List.mem_append.1 hx with hx | hx
            · exact Nat.lt_succ_of_lt (hk x hx)
            · rw [(mem_tag hx).1]; exact Nat.lt_succ_self _)
          (by rw [q22, Node.idss_append]; exact hn) o3
        have f2 : m2.tick ≤ m'.tick := f2
        have f3 : ok = true ↔ Went ask m2.tick m'.tick := f3
        refine ⟨ok, c', r', m', f1, Nat.le_trans t1 (Nat.le_trans t2 f2), ?_, f4, f5, f6, fun hok => ?_⟩
        · rw [went_trans t1 (Nat.le_trans t2 f2), went_trans t2 f2, ← f3]
          exact ⟨fun h => ⟨hw1, hw2.1 rfl, h⟩, fun h => h.2.2⟩
        · obtain ⟨g1, g2, g3, g4⟩ := f7 hok
          have hte : decide (tag k 0 s.errors ≠ []) = decide (s.errors ≠ []) := by
            rw [decide_eq_decide, ← List.length_pos_iff, ← List.length_pos_iff, tag_length]
          refine ⟨?_, ?_, ?_, ?_⟩
          · rw [g1, q21, List.append_assoc]; rfl
          · rw [g2, q22, List.append_assoc]; rfl
          · rw [g3, q23, List.append_assoc]; rfl
          · rw [g4, q24, eofAfter, hte]; rfl

end

end Verif.Handover
