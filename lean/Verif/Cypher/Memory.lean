import Verif.Cypher.Access
import Verif.Cypher.Nesting
import Verif.Cypher.Parser
import Mathlib.Tactic.Tauto
/-!
# The memory of the trees and of the segments, and how it is freed

What is allocated for a node is named by the number of the constructor call that made it, and what is allocated for
a segment by the position of the segment. Freeing takes a cell away; a cell that is not there can be neither read
nor freed.

Simplifications: allocations succeed; there are no annotations (their memory is that of `annotation.c`, C14); the
contents of the cells are those of the node or segment that is passed. The reference count of a segment is modelled
in `Data/Segment.lean`; here the last reference is given up.
-/
namespace Verif.Cypher

/-- The allocations. -/
inductive Cell where
  /-- the structure of a node (`calloc` in each constructor) -/
  | node (i : Nat)
  /-- the array of the children of a node (`mdup`, ast.c:898) -/
  | children (i : Nat)
  /-- the second array of a query (ast_query.c:71), of CALL (ast_call.c:81) or of a comparison (ast_comparison.c:74) -/
  | extra (i : Nat)
  /-- a segment (`calloc`, segment.c:29) -/
  | segment (k : Nat)
  /-- the array of the errors of a segment (`mdup`, segment.c:40) -/
  | errors (k : Nat)
  /-- the message of an error (errors.c) -/
  | message (k j : Nat)
  /-- the context of an error (errors.c) -/
  | context (k j : Nat)
  /-- the array of the roots of a segment (`mdup`, segment.c:49) -/
  | roots (k : Nat)
  /-- a block of the parser with its two vectors (`malloc`, parser.c:906; used in `Abort.lean`) -/
  | block (k : Nat)
  /-- the elements of `line_start_offsets` and of `blocks`, and `errors` of the error tracking (used in
  `Handover.lean`, as is what follows) -/
  | lines | blocks | noted
  /-- a result (`calloc`, parser.c:712) and its three arrays (`realloc`, result.c:101, 118, 141) -/
  | result | resErrors | resRoots | resDirectives
  deriving DecidableEq, Repr

inductive MemFault where
  /-- memory is read after it was freed -/
  | useAfterFree
  /-- memory is freed twice -/
  | doubleFree
  /-- a function pointer that is NULL is called -/
  | nullCall
  /-- memory is written through a pointer that is NULL (used in `Handover.lean`) -/
  | nullWrite
  deriving DecidableEq, Repr

/-- What is allocated. -/
abbrev Cells := List Cell

/-- `free` -/
def freeCell (p : Option Cell) (h : Cells) : Except MemFault Cells :=
  match p with
  | none => .ok h
  | some c => if c ∈ h then .ok (h.filter (· ≠ c)) else .error .doubleFree

/-- Reading from what a pointer points to. -/
def loadCell (p : Option Cell) (h : Cells) : Except MemFault Unit :=
  match p with
  | none => .error .useAfterFree
  | some c => if c ∈ h then .ok () else .error .useAfterFree

/-- `children` of a node: NULL if there are none (ast.c:896-910). -/
def Node.childrenPtr (n : Node) : Option Cell :=
  if n.children.length > 0 then some (.children n.id) else none

/-- The other pointer to an allocation: `options` of a query (ast_query.c:69-77), `args` of CALL (ast_call.c:79-87),
`ops` of a comparison (ast_comparison.c:73-78). All other arrays are part of the structure. -/
def Node.extraPtr (n : Node) : Option Cell :=
  match n.ctor with
  | .query => if (n.seq.takeWhile (isA · .queryOption)).length > 0 then some (.extra n.id) else none
  | .callClause => if (n.seq.takeWhile (! isA · .projection)).length > 0 then some (.extra n.id) else none
  | .comparisonOperator => some (.extra n.id)
  | _ => none

mutual
/-- What the constructors allocated for a tree. -/
def Node.cells : Node → Cells
  | .mk i c o a s t r ch =>
    .node i :: ((Node.mk i c o a s t r ch).childrenPtr.toList ++ ((Node.mk i c o a s t r ch).extraPtr.toList ++
      Node.cellss ch))
def Node.cellss : List Node → Cells
  | [] => []
  | n :: ns => n.cells ++ Node.cellss ns
end

/-- The functions named by `.release` in the tables of the types. -/
inductive Release where
  /-- `cypher_astnode_release` (ast.c:915-918) -/
  | plain
  /-- `query_release` (ast_query.c:127-132), `call_release` (ast_call.c:103-108), `comparison_release`
  (ast_comparison.c:92-97) -/
  | extra
  deriving DecidableEq, Repr

/-- `.release` of the types (`cypher_astnode_vt` in each `lib/src/ast_*.c`): NULL for the types that are only
supertypes. -/
def releaseOf : AstType → Option Release
  | .query => some .extra -- ast_query.c:42
  | .call => some .extra -- ast_call.c:49
  | .comparison => some .extra -- ast_comparison.c:47
  | .statementOption | .schemaCommand | .queryOption | .queryClause | .startPoint | .matchHint | .mergeAction
  | .setItem | .removeItem | .expression | .mapProjectionSelector | .booleanLiteral | .comment => none
  | _ => some .plain

/-- `vt->release(ast)` (ast.c:508-510). -/
def Node.release (n : Node) (h : Cells) : Except MemFault Cells :=
  match releaseOf n.ty with
  | none => .error .nullCall
  | some .plain => freeCell (some (.node n.id)) h
  | some .extra => do
    loadCell (some (.node n.id)) h
    let h ← freeCell n.extraPtr h
    freeCell (some (.node n.id)) h

mutual
/-- `cypher_ast_free` (ast.c:492-513). -/
def astFree : Node → Cells → Except MemFault Cells
  | .mk i c o a s t r ch, h => do
    loadCell (some (.node i)) h
    let h ← (Node.mk i c o a s t r ch).release h
    let h ← vFree (Node.mk i c o a s t r ch).childrenPtr ch h
    freeCell (Node.mk i c o a s t r ch).childrenPtr h
/-- `cypher_ast_vfree` (ast.c:450-456): the array is read before each node is freed. -/
def vFree (array : Option Cell) : List Node → Cells → Except MemFault Cells
  | [], h => .ok h
  | n :: ns, h => do
    loadCell array h
    let h ← astFree n h
    vFree array ns h
end

/-- `cypher_astnode_free` (ast.c:516-535). -/
def astnodeFree (n : Node) (h : Cells) : Except MemFault Cells := do
  loadCell (some (.node n.id)) h
  let h ← n.release h
  freeCell n.childrenPtr h

/-- `context` of an error: NULL if there is none (errors.c). -/
def contextPtr (k j : Nat) (e : PErr) : Option Cell :=
  if e.context.isSome then some (.context k j) else none

/-- The strings of the errors, from the `j`-th on. -/
def errorCells (k : Nat) : Nat → List PErr → Cells
  | _, [] => []
  | j, e :: es => .message k j :: ((contextPtr k j e).toList ++ errorCells k (j + 1) es)

/-- `errors` of a segment: NULL if there are none (segment.c:38-46). -/
def PSeg.errorsPtr (k : Nat) (s : PSeg) : Option Cell :=
  if s.errors.length > 0 then some (.errors k) else none

/-- `roots` of a segment: NULL if there are none (segment.c:47-55). -/
def PSeg.rootsPtr (k : Nat) (s : PSeg) : Option Cell :=
  if s.roots.length > 0 then some (.roots k) else none

/-- What is allocated for the `k`-th segment. -/
def PSeg.cells (k : Nat) (s : PSeg) : Cells :=
  .segment k :: ((s.errorsPtr k).toList ++ (errorCells k 0 s.errors ++ ((s.rootsPtr k).toList ++ Node.cellss s.roots)))

/-- `cp_errors_vcleanup` (errors.c:55-64). -/
def errorsCleanup (k : Nat) (array : Option Cell) : Nat → List PErr → Cells → Except MemFault Cells
  | _, [], h => .ok h
  | j, e :: es, h => do
    loadCell array h
    let h ← freeCell (some (.message k j)) h
    let h ← freeCell (contextPtr k j e) h
    errorsCleanup k array (j + 1) es h

/-- `cypher_parse_segment_release` (segment.c:90-109) of the last reference. -/
def PSeg.release (k : Nat) (s : PSeg) (h : Cells) : Except MemFault Cells := do
  loadCell (some (.segment k)) h
  let h ← errorsCleanup k (s.errorsPtr k) 0 s.errors h
  let h ← freeCell (s.errorsPtr k) h
  let h ← vFree (s.rootsPtr k) s.roots h
  let h ← freeCell (s.rootsPtr k) h
  freeCell (some (.segment k)) h

/-- Segments (with their positions) released one after the other. -/
def releaseAll : List (PSeg × Nat) → Cells → Except MemFault Cells
  | [], h => .ok h
  | (s, k) :: l, h => do
    let h ← s.release k h
    releaseAll l h

/-! ## What freeing does -/

theorem freeCell_some {c : Cell} {h : Cells} (hc : c ∈ h) : freeCell (some c) h = .ok (h.filter (· ≠ c)) := by
  simp [freeCell, hc]

theorem freeCell_ok {p : Option Cell} {h : Cells} (hc : ∀ c ∈ p.toList, c ∈ h) :
    freeCell p h = .ok (h.filter (· ∉ p.toList)) := by
  cases p with
  | none => simp [freeCell, List.filter_eq_self.2]
  | some c => rw [freeCell_some (hc c (by simp))]; simp

theorem loadCell_ok {c : Cell} {h : Cells} (hc : c ∈ h) : loadCell (some c) h = .ok () := by
  simp [loadCell, hc]

theorem filter_twice (h a b : Cells) : (h.filter (· ∉ a)).filter (· ∉ b) = h.filter (· ∉ a ++ b) := by
  rw [List.filter_filter]
  refine List.filter_congr fun c _ => ?_
  simp [Bool.and_comm]

/-- The number in the name of a cell of a node. -/
def Cell.owner : Cell → Option Nat
  | .node i | .children i | .extra i => some i
  | _ => none

theorem Node.childrenPtr_owner {n : Node} {c : Cell} (h : c ∈ n.childrenPtr.toList) : c = .children n.id := by
  unfold Node.childrenPtr at h
  split at h <;> simp_all

theorem Node.extraPtr_owner {n : Node} {c : Cell} (h : c ∈ n.extraPtr.toList) : c = .extra n.id := by
  unfold Node.extraPtr at h
  split at h
  · split at h <;> simp_all
  · split at h <;> simp_all
  · simp_all
  · simp_all

mutual
theorem Node.cells_owner : ∀ {n : Node} {c : Cell}, c ∈ n.cells → ∃ i, c.owner = some i ∧ i ∈ n.ids
  | .mk i k o a s t r ch, c, h => by
    simp only [Node.cells, List.mem_cons, List.mem_append] at h
    simp only [Node.ids, List.mem_cons]
    rcases h with rfl | h | h | h
    · exact ⟨i, rfl, .inl rfl⟩
    · rw [Node.childrenPtr_owner h]; exact ⟨i, rfl, .inl rfl⟩
    · rw [Node.extraPtr_owner h]; exact ⟨i, rfl, .inl rfl⟩
    · obtain ⟨j, h1, h2⟩ := Node.cellss_owner h
      exact ⟨j, h1, .inr h2⟩
theorem Node.cellss_owner : ∀ {ns : List Node} {c : Cell}, c ∈ Node.cellss ns → ∃ i, c.owner = some i ∧ i ∈ Node.idss ns
  | [], c, h => by simp [Node.cellss] at h
  | n :: ns, c, h => by
    simp only [Node.cellss, List.mem_append] at h
    simp only [Node.idss, List.mem_append]
    rcases h with h | h
    · obtain ⟨j, h1, h2⟩ := Node.cells_owner h; exact ⟨j, h1, .inl h2⟩
    · obtain ⟨j, h1, h2⟩ := Node.cellss_owner h; exact ⟨j, h1, .inr h2⟩
end

/-- No node has a type whose `.release` is NULL, and the types of the nodes with a second array free it. -/
theorem release_some (n : Node) : releaseOf n.ty = some .extra ∨ releaseOf n.ty = some .plain ∧ n.extraPtr = none := by
  obtain ⟨i, c, o, a, s, t, r, ch⟩ := n
  cases c <;> first | exact .inl rfl | exact .inr ⟨rfl, rfl⟩

theorem Node.release_ok {n : Node} {h : Cells} (h1 : .node n.id ∈ h) (h2 : ∀ c ∈ n.extraPtr.toList, c ∈ h) :
    n.release h = .ok (h.filter (· ∉ n.extraPtr.toList ++ [.node n.id])) := by
  unfold Node.release
  rcases release_some n with e | ⟨e, e'⟩
  · rw [e]
    simp only
    rw [loadCell_ok h1, freeCell_ok h2]
    simp only [Bind.bind, Except.bind]
    rw [freeCell_ok (p := some (.node n.id)), filter_twice]
    · rfl
    · intro c hc
      cases List.mem_singleton.1 hc
      refine List.mem_filter.2 ⟨h1, decide_eq_true fun hc => ?_⟩
      cases Node.extraPtr_owner hc
  · rw [e, e']
    simp only
    rw [freeCell_ok (p := some (.node n.id))]
    · rfl
    · simpa using h1

theorem filter_eq_of {h a b : Cells} (he : ∀ c, c ∈ a ↔ c ∈ b) : h.filter (· ∉ a) = h.filter (· ∉ b) :=
  List.filter_congr fun c _ => by simp [he c]

mutual
theorem astFree_ok : ∀ {n : Node} {h : Cells}, n.ids.Nodup → (∀ c ∈ n.cells, c ∈ h) →
    astFree n h = .ok (h.filter (· ∉ n.cells))
  | .mk i k o a s t r ch, h, hn, hc => by
    simp only [Node.ids, List.nodup_cons] at hn
    obtain ⟨n, hnn⟩ : ∃ n, n = Node.mk i k o a s t r ch := ⟨_, rfl⟩
    have hi : n.id = i := by rw [hnn]; rfl
    have hch : n.children = ch := by rw [hnn]; rfl
    simp only [Node.cells, ← hnn, List.mem_cons, List.mem_append] at hc
    simp only [astFree, Node.cells, ← hnn]
    have hout : ∀ {c : Cell}, c.owner = some i → c ∉ Node.cellss ch := fun {c} ho hm => by
      obtain ⟨j, h1, h2⟩ := Node.cellss_owner hm
      rw [ho] at h1; cases h1
      exact hn.1 h2
    have h1 : .node n.id ∈ h := by rw [hi]; exact hc _ (.inl rfl)
    rw [← hi, loadCell_ok h1, Node.release_ok h1 fun c h => hc c (.inr (.inr (.inl h)))]
    simp only [Bind.bind, Except.bind]
    have hcp : ∀ c ∈ n.childrenPtr.toList, c ∉ n.extraPtr.toList ++ [.node n.id] := by
      intro c hm hm'
      rw [Node.childrenPtr_owner hm] at hm'
      rcases List.mem_append.1 hm' with h | h
      · cases Node.extraPtr_owner h
      · simp at h
    rw [vFree_ok hn.2]
    · simp only
      rw [filter_twice, freeCell_ok, filter_twice]
      · refine congrArg _ (filter_eq_of fun c => ?_)
        simp only [List.mem_append, List.mem_cons, List.not_mem_nil, or_false]
        tauto
      · intro c hm
        have he := Node.childrenPtr_owner hm
        refine List.mem_filter.2 ⟨hc c (.inr (.inl hm)), ?_⟩
        simp only [decide_eq_true_eq, List.mem_append, not_or]
        have := hcp c hm
        simp only [List.mem_append, not_or] at this
        exact ⟨this, hout (by rw [he, hi]; rfl)⟩
    · intro c hm
      refine List.mem_filter.2 ⟨hc c (.inr (.inr (.inr hm))), ?_⟩
      simp only [decide_eq_true_eq, List.mem_append, not_or, List.mem_singleton]
      refine ⟨fun h => ?_, fun h => ?_⟩
      · rw [Node.extraPtr_owner h, hi] at hm
        exact hout rfl hm
      · rw [h, hi] at hm; exact hout rfl hm
    · intro hne
      have hp : n.childrenPtr = some (.children n.id) := by
        unfold Node.childrenPtr
        rw [hch, if_pos (List.length_pos_iff.2 hne)]
      refine ⟨_, hp, List.mem_filter.2 ⟨?_, ?_⟩, ?_⟩
      · exact hc _ (.inr (.inl (by rw [hp]; simp)))
      · rw [decide_eq_true_eq]
        exact hcp _ (by rw [hp]; simp)
      · rw [hi]; exact hout rfl
theorem vFree_ok : ∀ {array : Option Cell} {ns : List Node} {h : Cells}, (Node.idss ns).Nodup →
    (∀ c ∈ Node.cellss ns, c ∈ h) → (ns ≠ [] → ∃ c, array = some c ∧ c ∈ h ∧ c ∉ Node.cellss ns) →
    vFree array ns h = .ok (h.filter (· ∉ Node.cellss ns))
  | array, [], h, _, _, _ => by simp [vFree, Node.cellss, List.filter_eq_self.2]
  | array, n :: ns, h, hn, hc, ha => by
    obtain ⟨a, rfl, ha1, ha2⟩ := ha (by simp)
    simp only [Node.idss, List.nodup_append] at hn
    obtain ⟨hn1, hn2, hn3⟩ := hn
    simp only [Node.cellss, List.mem_append, not_or] at hc ha2
    simp only [vFree, loadCell_ok ha1, Bind.bind, Except.bind]
    rw [astFree_ok hn1 fun c h => hc c (.inl h)]
    simp only
    rw [vFree_ok hn2, filter_twice]
    · rfl
    · intro c hm
      refine List.mem_filter.2 ⟨hc c (.inr hm), ?_⟩
      rw [decide_eq_true_eq]
      intro hm'
      obtain ⟨i, e1, e2⟩ := Node.cells_owner hm'
      obtain ⟨j, e3, e4⟩ := Node.cellss_owner hm
      rw [e1] at e3; cases e3
      exact hn3 i e2 i e4 rfl
    · intro _
      exact ⟨a, rfl, List.mem_filter.2 ⟨ha1, by rw [decide_eq_true_eq]; exact ha2.1⟩, ha2.2⟩
end

theorem astnodeFree_ok {n : Node} {h : Cells} (hc : ∀ c ∈ n.cells, c ∈ h) : astnodeFree n h =
    .ok (h.filter (· ∉ .node n.id :: (n.extraPtr.toList ++ n.childrenPtr.toList))) := by
  have hc' : ∀ c, c = .node n.id ∨ c ∈ n.childrenPtr.toList ∨ c ∈ n.extraPtr.toList → c ∈ h := by
    intro c hm
    refine hc c ?_
    obtain ⟨i, k, o, a, s, t, r, ch⟩ := n
    simp only [Node.cells, List.mem_cons, List.mem_append]
    rcases hm with hm | hm | hm
    · exact .inl hm
    · exact .inr (.inl hm)
    · exact .inr (.inr (.inl hm))
  have h1 := hc' _ (.inl rfl)
  unfold astnodeFree
  rw [loadCell_ok h1, Node.release_ok h1 fun c h => hc' c (.inr (.inr h))]
  simp only [Bind.bind, Except.bind]
  rw [freeCell_ok, filter_twice]
  · refine congrArg _ (filter_eq_of fun c => ?_)
    simp only [List.mem_append, List.mem_cons, List.not_mem_nil, or_false]
    tauto
  · intro c hm
    refine List.mem_filter.2 ⟨hc' c (.inr (.inl hm)), ?_⟩
    rw [decide_eq_true_eq, Node.childrenPtr_owner hm]
    intro hm'
    rcases List.mem_append.1 hm' with h | h
    · cases Node.extraPtr_owner h
    · simp at h

/-- The position in the name of a cell of a segment. -/
def Cell.place : Cell → Option Nat
  | .segment k | .errors k | .message k _ | .context k _ | .roots k => some k
  | _ => none

theorem contextPtr_eq {k j : Nat} {e : PErr} {c : Cell} (h : c ∈ (contextPtr k j e).toList) : c = .context k j := by
  unfold contextPtr at h
  split at h <;> simp_all

theorem PSeg.errorsPtr_eq {k : Nat} {s : PSeg} {c : Cell} (h : c ∈ (s.errorsPtr k).toList) : c = .errors k := by
  unfold PSeg.errorsPtr at h
  split at h <;> simp_all

theorem PSeg.rootsPtr_eq {k : Nat} {s : PSeg} {c : Cell} (h : c ∈ (s.rootsPtr k).toList) : c = .roots k := by
  unfold PSeg.rootsPtr at h
  split at h <;> simp_all

theorem errorCells_eq {k : Nat} {c : Cell} : ∀ {es : List PErr} {j : Nat}, c ∈ errorCells k j es →
    ∃ i, j ≤ i ∧ (c = .message k i ∨ c = .context k i)
  | [], j, h => by simp [errorCells] at h
  | e :: es, j, h => by
    simp only [errorCells, List.mem_cons, List.mem_append] at h
    rcases h with h | h | h
    · exact ⟨j, Nat.le_refl _, .inl h⟩
    · exact ⟨j, Nat.le_refl _, .inr (contextPtr_eq h)⟩
    · obtain ⟨i, h1, h2⟩ := errorCells_eq h
      exact ⟨i, by omega, h2⟩

theorem errorsCleanup_ok {k : Nat} : ∀ {es : List PErr} {j : Nat} {array : Option Cell} {h : Cells},
    (∀ c ∈ errorCells k j es, c ∈ h) → (es ≠ [] → array = some (.errors k) ∧ .errors k ∈ h) →
    errorsCleanup k array j es h = .ok (h.filter (· ∉ errorCells k j es))
  | [], j, array, h, _, _ => by simp [errorsCleanup, errorCells, List.filter_eq_self.2]
  | e :: es, j, array, h, hc, ha => by
    obtain ⟨he, ha'⟩ := ha (by simp)
    subst he
    simp only [errorCells, List.mem_cons, List.mem_append] at hc
    simp only [errorsCleanup, loadCell_ok ha', Bind.bind, Except.bind]
    rw [freeCell_ok (p := some (.message k j)) fun c h => hc c (.inl (by simpa using h))]
    simp only
    rw [freeCell_ok]
    · simp only
      rw [filter_twice, errorsCleanup_ok, filter_twice]
      · exact congrArg _ (filter_eq_of fun c => by simp [errorCells, or_assoc])
      · intro c hm
        refine List.mem_filter.2 ⟨hc c (.inr (.inr hm)), decide_eq_true fun hm' => ?_⟩
        obtain ⟨i, hi, h⟩ := errorCells_eq hm
        rcases List.mem_append.1 hm' with h' | h'
        · rw [List.mem_singleton.1 h'] at h
          rcases h with h | h <;> injection h; omega
        · rw [contextPtr_eq h'] at h
          rcases h with h | h <;> injection h; omega
      · refine fun _ => ⟨rfl, List.mem_filter.2 ⟨ha', decide_eq_true fun hm' => ?_⟩⟩
        rcases List.mem_append.1 hm' with h' | h'
        · cases List.mem_singleton.1 h'
        · cases contextPtr_eq h'
    · intro c hm
      refine List.mem_filter.2 ⟨hc c (.inr (.inl hm)), decide_eq_true fun hm' => ?_⟩
      rw [contextPtr_eq hm] at hm'
      cases List.mem_singleton.1 hm'

theorem PSeg.release_ok {k : Nat} {s : PSeg} {h : Cells} (hn : (Node.idss s.roots).Nodup)
    (hc : ∀ c ∈ s.cells k, c ∈ h) : s.release k h = .ok (h.filter (· ∉ s.cells k)) := by
  simp only [PSeg.cells, List.mem_cons, List.mem_append] at hc
  have hs := hc _ (.inl rfl)
  unfold PSeg.release
  rw [loadCell_ok hs, errorsCleanup_ok fun c h => hc c (.inr (.inr (.inl h)))]
  · simp only [Bind.bind, Except.bind]
    rw [freeCell_ok]
    · simp only
      rw [filter_twice, vFree_ok hn]
      · simp only
        rw [filter_twice, freeCell_ok]
        · simp only
          rw [filter_twice, freeCell_ok (p := some (.segment k)), filter_twice]
          · refine congrArg _ (filter_eq_of fun c => ?_)
            simp only [PSeg.cells, Option.toList_some, List.mem_append, List.mem_cons, List.not_mem_nil, or_false]
            tauto
          · intro c hm
            cases List.mem_singleton.1 hm
            refine List.mem_filter.2 ⟨hs, decide_eq_true fun hm' => ?_⟩
            simp only [List.mem_append] at hm'
            rcases hm' with ((h' | h') | h') | h'
            · obtain ⟨i, -, h' | h'⟩ := errorCells_eq h' <;> cases h'
            · cases PSeg.errorsPtr_eq h'
            · obtain ⟨i, h', -⟩ := Node.cellss_owner h'; cases h'
            · cases PSeg.rootsPtr_eq h'
        · intro c hm
          refine List.mem_filter.2 ⟨hc c (.inr (.inr (.inr (.inl hm)))), decide_eq_true fun hm' => ?_⟩
          rw [PSeg.rootsPtr_eq hm] at hm'
          simp only [List.mem_append] at hm'
          rcases hm' with (h' | h') | h'
          · obtain ⟨i, -, h' | h'⟩ := errorCells_eq h' <;> cases h'
          · cases PSeg.errorsPtr_eq h'
          · obtain ⟨i, h', -⟩ := Node.cellss_owner h'; cases h'
      · intro c hm
        refine List.mem_filter.2 ⟨hc c (.inr (.inr (.inr (.inr hm)))), decide_eq_true fun hm' => ?_⟩
        obtain ⟨i, ho, -⟩ := Node.cellss_owner hm
        rcases List.mem_append.1 hm' with h' | h'
        · obtain ⟨i, -, rfl | rfl⟩ := errorCells_eq h' <;> cases ho
        · rw [PSeg.errorsPtr_eq h'] at ho; cases ho
      · intro hne
        have hp : s.rootsPtr k = some (.roots k) := by
          unfold PSeg.rootsPtr
          rw [if_pos (List.length_pos_iff.2 hne)]
        refine ⟨_, hp, List.mem_filter.2 ⟨hc _ (.inr (.inr (.inr (.inl (by rw [hp]; simp))))),
          decide_eq_true fun hm' => ?_⟩, fun hm => ?_⟩
        · rcases List.mem_append.1 hm' with h' | h'
          · obtain ⟨i, -, h' | h'⟩ := errorCells_eq h' <;> cases h'
          · cases PSeg.errorsPtr_eq h'
        · obtain ⟨i, h', -⟩ := Node.cellss_owner hm; cases h'
    · intro c hm
      refine List.mem_filter.2 ⟨hc c (.inr (.inl hm)), decide_eq_true fun hm' => ?_⟩
      rw [PSeg.errorsPtr_eq hm] at hm'
      obtain ⟨i, -, h' | h'⟩ := errorCells_eq hm' <;> cases h'
  · intro hne
    have hp : s.errorsPtr k = some (.errors k) := by
      unfold PSeg.errorsPtr
      rw [if_pos (List.length_pos_iff.2 hne)]
    exact ⟨hp, hc _ (.inr (.inl (by rw [hp]; simp)))⟩

theorem PSeg.cells_eq {k : Nat} {s : PSeg} {c : Cell} (h : c ∈ s.cells k) :
    c.place = some k ∨ ∃ i ∈ Node.idss s.roots, c.owner = some i := by
  simp only [PSeg.cells, List.mem_cons, List.mem_append] at h
  rcases h with rfl | h | h | h | h
  · exact .inl rfl
  · rw [PSeg.errorsPtr_eq h]; exact .inl rfl
  · obtain ⟨i, -, rfl | rfl⟩ := errorCells_eq h <;> exact .inl rfl
  · rw [PSeg.rootsPtr_eq h]; exact .inl rfl
  · obtain ⟨i, h1, h2⟩ := Node.cellss_owner h; exact .inr ⟨i, h2, h1⟩

theorem Cell.place_owner {c : Cell} {k i : Nat} (h : c.place = some k) (h' : c.owner = some i) : False := by
  cases c <;> first | (cases h'; done) | cases h

/-- The nodes of segments. -/
def segIds (l : List (PSeg × Nat)) : List Nat := l.flatMap fun x => Node.idss x.1.roots

/-- What is allocated for segments. -/
def segCells (l : List (PSeg × Nat)) : Cells := l.flatMap fun x => x.1.cells x.2

theorem segCells_disjoint {x : PSeg × Nat} {l : List (PSeg × Nat)} (hk : x.2 ∉ l.map (·.2))
    (hi : ∀ i ∈ Node.idss x.1.roots, i ∉ segIds l) {c : Cell} (h : c ∈ x.1.cells x.2) : c ∉ segCells l := by
  intro h'
  obtain ⟨y, hy, h'⟩ := List.mem_flatMap.1 h'
  rcases PSeg.cells_eq h with h | ⟨i, h, ho⟩ <;> rcases PSeg.cells_eq h' with h' | ⟨j, h', ho'⟩
  · rw [h] at h'; injection h' with h'
    exact hk (List.mem_map.2 ⟨y, hy, h'.symm⟩)
  · exact Cell.place_owner h ho'
  · exact Cell.place_owner h' ho
  · rw [ho] at ho'; injection ho' with ho'
    exact hi i h (List.mem_flatMap.2 ⟨y, hy, ho' ▸ h'⟩)

theorem releaseAll_ok : ∀ {l : List (PSeg × Nat)} {h : Cells}, (l.map (·.2)).Nodup → (segIds l).Nodup →
    (∀ c ∈ segCells l, c ∈ h) → releaseAll l h = .ok (h.filter (· ∉ segCells l))
  | [], h, _, _, _ => by simp [releaseAll, segCells, List.filter_eq_self.2]
  | (s, k) :: l, h, hk, hi, hc => by
    simp only [List.map_cons, List.nodup_cons] at hk
    simp only [segIds, List.flatMap_cons, List.nodup_append] at hi
    simp only [segCells, List.flatMap_cons, List.mem_append] at hc
    unfold releaseAll
    rw [PSeg.release_ok hi.1 fun c h => hc c (.inl h)]
    simp only [Bind.bind, Except.bind]
    rw [releaseAll_ok hk.2 hi.2.1, filter_twice]
    · rfl
    · intro c hm
      refine List.mem_filter.2 ⟨hc c (.inr hm), decide_eq_true fun hm' => ?_⟩
      exact segCells_disjoint (x := (s, k)) hk.1 (fun i h1 h2 => hi.2.2 i h1 i h2 rfl) hm' hm

end Verif.Cypher
