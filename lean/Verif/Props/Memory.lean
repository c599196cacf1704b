import Verif.Cypher.Memory
import Verif.Props.Detail
import Mathlib.Data.List.Flatten
/-!
# C43: the trees own their memory

Every node that is made while parsing ends up in exactly one place of the trees of exactly one segment, so that
releasing the segments frees each allocation once, reads nothing that was freed, and leaves nothing behind.
-/
namespace Verif
open Verif.Cypher Verif.Peg

variable {σ κ : Type}

theorem finishOne_grown {c c' : PCtx σ} {s : St Act (Reader σ × CState)} (h : finishOne c s = .ok c') :
    ∃ top, c'.mach.blocks = [top] ∧ c'.mach.prev = none ∧ Grown c.mach c'.mach := by
  unfold finishOne at h
  split at h
  · cases h
  · rename_i m hm
    split at h
    · rename_i top ht
      split at h
      · rename_i hc
        cases h
        refine ⟨top, ht, by simpa using hc.2.1, ?_⟩
        have hg := exec_grown hm
        exact hg
      · cases h
    · cases h

theorem parseOne_grown {S : Source σ} {fuel : Nat} {rule : Rule} {c c' : PCtx σ}
    (h : parseOne S fuel rule c = some (.ok c')) :
    ∃ top, c'.mach.blocks = [top] ∧ c'.mach.prev = none ∧ Grown c.mach c'.mach := by
  unfold parseOne at h
  split at h
  · cases h
  · cases h
  · cases h
  · injection h with h
    exact finishOne_grown h

/-- All nodes of segments. -/
def madeIn (L : List PSeg) : List Nat := L.flatMap fun s => Node.idss s.roots

theorem eachLoop_grown {S : Source σ} {f : List PSeg → PSeg → Int} {rule : Rule} {single : Bool} {fuel : Nat} :
    ∀ {n : Nat} {c : PCtx σ} {ordinal : Nat} {last : Option Pos} {k L : List PSeg} {r : Int} {last' : Option Pos},
    eachLoop S (recordingP f) rule single fuel n c ordinal last k = some (.ok (r, last', L)) →
    c.mach.ids = [] → (madeIn k).Perm (List.range c.mach.next) → ∃ N, (madeIn L).Perm (List.range N)
  | 0, c, ordinal, last, k, L, r, last', h, _, _ => by cases h
  | n + 1, c, ordinal, last, k, L, r, last', h, h1, h2 => by
    unfold eachLoop at h
    split at h
    · cases h
    · cases h
    · rename_i c' hp
      obtain ⟨top, hb, hq, m, hn, hg⟩ := parseOne_grown hp
      split at h
      · split at h
        · cases h; exact ⟨_, h2⟩
        · cases h
      · split at h
        · cases h
        · rename_i stop _
          rw [hb] at h
          simp only [recordingP] at h
          have hids : c'.mach.ids = Node.idss top.children := by
            simp [Mach.ids, hb, hq, prevIds, blocksIds]
          rw [h1, List.nil_append, hids] at hg
          generalize hseg : (⟨ordinal, ⟨c'.st.off, stop⟩, c'.st.errs.errors, top.children, c'.mach.result,
            c'.mach.eof⟩ : PSeg) = seg at h
          have hk : (madeIn (k ++ [seg])).Perm (List.range c'.mach.next) := by
            rw [← hseg]
            simp only [madeIn, List.flatMap_append, List.flatMap_cons, List.flatMap_nil, List.append_nil]
            rw [hn, List.range_eq_range', ← List.range'_append_1, ← List.range_eq_range', Nat.zero_add]
            exact h2.append hg
          by_cases g1 : f k seg > 0
          · simp only [g1, if_true] at h; cases h; exact ⟨_, hk⟩
          simp only [g1, if_false] at h
          by_cases g2 : f k seg < 0
          · simp only [g2, if_true] at h; cases h; exact ⟨_, hk⟩
          simp only [g2, if_false] at h
          by_cases g3 : (c'.mach.eof || single) = true
          · simp only [g3, if_true] at h; cases h; exact ⟨_, hk⟩
          simp only [g3] at h
          refine eachLoop_grown h ?_ hk
          simp [Mach.ids, hq, prevIds, blocksIds, Node.idss]

/-- Every node that was made is in exactly one place: with the nodes numbered in the order in which they are made,
the numbers of the nodes in the trees are those from 0 on, each once. This holds for all input, however the callback
answers. -/
theorem cypher_nodes_once {S : Source σ} {src : σ} {f : List PSeg → PSeg → Int} {cfg : Config} {only single : Bool}
    {r : Int} {last : Option Pos} {L : List PSeg}
    (h : StopsWith S src (recordingP f) [] cfg only single (.ok (r, last, L))) :
    ∃ N, (madeIn L).Perm (List.range N) := by
  obtain ⟨N, h⟩ := h
  have h := h N (Nat.le_refl _)
  exact eachLoop_grown h rfl (by rfl)

/-- The segments with their positions. -/
def placed (L : List PSeg) : List (PSeg × Nat) := L.zipIdx

theorem placed_fst (L : List PSeg) : (placed L).map (·.1) = L := List.zipIdx_map_fst 0 L

theorem placed_snd (L : List PSeg) : ((placed L).map (·.2)).Nodup := by
  rw [placed, List.zipIdx_map_snd]
  exact List.nodup_range'

theorem segIds_placed (L : List PSeg) : segIds (placed L) = madeIn L := by
  conv_rhs => rw [← placed_fst L]
  simp [segIds, madeIn, List.flatMap_map]

/-- Releasing some of the segments of a parse, in any order, while they are allocated: no function pointer is NULL,
nothing is freed twice, nothing is read after it was freed, and exactly what was allocated for them is gone. -/
theorem cypher_release {S : Source σ} {src : σ} {f : List PSeg → PSeg → Int} {cfg : Config} {only single : Bool}
    {r : Int} {last : Option Pos} {L : List PSeg}
    (h : StopsWith S src (recordingP f) [] cfg only single (.ok (r, last, L)))
    {A : List (PSeg × Nat)} (hA : A.Subperm (placed L)) {m : Cells} (hm : ∀ c ∈ segCells A, c ∈ m) :
    ∃ m', releaseAll A m = .ok m' ∧ ∀ c, c ∈ m' ↔ c ∈ m ∧ c ∉ segCells A := by
  obtain ⟨N, hN⟩ := cypher_nodes_once h
  obtain ⟨A', hp, hs⟩ := hA
  have hk : (A.map (·.2)).Nodup := (hp.map _).nodup_iff.1 ((placed_snd L).sublist (hs.map _))
  have hi : (segIds A).Nodup := by
    have h1 : (segIds A').Nodup := by
      refine List.Nodup.sublist ?_ (hN.nodup_iff.2 List.nodup_range)
      rw [← segIds_placed]
      exact hs.flatMap _
    exact (hp.flatMap_right _).nodup_iff.1 h1
  exact ⟨_, releaseAll_ok hk hi hm, fun c => by simp [List.mem_filter]⟩

/-- All segments, in any order: nothing is left. -/
theorem cypher_release_all {S : Source σ} {src : σ} {f : List PSeg → PSeg → Int} {cfg : Config} {only single : Bool}
    {r : Int} {last : Option Pos} {L : List PSeg}
    (h : StopsWith S src (recordingP f) [] cfg only single (.ok (r, last, L)))
    {A : List (PSeg × Nat)} (hA : A.Perm (placed L)) : releaseAll A (segCells (placed L)) = .ok [] := by
  have he : ∀ c, c ∈ segCells A ↔ c ∈ segCells (placed L) := fun c => (hA.flatMap_right _).mem_iff
  obtain ⟨m', h1, h2⟩ := cypher_release h hA.subperm (m := segCells (placed L)) fun c hc => (he c).1 hc
  rw [h1]
  refine congrArg _ (List.eq_nil_iff_forall_not_mem.2 fun c hc => ?_)
  obtain ⟨h3, h4⟩ := (h2 c).1 hc
  exact h4 ((he c).2 h3)

mutual
theorem everywhere_ids {P : Node → Prop} (hP : ∀ n, n.ids.Nodup → P n) : ∀ n : Node, n.ids.Nodup → Everywhere P n
  | .mk i k o a s t r ch, h => by
    refine .mk (hP _ h) ?_
    simp only [Node.ids, List.nodup_cons] at h
    exact everywhere_idss hP ch h.2
theorem everywhere_idss {P : Node → Prop} (hP : ∀ n, n.ids.Nodup → P n) : ∀ ns : List Node, (Node.idss ns).Nodup →
    ∀ n ∈ ns, Everywhere P n
  | [], _ => fun n hn => absurd hn List.not_mem_nil
  | n :: ns, h => by
    simp only [Node.idss, List.nodup_append] at h
    intro c hc
    rcases List.mem_cons.1 hc with e | hc
    · rw [e]; exact everywhere_ids hP n h.1
    · exact everywhere_idss hP ns h.2.1 c hc
end

/-- `cypher_ast_free` and `cypher_astnode_free` of any node of any tree. The first releases "an entire AST tree". The
second releases "a single AST node" and "will _not_ release the children of the node, which must then be separately
released": what is allocated for the node is freed, and the children can be freed afterwards. -/
theorem cypher_free {S : Source σ} {src : σ} {f : List PSeg → PSeg → Int} {cfg : Config} {only single : Bool}
    {r : Int} {last : Option Pos} {L : List PSeg}
    (h : StopsWith S src (recordingP f) [] cfg only single (.ok (r, last, L))) {s : PSeg} (hs : s ∈ L) {x : Node}
    (hx : x ∈ s.roots) : Everywhere (fun n => ∀ m : Cells, (∀ c ∈ n.cells, c ∈ m) →
      (∃ m', astFree n m = .ok m' ∧ ∀ c, c ∈ m' ↔ c ∈ m ∧ c ∉ n.cells) ∧
      ∃ m', astnodeFree n m = .ok m' ∧ (∀ c, c ∈ m' ↔ c ∈ m ∧ (c ∈ n.cells → c ∈ Node.cellss n.children)) ∧
        ∀ y ∈ n.children, ∃ m'', astFree y m' = .ok m'' ∧ ∀ c, c ∈ m'' ↔ c ∈ m' ∧ c ∉ y.cells) x := by
  obtain ⟨N, hN⟩ := cypher_nodes_once h
  have hn : (Node.idss s.roots).Nodup := by
    refine List.Nodup.sublist ?_ (hN.nodup_iff.2 List.nodup_range)
    exact List.sublist_flatten_of_mem (List.mem_map.2 ⟨s, hs, rfl⟩)
  refine everywhere_idss (fun n hn m hm => ⟨⟨_, astFree_ok hn hm, fun c => by simp [List.mem_filter]⟩,
    _, astnodeFree_ok hm, ?_⟩) _ hn x hx
  obtain ⟨i, k, o, a, s, t, r, ch⟩ := n
  simp only [Node.ids, List.nodup_cons] at hn
  have hout : ∀ {c : Cell}, c.owner = some i → c ∉ Node.cellss ch := fun {c} ho hm => by
    obtain ⟨j, h1, h2⟩ := Node.cellss_owner hm
    rw [ho] at h1; cases h1
    exact hn.1 h2
  have hin : ∀ c, c ∈ m.filter (· ∉ .node i :: ((Node.mk i k o a s t r ch).extraPtr.toList ++
      (Node.mk i k o a s t r ch).childrenPtr.toList)) ↔
      c ∈ m ∧ (c ∈ (Node.mk i k o a s t r ch).cells → c ∈ Node.cellss ch) := by
    intro c
    rw [List.mem_filter, decide_eq_true_eq]
    refine and_congr_right fun _ => ?_
    simp only [Node.cells, List.mem_cons, List.mem_append]
    constructor
    · intro h1 h2
      tauto
    · intro h1 h2
      have h3 : c.owner = some i := by
        rcases h2 with rfl | h2 | h2
        · rfl
        · rw [Node.extraPtr_owner h2]; rfl
        · rw [Node.childrenPtr_owner h2]; rfl
      exact hout h3 (h1 (by tauto))
  refine ⟨hin, fun y hy => ?_⟩
  have hsub : ∀ {l : List Node}, y ∈ l → ∀ c ∈ y.cells, c ∈ Node.cellss l := by
    intro l
    induction l with
    | nil => intro h; cases h
    | cons z l ih =>
      intro h c hc
      simp only [Node.cellss, List.mem_append]
      rcases List.mem_cons.1 h with rfl | h
      · exact .inl hc
      · exact .inr (ih h c hc)
  have hy' : y ∈ ch := hy
  have hyn : y.ids.Nodup := by
    have := everywhere_idss (P := fun n => n.ids.Nodup) (fun n h => h) ch hn.2 y hy'
    cases this with
    | mk h _ => exact h
  refine ⟨_, astFree_ok hyn ?_, fun c => by rw [List.mem_filter, decide_eq_true_eq]⟩
  intro c hc
  refine (hin c).2 ⟨hm c ?_, fun _ => hsub hy' c hc⟩
  simp only [Node.cells, List.mem_cons, List.mem_append]
  exact .inr (.inr (.inr (hsub hy' c hc)))

/-! ## Examples -/

/-- What is allocated for all segments, and what is left after they are released. -/
def memoryOf (L : List PSeg) : Nat × Except MemFault Cells :=
  ((segCells (placed L)).length, releaseAll (placed L) (segCells (placed L)))

/-- Nodes with a second array, and a segment with an error: 35 allocations, all freed. -/
example : ∃ L, YieldsP streamSource (ascii "USING PERIODIC COMMIT RETURN 1<2;CALL a(b);x;") plainCfg false L ∧
    memoryOf L = (35, .ok []) := by
  obtain ⟨L, h1, h2⟩ := yields_of_test (S := streamSource)
    (src := ascii "USING PERIODIC COMMIT RETURN 1<2;CALL a(b);x;") (cfg := plainCfg) (only := false) (fuel := 300)
    (fun (L : List PSeg) => decide (memoryOf L = (35, .ok []))) (by decide +kernel)
  exact ⟨L, h1, of_decide_eq_true h2⟩

/-- A node that is in two places is freed twice. -/
example : let n := Node.mk 0 .trueLiteral [] [] [] [] ⟨⟨1, 1, 0⟩, ⟨1, 5, 4⟩⟩ []
    vFree (some (.roots 0)) [n, n] (.roots 0 :: Node.cellss [n, n]) = .error .useAfterFree := by decide

/-- A node that is released twice. -/
example : let n := Node.mk 0 .trueLiteral [] [] [] [] ⟨⟨1, 1, 0⟩, ⟨1, 5, 4⟩⟩ []
    n.release [] = .error .doubleFree := by decide

end Verif
