import Verif.Cypher.Handover
import Verif.Props.Memory
/-!
# C49: no memory is lost on the way from the parser to the result

Whatever allocation fails in `parse`, `parse_each` (outside of `parse_one`), `cypher_parse_segment` and
`cp_result_merge_segment`: either a result is returned that has everything the segments had, and freeing it frees
everything once, or NULL is returned and nothing is left. The exception are the first two vectors: if these cannot be
allocated, `cp_vector_push` writes through NULL.
-/
namespace Verif.Handover
open Verif Verif.Cypher Verif.Peg

variable {σ : Type} {ask : Nat → Bool}

/-- What the caller of `cypher_parse` may rely on: NULL is returned exactly if an allocation failed, and then nothing
is left; otherwise the result has all errors, trees and directives of the segments in order, and after it was freed
nothing is left. -/
def Tidy (ask : Nat → Bool) (L : List PSeg) (t : Nat) (x : Except MemFault (Option Res × Mem)) : Prop :=
  ∃ o m, x = .ok (o, m) ∧ (o = none ↔ ∃ i, t ≤ i ∧ i < m.tick ∧ ask i = false) ∧
    match o with
    | none => m.cells = []
    | some r => r.errs.map (·.err) = L.flatMap (·.errors) ∧ r.roots = L.flatMap (·.roots) ∧
        r.directives = L.flatMap (·.directive.toList) ∧
        (r.eof = true ↔ ∃ s ∈ L, s.eof = true ∧ (s.directive.isSome ∨ s.errors ≠ [])) ∧
        r.free m = .ok ⟨m.tick, []⟩

/-- The first elements of `line_start_offsets` and of `blocks` are to be added, and there is no memory for them. -/
def NoRoom (ask : Nat → Bool) (t : Nat) : Prop :=
  ask t = true ∧ (ask (t + 1) = false ∨ ask (t + 1) = true ∧ ask (t + 2) = true ∧ ask (t + 3) = false)

theorem tags_errs : ∀ {L : List PSeg} {k : Nat}, (tags k L).map (·.err) = L.flatMap (·.errors)
  | [], _ => rfl
  | s :: ss, k => by simp [tags, tag_errs, tags_errs]

theorem eofsAfter_iff : ∀ {L : List PSeg} {b : Bool}, eofsAfter b L = true ↔
    b = true ∨ ∃ s ∈ L, s.eof = true ∧ (s.directive.isSome ∨ s.errors ≠ [])
  | [], b => by simp [eofsAfter]
  | s :: ss, b => by
    rw [eofsAfter, eofsAfter_iff]
    simp only [Bool.or_eq_true, Bool.and_eq_true, decide_eq_true_eq, List.mem_cons, exists_eq_or_imp, or_assoc]

theorem went_iff {a b : Nat} : ¬ Went ask a b ↔ ∃ i, a ≤ i ∧ i < b ∧ ask i = false := by
  unfold Went
  simp

theorem Own.nil {h : Cells} (ho : Own h []) : h = [] := List.perm_nil.1 ho.1

theorem own_start : Own [] [] := ⟨.refl _, List.nodup_nil⟩

theorem Res.start_fits : Res.start.Fits := ⟨.inl ⟨rfl, rfl⟩, .inl ⟨rfl, rfl⟩, .inl ⟨rfl, rfl⟩, Nat.le_refl _⟩

/-- The run up to the loop, when the two vectors can be had. -/
theorem begin_ok {checked : Bool} {L : List PSeg} {t : Nat} (hn : (madeIn L).Nodup)
    (h : checked = true ∨ ¬ NoRoom ask t) (h0 : ask t = true) : Tidy ask L t (parse ask checked L ⟨t, []⟩) := by
  unfold parse alloc
  simp only [h0, if_true]
  unfold begin_ firstPush alloc
  simp only
  have w0 : Went ask t (t + 1) := went_succ.2 h0
  by_cases h1 : ask (t + 1)
  · simp only [h1, if_true, Bind.bind, Except.bind]
    have w1 : Went ask t (t + 2) := (went_trans (by omega) (by omega)).2 ⟨w0, went_succ.2 h1⟩
    by_cases h2 : ask (t + 1 + 1)
    · simp only [h2, if_true]
      have w2 : Went ask t (t + 3) := (went_trans (by omega) (by omega)).2 ⟨w1, went_succ.2 h2⟩
      by_cases h3 : ask (t + 1 + 1 + 1)
      · simp only [h3, if_true]
        have w3 : Went ask t (t + 4) := (went_trans (by omega) (by omega)).2 ⟨w2, went_succ.2 h3⟩
        obtain ⟨c, hc⟩ : ∃ c : Ctx, c = ⟨some .lines, some .blocks, some (.block 0), Ctx.start.children, Ctx.start.noted, Ctx.start.errs⟩ := ⟨_, rfl⟩
        have hcf : c.Fits := by rw [hc]; exact ⟨rfl, rfl, rfl, .inl ⟨rfl, rfl⟩⟩
        obtain ⟨ok, c', r', m', e, t1, w, f1, f2, o1, q⟩ := each_ok (ask := ask) (L := L) (k := 0) (c := c) (r := .start)
          (m := ⟨t + 1 + 1 + 1 + 1, [.blocks, .block 0, .lines, .result]⟩) hcf (by rw [hc]; rfl) (by rw [hc]; rfl)
          Res.start_fits (by simp [Res.start]) (by simpa [Res.start, Node.idss, madeIn] using hn)
          ⟨by rw [hc]; show List.Perm [Cell.blocks, .block 0, .lines, .result] _; decide,
            by show List.Nodup [Cell.blocks, .block 0, .lines, .result]; decide⟩
        rw [← hc]
        have t1 : t + 4 ≤ m'.tick := t1
        have w : ok = true ↔ Went ask (t + 4) m'.tick := w
        simp only [e]
        obtain ⟨h5, e5, o5⟩ := Ctx.cleanup_ok (a := [.result] ++ r'.parts) f1 (o1.to (by perm))
        simp only [e5]
        obtain ⟨h6, e6, o6⟩ := Res.free_ok (m := ⟨m'.tick, h5⟩) (a := []) f2 (o5.to (by perm))
        have hw : ok = true ↔ Went ask t m'.tick := by
          rw [went_trans (b := t + 4) (by omega) t1, ← w]
          exact ⟨fun h => ⟨w3, h⟩, fun h => h.2⟩
        cases ok with
        | false =>
          simp only [e6]
          refine ⟨none, _, rfl, ?_, o6.nil⟩
          rw [← went_iff, ← hw]; simp
        | true =>
          refine ⟨some r', _, rfl, ?_, ?_⟩
          · rw [← went_iff, ← hw]; simp
          · obtain ⟨q1, q2, q3, q4⟩ := q rfl
            refine ⟨by rw [q1, List.map_append, tags_errs]; rfl, by rw [q2]; rfl, by rw [q3]; rfl, ?_, ?_⟩
            · rw [q4, eofsAfter_iff]; simp [Res.start]
            · rw [e6, o6.nil]
      · have hch : checked = true := h.resolve_right fun hN => hN ⟨h0, .inr ⟨h1, h2, by simpa using h3⟩⟩
        simp only [h3, hch]
        refine ⟨none, ⟨t + 4, []⟩, rfl, ?_, rfl⟩
        simp only [true_iff]
        exact ⟨t + 3, by omega, by simp, by simpa using h3⟩
    · simp only [h2]
      refine ⟨none, ⟨t + 3, []⟩, rfl, ?_, rfl⟩
      simp only [true_iff]
      exact ⟨t + 2, by omega, by simp, by simpa using h2⟩
  · have hch : checked = true := h.resolve_right fun hN => hN ⟨h0, .inl (by simpa using h1)⟩
    simp only [h1, hch]
    refine ⟨none, ⟨t + 2, []⟩, rfl, ?_, rfl⟩
    simp only [true_iff]
    exact ⟨t + 1, by omega, by simp, by simpa using h1⟩

theorem parse_tidy {checked : Bool} {L : List PSeg} {t : Nat} (hn : (madeIn L).Nodup)
    (h : checked = true ∨ ¬ NoRoom ask t) : Tidy ask L t (parse ask checked L ⟨t, []⟩) := by
  by_cases h0 : ask t
  · exact begin_ok hn h h0
  · refine ⟨none, ⟨t + 1, []⟩, ?_, ?_, rfl⟩
    · simp [parse, alloc, h0]
    · simp only [true_iff]
      exact ⟨t, Nat.le_refl _, by simp, by simpa using h0⟩

/-- The code, for every text, every configuration and every outcome of the allocations: tidy, unless there is no room
for the first element of one of the two vectors. The full property is the same without `hr`; the code violates it
(`parse_undefined`). -/
theorem parse_tidy_partial {S : Source σ} {src : σ} {f : List PSeg → PSeg → Int} {cfg : Config} {only single : Bool}
    {r : Int} {last : Option Pos} {L : List PSeg}
    (h : StopsWith S src (recordingP f) [] cfg only single (.ok (r, last, L)))
    (ask : Nat → Bool) (t : Nat) (hr : ¬ NoRoom ask t) : Tidy ask L t (parse ask false L ⟨t, []⟩) := by
  obtain ⟨N, hN⟩ := cypher_nodes_once h
  exact parse_tidy (hN.nodup_iff.2 List.nodup_range) (.inr hr)

/-- The code is undefined exactly if there is no room for the first element of one of the two vectors. -/
theorem parse_undefined {S : Source σ} {src : σ} {f : List PSeg → PSeg → Int} {cfg : Config} {only single : Bool}
    {r : Int} {last : Option Pos} {L : List PSeg}
    (h : StopsWith S src (recordingP f) [] cfg only single (.ok (r, last, L)))
    (ask : Nat → Bool) (t : Nat) : parse ask false L ⟨t, []⟩ = .error .nullWrite ↔ NoRoom ask t := by
  constructor
  · intro he
    by_contra hr
    obtain ⟨o, m, e, -⟩ := parse_tidy_partial h ask t hr
    rw [he] at e; cases e
  · rintro ⟨h0, h1 | ⟨h1, h2, h3⟩⟩
    · simp [parse, begin_, firstPush, alloc, h0, h1, Bind.bind, Except.bind]
    · simp [parse, begin_, firstPush, alloc, h0, h1, h2, h3, Bind.bind, Except.bind]

/-- With a `cp_vector_push` that tests the pointer it got: tidy in all cases. -/
theorem parse_repaired {S : Source σ} {src : σ} {f : List PSeg → PSeg → Int} {cfg : Config} {only single : Bool}
    {r : Int} {last : Option Pos} {L : List PSeg}
    (h : StopsWith S src (recordingP f) [] cfg only single (.ok (r, last, L)))
    (ask : Nat → Bool) (t : Nat) : Tidy ask L t (parse ask true L ⟨t, []⟩) := by
  obtain ⟨N, hN⟩ := cypher_nodes_once h
  exact parse_tidy (hN.nodup_iff.2 List.nodup_range) (.inl rfl)

/-! ## Examples -/

/-- The outcomes if just the `i`-th allocation fails, or none: whether NULL is returned, and how many allocations are
left. -/
def outcomes (L : List PSeg) (n : Nat) : List (Option (Bool × Nat)) :=
  (List.range n).map fun i =>
    match parse (fun j => j ≠ i) false L ⟨0, []⟩ with
    | .error _ => none
    | .ok (o, m) => some (o.isNone, m.cells.length)

/-- Three segments, the last with an error: 16 allocations are made on the way. If one of them fails, NULL is returned
and nothing is left, except that the second and the fourth may not fail. If none fails, 32 allocations belong to the
result. -/
example : ∃ L, YieldsP streamSource (ascii "USING PERIODIC COMMIT RETURN 1<2;CALL a(b);x;") plainCfg false L ∧
    outcomes L 17 = [some (true, 0), none, some (true, 0), none] ++ List.replicate 12 (some (true, 0)) ++
      [some (false, 32)] := by
  obtain ⟨L, h1, h2⟩ := yields_of_test (S := streamSource)
    (src := ascii "USING PERIODIC COMMIT RETURN 1<2;CALL a(b);x;") (cfg := plainCfg) (only := false) (fuel := 300)
    (fun (L : List PSeg) => decide (outcomes L 17 = [some (true, 0), none, some (true, 0), none] ++
      List.replicate 12 (some (true, 0)) ++ [some (false, 32)])) (by decide +kernel)
  exact ⟨L, h1, of_decide_eq_true h2⟩

/-- A segment that is released after only its errors were merged: the errors belong to the result, the root is freed. -/
example :
    let n := Node.mk 0 .trueLiteral [] [] [] [] ⟨⟨1, 1, 0⟩, ⟨1, 5, 4⟩⟩ []
    let e : TErr := ⟨0, 0, ⟨⟨1, 1, 0⟩, [], none⟩⟩
    let g : Seg := ⟨0, [e], some (.errors 0), [n], some (.roots 0), none, true⟩
    (do
      let ((ok, r, g), m) ← merge (fun i => i = 0) .start g
        ⟨0, [.result, .segment 0, .errors 0, .message 0 0, .roots 0, .node 0]⟩
      let m ← g.release m
      pure (ok, r.errs.length, r.roots.length, r.eof, m.cells)) =
    .ok (false, 1, 0, true, [.resErrors, .result, .message 0 0]) := by decide

end Verif.Handover
