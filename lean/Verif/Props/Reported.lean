import Verif.Cypher.Blame
import Verif.Props.AgreeAll
/-!
# C52: text that is skipped is reported

An error node stands for text that the parser skipped (parser.leg:32, 44, 148, 1066-1091). A segment with one should have an error.
-/
namespace Verif.Stmts
open Verif.Peg Verif.Cypher Verif.Cypher.Scan

variable {σ : Type}

/-- Some text of the segment was skipped: there is an error node in one of its trees. -/
def Skipped (s : PSeg) : Prop := ∃ n ∈ s.roots, ¬ Everywhere (fun x => x.ty ≠ .error) n

theorem recorded_prefix {S : Source σ} {f : List PSeg → PSeg → Int} {rule : Rule} {single : Bool} {fuel : Nat} :
    ∀ {n : Nat} {c : PCtx σ} {ordinal : Nat} {last : Option Pos} {acc : List PSeg} {r : Ret (List PSeg)},
    eachLoop S (recordingP f) rule single fuel n c ordinal last acc = some (.ok r) → acc <+: r.2.2
  | 0, _, _, _, _, _, h => by cases h
  | n + 1, c, ordinal, last, acc, r, h => by
    unfold eachLoop at h
    split at h
    · cases h
    · cases h
    · split at h
      · split at h
        · cases h; exact List.prefix_rfl
        · cases h
      · split at h
        · cases h
        · split at h
          · cases h
          · rename_i a _ _ _ stop _ _ top bs _
            generalize hs : PSeg.mk ordinal ⟨a.st.off, stop⟩ a.st.errs.errors top.children a.mach.result a.mach.eof = sg at h
            by_cases h1 : f acc sg > 0
            · simp only [recordingP, h1, if_true] at h
              cases h; exact List.prefix_append ..
            · by_cases h2 : f acc sg < 0
              · simp only [recordingP, h1, h2, if_true, if_false] at h
                cases h; exact List.prefix_append ..
              · by_cases h3 : (a.mach.eof || single) = true
                · simp only [recordingP, h1, h2, h3, if_true, if_false] at h
                  cases h; exact List.prefix_append ..
                · simp only [recordingP, h1, h2, h3, if_false] at h
                  exact (List.prefix_append ..).trans (recorded_prefix h)

/-- The first segment that is reported, whatever the source of the text, the callback and the flags: if text was skipped there is
an error. What is missing are the segments after it, for which it is false (`skipped_unreported`). -/
theorem skipped_reported_partial {S : Source σ} {src : σ} {f : List PSeg → PSeg → Int} {cfg : Config} {only single : Bool}
    {ret : Int} {last : Option Pos} {seg : PSeg} {L : List PSeg}
    (h : StopsWith S src (recordingP f) [] cfg only single (.ok (ret, last, seg :: L))) (hs : Skipped seg) : seg.errors ≠ [] := by
  obtain ⟨N, h⟩ := h
  have h := h (N + 1) (by omega)
  unfold parseEach eachLoop at h
  have hr : (bif only then Rule.r_statement else .r_directive) = startRule only := by cases only <;> rfl
  rw [hr] at h
  split at h
  · cases h
  · cases h
  · rename_i c hc
    have key := parseOne_reports hc (Nat.zero_le _) ⟨nofun, fun b hb n hn => by
      rw [List.mem_singleton.1 hb] at hn; cases hn⟩
    split at h
    · split at h
      · cases h
      · cases h
    · split at h
      · cases h
      · split at h
        · cases h
        · rename_i stop _ _ top bs hb
          generalize hg : PSeg.mk cfg.ordinal ⟨c.st.off, stop⟩ c.st.errs.errors top.children c.mach.result c.mach.eof = sg at h
          have fin : seg = sg → seg.errors ≠ [] := by
            rintro rfl
            subst hg
            rcases key with key | key
            · exact key
            · obtain ⟨n, hn, hx⟩ := hs
              exact absurd (key top (hb ▸ List.mem_cons_self ..) n hn) hx
          by_cases h1 : f [] sg > 0
          · simp only [recordingP, h1, if_true] at h
            cases h; exact fin rfl
          · by_cases h2 : f [] sg < 0
            · simp only [recordingP, h1, h2, if_true, if_false] at h
              cases h; exact fin rfl
            · by_cases h3 : (c.mach.eof || single) = true
              · simp only [recordingP, h1, h2, h3, if_true, if_false] at h
                cases h; exact fin rfl
              · simp only [recordingP, h1, h2, h3, if_false] at h
                obtain ⟨t, ht⟩ := recorded_prefix h
                exact fin (List.cons.inj ht).1.symm

/-- With the flag CYPHER_PARSE_SINGLE there is one segment at most, so all that is skipped is reported. -/
theorem skipped_reported_single {S : Source σ} {src : σ} {f : List PSeg → PSeg → Int} {cfg : Config} {only : Bool}
    {ret : Int} {last : Option Pos} {L : List PSeg}
    (h : StopsWith S src (recordingP f) [] cfg only true (.ok (ret, last, L))) : ∀ seg ∈ L, Skipped seg → seg.errors ≠ [] := by
  have hl : L.length ≤ 1 := by
    obtain ⟨N, h⟩ := h
    have h := h (N + 1) (by omega)
    unfold parseEach eachLoop at h
    simp only [recordingP, Bool.or_true, if_true] at h
    repeat' split at h
    all_goals first | (cases h; done) | (cases h; simp)
  match L, hl, h with
  | [], _, _ => exact nofun
  | [x], _, h =>
    intro seg hm hs
    rw [List.mem_singleton.1 hm] at hs ⊢
    exact skipped_reported_partial h hs

/-- It is false of later segments: the parameter in `CYPHER a=/*b` is tried as a comment first, and the end of the comment is
expected at the end of the text. `cp_et_clear_potentials` forgets what was expected but not where (errors.h:61-64), so for the next
statement nothing is expected before that point (errors.c:79-83), no error is made of it, and ` foo` is skipped without one. -/
theorem skipped_unreported :
    ∃ L, YieldsP streamSource (ascii "CYPHER a=/*b RETURN 1; foo") plainCfg true L ∧ ∃ seg ∈ L, Skipped seg ∧ seg.errors = [] := by
  obtain ⟨L, h1, h2⟩ := yields_of_test (S := streamSource) (src := ascii "CYPHER a=/*b RETURN 1; foo") (cfg := plainCfg) (only := true)
    (fuel := 150) (fun L => L.any fun s => s.errors.isEmpty && s.roots.any fun n => n.ty == .error) (by decide +kernel)
  simp only [List.any_eq_true, Bool.and_eq_true, List.isEmpty_iff, beq_iff_eq] at h2
  obtain ⟨seg, hm, he, n, hn, ht⟩ := h2
  exact ⟨L, h1, seg, hm, ⟨n, hn, fun hx => by cases hx with | mk hx _ => exact hx ht⟩, he⟩

/-- The same text after a statement without the option is reported. -/
example : ∃ L, YieldsP streamSource (ascii "RETURN 1; foo") plainCfg true L ∧
    L.map (fun s => (s.range.stop.offset, s.errors.length, s.roots.any fun n => n.ty == .error)) =
      [(9, 0, false), (13, 1, true)] := by
  obtain ⟨L, h1, h2⟩ := yields_of_test (S := streamSource) (src := ascii "RETURN 1; foo") (cfg := plainCfg) (only := true)
    (fuel := 150) (fun L => L.map (fun s => (s.range.stop.offset, s.errors.length, s.roots.any fun n => n.ty == .error)) ==
      [(9, 0, false), (13, 1, true)]) (by decide +kernel)
  exact ⟨L, h1, by simpa using h2⟩
/-- A first segment with skipped text. -/
example : ∃ seg L, YieldsP streamSource (ascii "foo; RETURN 1") plainCfg true (seg :: L) ∧ Skipped seg ∧ seg.errors ≠ [] := by
  obtain ⟨L, h1, h2⟩ := yields_of_test (S := streamSource) (src := ascii "foo; RETURN 1") (cfg := plainCfg) (only := true)
    (fuel := 150) (fun L => L.head?.any fun s => s.roots.any fun n => n.ty == .error) (by decide +kernel)
  match L, h1, h2 with
  | seg :: L, h1, h2 =>
    simp only [List.head?_cons, Option.any_some, List.any_eq_true, beq_iff_eq] at h2
    obtain ⟨n, hn, ht⟩ := h2
    have hs : Skipped seg := ⟨n, hn, fun hx => by cases hx with | mk hx _ => exact hx ht⟩
    obtain ⟨last, h1'⟩ := h1
    exact ⟨seg, L, ⟨last, h1'⟩, hs, skipped_reported_partial h1' hs⟩

end Verif.Stmts
