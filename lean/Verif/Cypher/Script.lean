import Verif.Cypher.Quiet
import Verif.Cypher.Layout
import Verif.Props.Cypher
/-!
# Texts that are parsed without errors

If one directive after the other is matched quietly, `parse_each` yields a segment without errors for each of them.
-/
namespace Verif.Cypher
open Verif.Peg

variable {σ : Type}

/-- What was recorded ends with a statement that is made the result. -/
def Sets (ts : List (Peg.Thunk Act)) : Prop :=
  ∃ p1 p2 p3 n1 n2 args rest, ts = .act .finished p1 :: .pop n1 :: .act (.result (some 0)) p2 :: .set 0 :: .pop n2 ::
    .act (.build .self .statement args) p3 :: rest
/-- Nothing recorded makes a node the result. -/
def Still (ts : List (Peg.Thunk Act)) : Prop := ∀ i p, .act (.result (some i)) p ∉ ts

theorem exec_sets {env : Env} {ts : List (Peg.Thunk Act)} {m m' : Mach} (h : Sets ts) (he : Mach.exec env ts m = .ok m') :
    m'.result.isSome = true := by
  obtain ⟨p1, p2, p3, n1, n2, args, rest, rfl⟩ := h
  obtain ⟨m1, he, g1⟩ := exec_cons he
  obtain ⟨m2, he, g2⟩ := exec_cons he
  obtain ⟨m3, he, g3⟩ := exec_cons he
  obtain ⟨m4, he, g4⟩ := exec_cons he
  obtain ⟨m5, he, g5⟩ := exec_cons he
  obtain ⟨m6, he, g6⟩ := exec_cons he
  obtain ⟨vs, -, g6⟩ := bind_ok g6
  obtain ⟨⟨m7, r⟩, -, g6⟩ := bind_ok g6
  simp only [Mach.assign] at g6
  cases g6
  have h5 : m4.self = some r := by
    simp only [Mach.step] at g5
    split at g5
    · cases g5
    · cases g5; rfl
  have h4 : m3.getVar 0 = .ok (some r) := by
    simp only [Mach.step, Mach.setVar, h5] at g4
    split at g4
    · cases g4
    · split at g4
      · rename_i hlt
        cases g4
        simp [Mach.getVar, List.getElem?_set, hlt]
      · cases g4
  have h3 : m2.result = some r := by
    simp only [Mach.step, Mach.act, h4] at g3
    cases g3; rfl
  have h2 : m1.result = some r := by
    simp only [Mach.step] at g2
    split at g2
    · cases g2
    · cases g2; exact h3
  obtain ⟨es, -, g1⟩ := bind_ok g1
  cases g1
  show m1.result.isSome = true
  rw [h2]; rfl

/-- No rule called makes a node the result. -/
def mute (T : Rule → Bool) : E → Bool
  | .seq a b | .alt a b => mute T a && mute T b
  | .star a | .onfail a _ => mute T a
  | .act (.result (some _)) => false
  | .nt r _ => T r
  | _ => true

theorem Sk.mute {w : List UInt8} {T : Rule → Bool} (hT : ∀ r, T r = true → mute T (grammar r).body = true) {e : E} {p : Nat}
    {q : QState} {r : SkRes} (h : Sk w e p q r) : mute T e = true → ∀ p' ts q', r = .ok p' ts q' → Still ts := by
  have app : ∀ {a b : List (Peg.Thunk Act)}, Still a → Still b → Still (a ++ b) := by
    intro a b ha hb i p hm
    rcases List.mem_append.1 hm with h | h
    · exact ha i p h
    · exact hb i p h
  induction h with
  | eps => rintro - _ _ _ ⟨⟩ i p h; cases h
  | one_ok => rintro - _ _ _ ⟨⟩ i p h; cases h
  | str_ok => rintro - _ _ _ ⟨⟩ i p h; cases h
  | star_end => rintro - _ _ _ ⟨⟩ i p h; cases h
  | peek_ok => rintro - _ _ _ ⟨⟩ i p h; cases h
  | npeek_no => rintro - _ _ _ ⟨⟩ i p h; cases h
  | @pred_ok x => rintro - _ _ _ ⟨⟩ i p h; cases x <;> simp [recT] at h
  | @nt_ok r v _ _ _ _ _ _ ih =>
    rintro h _ _ _ ⟨⟩
    refine app ?_ (app ?_ (app (ih (hT r h) _ _ _ rfl) ?_))
    · intro i p h; cases v <;> simp [setT] at h
    · intro i p h; unfold leaveT at h; split at h <;> simp at h
    · intro i p h; unfold enterT at h; split at h <;> simp at h
  | seq_ok _ _ ih1 ih2 =>
    rintro h _ _ _ ⟨⟩
    simp only [Cypher.mute, Bool.and_eq_true] at h
    exact app (ih2 h.2 _ _ _ rfl) (ih1 h.1 _ _ _ rfl)
  | alt_ok _ ih =>
    intro h
    simp only [Cypher.mute, Bool.and_eq_true] at h
    exact ih h.1
  | alt_no _ _ _ ih =>
    intro h
    simp only [Cypher.mute, Bool.and_eq_true] at h
    exact ih h.2
  | star_more _ _ ih1 ih2 =>
    rintro h _ _ _ ⟨⟩
    exact app (ih2 h _ _ _ rfl) (ih1 h _ _ _ rfl)
  | @act a =>
    rintro h _ _ _ ⟨⟩ i p hm
    simp only [List.mem_singleton, Peg.Thunk.act.injEq] at hm
    obtain ⟨rfl, -⟩ := hm
    simp [Cypher.mute] at h
  | onfail_ok _ ih => exact ih
  | one_no => rintro - _ _ _ ⟨⟩
  | str_no => rintro - _ _ _ ⟨⟩
  | nt_no => rintro - _ _ _ ⟨⟩
  | seq_no => rintro - _ _ _ ⟨⟩
  | seq_no2 => rintro - _ _ _ ⟨⟩
  | peek_no => rintro - _ _ _ ⟨⟩
  | npeek_ok => rintro - _ _ _ ⟨⟩
  | pred_no => rintro - _ _ _ ⟨⟩
  | onfail_no => rintro - _ _ _ ⟨⟩

/-- The start rule matches the first `n` bytes quietly; `k`: it gives a directive. -/
def Gives (only : Bool) (w : List UInt8) (n : Nat) (k : Bool) : Prop := ∀ op ps, ∃ op' ts,
  Hush w (.nt (startRule only) none) 0 (op, ps) (.ok n ts (op', ps)) ∧ (k = true → Sets ts) ∧ (k = false → Still ts)

/-- The text is pieces, each of which the start rule matches quietly, and those of which this is said give a directive. `Q`
holds of every piece and what follows it. -/
inductive Script (Q : Bool → List UInt8 → List UInt8 → Prop) (only : Bool) : List Bool → List UInt8 → Prop
  | nil : Script Q only [] []
  | cons {k ks s w} : s ≠ [] → Q k s w → Gives only (s ++ w) s.length k → Script Q only ks w → Script Q only (k :: ks) (s ++ w)

/-- The segments are these pieces, from a position on. -/
inductive Cut (Q : Bool → List UInt8 → List UInt8 → Prop) : Pos → List UInt8 → List PSeg → Prop
  | nil {p} : Cut Q p [] []
  | cons {p s w seg L} : s ≠ [] → Q seg.directive.isSome s w → seg.range.stop = p.after s → Cut Q (p.after s) w L → Cut Q p (s ++ w) (seg :: L)

theorem Known.elim {w : List UInt8} {e : Stop} (h : Known w e) (h1 : 96 ∉ w) (h2 : ¬ Commented w) : False := by
  rcases h with h | h
  · exact h1 h.2
  · exact h2 h.2

/-- One directive. -/
theorem parseOne_quiet {S : Source σ} {D : Reader σ → List UInt8 → Prop} (hf : Feeds S D) (only : Bool)
    {w : List UInt8} {c : PCtx σ} (hi : c.reader.At D w 0) (hc : Ready c) (h1 : 96 ∉ w) (h2 : ¬ Commented w) {n : Nat}
    {k : Bool} (he : Gives only w n k) :
    ∃ fuel0 c' roots, (∀ fuel, fuel0 ≤ fuel → parseOne S fuel (startRule only) c = some (.ok c')) ∧
      Parsed D only w c c' n roots ∧ c'.st.errs.errors = [] ∧ c'.mach.result.isSome = k := by
  obtain ⟨fuel0, r, hrun, hr⟩ := parseOne_eval hf only hi hc
  rcases hr with ⟨-, h⟩ | ⟨-, h⟩ | ⟨c', s, roots, rfl, hp, hev⟩
  · exact absurd h h1
  · exact absurd h h2
  have hra := hf.readsAs w (cpred (σ := σ))
  obtain ⟨op', ts, hh, hk1, hk2⟩ := he c.st.op c.st.precs
  obtain ⟨us, hus, hsk⟩ := Sk.of_eval hra hev hi
  have hdet := hh.sk.det hsk
  simp only [SkRes.ok.injEq] at hdet
  simp only [List.append_nil] at hus
  rw [← hdet.2.1] at hus
  have hpos : s.pos = n := hdet.1.symm
  have herr : s.g.2.errs.errors = [] := (hh.errors hra hev hi _).trans hc.fresh.errors
  refine ⟨fuel0, c', roots, hrun, hpos ▸ hp, ?_⟩
  obtain ⟨f1, hrun1⟩ := Eval.to_run hev
  have hfin : finishOne c s = .ok c' := by
    have h3 := hrun (max fuel0 f1) (by omega)
    unfold parseOne at h3
    rw [run_mono _ _ _ _ hrun1 (max fuel0 f1) (by omega)] at h3
    exact Option.some.inj h3
  unfold finishOne at hfin
  rw [herr] at hfin
  cases hex : Mach.exec ⟨s.g.2.off, s.g.2.lines, s.g.1.buf, s.pos⟩ s.thunks
      { c.mach with result := none, eof := false, frames := [], errs := [] } with
  | error x => rw [hex] at hfin; cases hfin
  | ok m =>
    rw [hex] at hfin
    have hm : m.errs = [] := by
      rcases exec_errs (by simp) hex with ⟨h, -⟩ | ⟨-, h⟩
      · exact h
      · cases hme : m.errs with
        | nil => rfl
        | cons => rw [hme] at h; cases h
    have hres : m.result.isSome = k := by
      rw [hus] at hex
      cases k with
      | true => exact exec_sets (hk1 rfl) hex
      | false => rw [exec_no_result rfl hex (hk2 rfl)]; rfl
    simp only at hfin
    split at hfin
    · split at hfin
      · cases hfin
        exact ⟨hm, hres⟩
      · cases hfin
    · cases hfin

/-- All directives. -/
theorem eachLoop_quiet {S : Source σ} {D : Reader σ → List UInt8 → Prop} (hf : Feeds S D) (only : Bool) {k : List Bool}
    {Q : Bool → List UInt8 → List UInt8 → Prop} {w : List UInt8} (hs : Script Q only k w) : ∀ (c : PCtx σ) (ordinal : Nat) (last : Option Pos) (acc : List PSeg),
    c.reader.At D w 0 → Ready c → 96 ∉ w → ¬ Commented w →
    ∃ fuel0 last' L, (∀ fuel n, fuel0 ≤ fuel → fuel0 ≤ n →
        eachLoop S (recordingP fun _ _ => 0) (startRule only) false fuel n c ordinal last acc = some (.ok (0, last', acc ++ L))) ∧
      L.map (fun seg => seg.directive.isSome) = k ∧ (∀ seg ∈ L, seg.errors = []) ∧ Cut Q c.st.off w L := by
  induction hs with
  | nil =>
    intro c ordinal last acc hi hc h1 h2
    obtain ⟨fuel1, r1, g1, g2⟩ := parseOne_spec hf only hi hc
    rcases g2 with ⟨-, hk⟩ | ⟨-, hk⟩ | ⟨c', n0, roots, rfl, hp⟩
    · exact absurd hk h1
    · exact absurd hk h2
    obtain ⟨k1, k2, k3⟩ := hp.nothing rfl
    have hz : n0 = 0 := by have := hp.len; simpa using this
    refine ⟨fuel1 + 1, last, [], fun fuel n hle hln => ?_, rfl, by simp, .nil⟩
    obtain ⟨n', rfl⟩ : ∃ n', n = n' + 1 := ⟨n - 1, by omega⟩
    unfold eachLoop
    rw [g1 fuel (by omega)]
    simp only
    rw [if_pos (by rw [hp.consumed, hz]), if_pos ⟨by rw [k1]; rfl, k2, k3⟩, List.append_nil]
  | @cons k ks s w hs hq he hrest ih =>
    intro c ordinal last acc hi hc h1 h2
    obtain ⟨fuel1, c', roots, g1, hp, herr, hres⟩ := parseOne_quiet hf only hi hc h1 h2 he
    have hw : s ++ w ≠ [] := by simp [hs]
    have hpos := hp.progress hw
    obtain ⟨stop, s1, s2, s3⟩ := hp.stop
    obtain ⟨top, t1, t2, t3⟩ := hp.blocks
    generalize hsg : (⟨ordinal, ⟨c.st.off, stop⟩, c'.st.errs.errors, roots, c'.mach.result,
      c'.mach.eof⟩ : PSeg) = seg
    have hse : seg.errors = [] := by rw [← hsg]; exact herr
    have hsk : seg.directive.isSome = k := by rw [← hsg]; exact hres
    have hst : stop = c.st.off.after s := by rw [s3 h1]; simp
    have hss : seg.range.stop = c.st.off.after s := by rw [← hsg]; exact hst
    have hunf : ∀ fuel n, fuel1 ≤ fuel →
        eachLoop S (recordingP fun _ _ => 0) (startRule only) false fuel (n + 1) c ordinal last acc =
        if c'.mach.eof then some (.ok (0, some stop, acc ++ [seg]))
        else eachLoop S (recordingP fun _ _ => 0) (startRule only) false fuel n
          ⟨c'.reader, { c'.st with errs := c'.st.errs.clearErrors, off := stop, lines := [0] },
            { c'.mach with blocks := [{ top with children := [] }] }⟩
          (ordinal + seg.toSegment.nnodes) (some stop) (acc ++ [seg]) := by
      intro fuel n hle
      conv => lhs; unfold eachLoop
      rw [g1 fuel hle]
      simp only
      rw [if_neg (by rw [hp.consumed]; omega)]
      simp only [s1, t1, t2]
      rw [hp.off, hsg]
      simp [recordingP]
    cases hfin : c'.mach.eof with
    | true =>
      have := hp.eof hfin
      have hw0 : w = [] := by
        simp only [List.length_append] at this
        exact List.eq_nil_of_length_eq_zero (by omega)
      subst hw0
      have hk : ks = [] := by
        generalize hx : ([] : List UInt8) = x at hrest
        cases hrest with
        | nil => rfl
        | cons hne => simp [hne] at hx
      subst hk
      refine ⟨fuel1 + 1, some stop, [seg], fun fuel n hle hln => ?_, by simp [hsk], by simpa using hse, .cons hs (hsk ▸ hq) hss .nil⟩
      obtain ⟨n', rfl⟩ : ∃ n', n = n' + 1 := ⟨n - 1, by omega⟩
      rw [hunf _ _ (by omega), hfin, if_pos rfl]
    | false =>
      have hdrop : (s ++ w).drop s.length = w := by simp
      obtain ⟨fuel2, last', L, e1, e2, e3, e4⟩ := ih
        ⟨c'.reader, { c'.st with errs := c'.st.errs.clearErrors, off := stop, lines := [0] },
          { c'.mach with blocks := [{ top with children := [] }] }⟩
        (ordinal + seg.toSegment.nnodes) (some stop) (acc ++ [seg]) (hdrop ▸ hp.reader)
        ⟨⟨rfl, rfl, hp.labels⟩, hp.precs, ⟨_, rfl, rfl, t3⟩, hp.prev, hp.ops⟩
        (fun h => h1 (by simp [h]))
        (fun ⟨p, h⟩ => h2 ⟨s.length + p, by
          have : ∀ n, (s ++ w).extract (s.length + p) (s.length + p + n) = w.extract p (p + n) := by
            intro n
            simp only [List.extract_eq_take_drop, Nat.add_sub_cancel_left]
            rw [← List.drop_drop, List.drop_left]
          rwa [this]⟩)
      refine ⟨fuel1 + fuel2 + 1, last', seg :: L, fun fuel n hle hln => ?_, by simp [e2, hsk], fun x hx => ?_, .cons hs (hsk ▸ hq) hss (hst ▸ e4)⟩
      · obtain ⟨n', rfl⟩ : ∃ n', n = n' + 1 := ⟨n - 1, by omega⟩
        rw [hunf _ _ (by omega), hfin, if_neg (by simp), e1 _ _ (by omega) (by omega)]
        simp
      · rcases List.mem_cons.1 hx with rfl | hx
        · exact hse
        · exact e3 x hx

/-- A script is parsed without errors. -/
theorem Script.yields {S : Source σ} {src : σ} {only : Bool} {k : List Bool} {w : List UInt8}
    {Q : Bool → List UInt8 → List UInt8 → Prop} (hs : Script Q only k w)
    (h : Delivers S src w) (h1 : 96 ∉ w) (h2 : ¬ Commented w) (cfg : Config) :
    ∃ L, YieldsP S src cfg only L ∧ L.map (fun seg => seg.directive.isSome) = k ∧ (∀ seg ∈ L, seg.errors = []) ∧
      Cut Q cfg.position w L := by
  obtain ⟨D, hf, hi⟩ := h
  obtain ⟨fuel0, last, L, g1, g2, g3, g4⟩ := eachLoop_quiet hf only hs (.init cfg src) cfg.ordinal none [] hi
    ⟨⟨rfl, rfl, rfl⟩, rfl, ⟨_, rfl, rfl, rfl⟩, rfl, rfl⟩ h1 h2
  exact ⟨L, ⟨last, fuel0, fun fuel hle => g1 fuel fuel hle hle⟩, g2, g3, g4⟩

end Verif.Cypher
