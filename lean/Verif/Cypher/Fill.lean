import Verif.Cypher.Shape
import Verif.Props.Cypher
/-!
# Parsing a text with a hole, to the end

`Tmpl.tree` runs a text with a hole through matching and actions. `Tmpl.parse` says that the parser,
given any text with a piece in the hole, yields one segment with the tree found.
-/
namespace Verif.Cypher
open Verif.Peg List

variable {σ : Type}

/-- What the string buffer holds after the hole. -/
def Tmpl.mark : List UInt8 := [0]

def Tmpl.mach : Mach :=
  { blocks := [⟨0, 0, ⟨0, 0, 0⟩, ⟨0, 0, 0⟩, [], []⟩], prev := none, strbuf := [], ops := [],
    self := none, frames := [], result := none, eof := false, consumed := 0, errs := [], next := 0 }

/-- The trees, what `parse_one` found and whether it saw the end, if all of the text is used. -/
def Tmpl.tree (T : Tmpl) (only : Bool) (fuel : Nat) : Option (List Node × Option Ref × Bool) :=
  match T.run fuel (.nt (startRule only) none) Tmpl.start with
  | some (.ok v) =>
    match Tmpl.exec ⟨⟨0, 0, 0⟩, [0], T.text.take v.pos, v.pos⟩ T.pre.length Tmpl.mark v.ts Tmpl.mach with
    | .ok m => match m.blocks with
      | [top] => bif v.pos == T.text.length then some (top.children, m.result, m.eof) else none
      | _ => none
    | .error _ => none
  | _ => none

/-- The actions of the piece put `s` in the string buffer and do nothing else. -/
def Piece.Runs (F : Piece) (T : Tmpl) (s : List UInt8) : Prop :=
  ∀ (env : Env) (m : Mach), (∃ rest, F.whole T = env.buf ++ rest) →
    T.pre.length + F.bytes.length ≤ env.buf.length → (∀ p, ∃ x, Mach.position env p = .ok x) →
    m.strbuf = [] → (∀ b, m.prev = some b → b.children = []) → m.blocks ≠ [] →
    ∃ p, Mach.exec env F.ts m = .ok { m with strbuf := s, prev := p } ∧
      ∀ b, p = some b → b.children = []

/-- Places in the whole text and in the template. -/
def Piece.look (F : Piece) (T : Tmpl) (hp : 0 < F.bytes.length) (base : Nat) (s : List UInt8) : Look where
  φ := F.at_ T
  mono j k h := by unfold Piece.at_; split <;> split <;> omega
  base := base
  lim := T.pre.length
  mark := Tmpl.mark
  text := s

theorem Piece.envSh {F : Piece} {T : Tmpl} {S : Source σ} {D : Reader σ → List UInt8 → Prop}
    (hF : F.Ok T S D) (s : List UInt8) (off : Pos) {lines : List Nat}
    (hl : lines = [0] ∨ lines = F.lines) {buf : List UInt8}
    (hb : ∃ rest, F.whole T = buf ++ rest) {k : Nat} (hk : F.at_ T k ≤ buf.length) :
    EnvSh (F.look T hF.pos off.offset s) ⟨⟨0, 0, 0⟩, [0], T.text.take k, k⟩
      ⟨off, lines, buf, F.at_ T k⟩ := by
  refine ⟨rfl, rfl, fun p => ?_, rfl, fun j hj => ?_, fun i j hij hj hlim => ?_⟩
  · have : ∃ x, inputPosition off lines p = .ok x := by
      unfold inputPosition
      have : backtrackL p lines ≠ [] := by
        rcases hl with rfl | rfl
        · simp [backtrackL]
        · exact hF.zero
      cases hb : backtrackL p lines with
      | nil => exact absurd hb this
      | cons => exact ⟨_, rfl⟩
    obtain ⟨x, hx⟩ := this
    exact ⟨x, by unfold Mach.position; simp only [hx]⟩
  · have : j ≤ k := by simp at hj; omega
    exact Nat.le_trans (hF.at_le.2 this) hk
  · obtain ⟨rest, hb⟩ := hb
    have hjk : j ≤ k := by simp at hj; omega
    have hat : ∀ n, n ≤ j - i → F.at_ T i + n = F.at_ T (i + n) := by
      intro n hn
      have := hF.pos
      unfold Piece.at_
      simp only [Piece.look] at hlim
      split <;> split <;> omega
    have hj' : F.at_ T j = F.at_ T i + (j - i) := by
      rw [hat _ (Nat.le_refl _)]; congr 1; omega
    have hjb : F.at_ T j ≤ buf.length := Nat.le_trans (hF.at_le.2 hjk) hk
    simp only [Piece.look, List.extract_eq_take_drop]
    rw [hj', Nat.add_sub_cancel_left]
    apply List.ext_getElem?
    intro n
    by_cases hn : n < j - i
    · rw [List.getElem?_take_of_lt hn, List.getElem?_take_of_lt hn, List.getElem?_drop, List.getElem?_drop,
        List.getElem?_take_of_lt (by omega), hat n (Nat.le_of_lt hn), ← hF.get, hb,
        List.getElem?_append_left]
      exact Nat.lt_of_lt_of_le (hF.at_lt.2 (by omega)) hjb
    · rw [List.getElem?_eq_none (by simp; omega), List.getElem?_eq_none (by simp; omega)]

/-- The parser on a text with a piece in the hole. -/
theorem Tmpl.parse {T : Tmpl} {only : Bool} {fuel : Nat} {ns : List Node} {res : Option Ref} {eof : Bool}
    (ht : T.tree only fuel = some (ns, res, eof)) {F : Piece} {S : Source σ} {s : List UInt8}
    (hF : ∀ D, Feeds S D → F.Ok T S D) (hs : F.Runs T s) {src : σ} (h : Delivers S src (F.whole T))
    (cfg : Config) :
    ∃ seg, YieldsP S src cfg only [seg] ∧ seg.errors = [] ∧ seg.directive = res ∧ seg.eof = eof ∧
      ∃ hp, Forall₂ (NodeSh (F.look T hp cfg.position.offset s)) ns seg.roots := by
  obtain ⟨D, hf, hi⟩ := h
  have hF := hF D hf
  unfold Tmpl.tree at ht
  split at ht
  case h_2 => cases ht
  rename_i v hv
  split at ht
  case h_2 => cases ht
  rename_i m hm
  split at ht
  case h_2 => cases ht
  rename_i top htop
  cases hc : v.pos == T.text.length <;> rw [hc] at ht <;> simp only [cond] at ht
  · cases ht
  rw [beq_iff_eq] at hc
  simp only [Option.some.injEq, Prod.mk.injEq] at ht
  obtain ⟨rfl, rfl, rfl⟩ := ht
  let c : PCtx σ := .init cfg src
  have his : F.Is T D cfg.position Tmpl.start c.reader c.st := by
    refine ⟨?_, ?_, rfl, rfl, rfl, rfl, ?_, ?_, rfl, rfl⟩
    · show (Reader.init src).At D (F.whole T) (F.at_ T 0)
      rw [show F.at_ T 0 = 0 by simp [Piece.at_]]
      exact hi
    · intro k hk; simp [Tmpl.start] at hk
    · intro _; simp [c, PCtx.init, ErrTrack.init]
    · intro h; simp [Tmpl.start] at h
  obtain ⟨r', c', hev, his'⟩ := Piece.run_sound (off := cfg.position) hF hf _ _ _ _ _ _ hv his
  have hlines : c'.lines = [0] ∨ c'.lines = F.lines := by
    have := his'.lines
    cases hp : v.past <;> rw [hp] at this
    · exact .inl this
    · exact .inr this
  have hbuf : ∃ rest, F.whole T = r'.buf ++ rest := by
    obtain ⟨rest, e, -⟩ := his'.at_.rest
    exact ⟨rest, e⟩
  have henv := Piece.envSh hF s cfg.position hlines hbuf (k := v.pos) his'.at_.pos_le
  have hat : F.at_ T v.pos = (F.whole T).length := by
    rw [hc]
    simp only [Piece.at_, Piece.whole, Tmpl.text, List.length_append, List.length_cons]
    split <;> omega
  have hlen := his'.at_.pos_le
  obtain ⟨M, hM, hsh⟩ := Tmpl.exec_sh (F := F) (T := T) (K := F.look T hF.pos cfg.position.offset s) rfl henv
    (by simp [Piece.look, Tmpl.mark])
    (fun m h1 h2 h3 => hs _ m hbuf (by
      simp only [Piece.whole, List.length_append] at hat ⊢; omega) henv.position h1 h2 h3) v.ts
    (m := Tmpl.mach)
    (m' := { c.mach with result := none, eof := false, frames := [], errs := c'.errs.errors })
    ⟨.cons ⟨by simp [Piece.look, Piece.at_], by simp [Piece.look, Piece.at_],
        by simp [Look.Px, Piece.look, Piece.at_], by simp [Look.Px, Piece.look, Piece.at_], rfl, .nil⟩ .nil,
      (fun b hb => by cases hb), by simp [Look.fill, Piece.look, Tmpl.mark, Tmpl.mach, c, PCtx.init],
      rfl, rfl, rfl, rfl, rfl, by simp [Piece.look, Piece.at_, Tmpl.mach, c, PCtx.init], rfl, his'.errors, rfl⟩
    m hm
  have hready : Ready c := ⟨⟨rfl, rfl, rfl⟩, rfl, ⟨_, rfl, rfl, rfl⟩, rfl, rfl⟩
  obtain ⟨f0, r, hrun, hr⟩ := parseOne_eval hf only (c := c) hi hready
  obtain ⟨f1, hrun1⟩ := Eval.to_run hev
  have hone : r = finishOne c ⟨F.at_ T v.pos, F.thunks T v.ts, (r', c')⟩ := by
    have h1 := hrun (max f0 f1) (by omega)
    unfold parseOne at h1
    have h2 := run_mono _ _ _ _ hrun1 (max f0 f1) (by omega)
    rw [show F.at_ T Tmpl.start.pos = 0 by simp [Tmpl.start, Piece.at_],
      show F.thunks T Tmpl.start.ts = [] by simp [Tmpl.start, Piece.thunks]] at h2
    rw [h2] at h1
    exact (Option.some.inj h1).symm
  have hok : ∃ x roots, r = .ok x ∧ Parsed D only (F.whole T) c x (F.whole T).length roots ∧ x.mach = M ∧
      x.st.errs.errors = [] := by
    have hfin : ∀ y, finishOne c ⟨F.at_ T v.pos, F.thunks T v.ts, (r', c')⟩ = y →
        (y = .error .leftover ∨ ∃ x, y = .ok x ∧ x.mach = M ∧ x.st.errs.errors = []) := by
      intro y hy
      unfold finishOne at hy
      simp only [his'.offset, hM] at hy
      split at hy
      · split at hy
        · exact .inr ⟨_, hy.symm, rfl, by
            simp [ErrTrack.clearPotentials, hsh.errs']⟩
        · exact .inl hy.symm
      · exact .inl hy.symm
    rcases hfin r hone.symm with e | ⟨x, e, hx⟩
    · rcases hr with ⟨h1, -⟩ | ⟨h1, -⟩ | ⟨_, _, _, h1, -⟩ <;> rw [e] at h1 <;> cases h1
    · rcases hr with ⟨h1, -⟩ | ⟨h1, -⟩ | ⟨c2, s2, roots, h1, h2, h3⟩ <;> rw [e] at h1 <;> cases h1
      have hs2 := Eval.det h3 hev
      simp only [Res.ok.injEq] at hs2
      rw [hs2, hat] at h2
      exact ⟨_, _, e, h2, hx⟩
  obtain ⟨x, roots, rfl, hp, hxm, hxe⟩ := hok
  obtain ⟨stop, s1, s2, s3⟩ := hp.stop
  obtain ⟨top', t1, t2, t3⟩ := hp.blocks
  have hw : F.whole T ≠ [] := by
    have := hF.pos
    intro h
    have h := congrArg List.length h
    simp only [Piece.whole, List.length_append, List.length_nil] at h
    omega
  have hpos := hp.progress hw
  subst hxm
  have htops := hsh.blocks
  rw [htop, t1] at htops
  cases htops
  rename_i htop _
  generalize hsg : (⟨cfg.ordinal, ⟨c.st.off, stop⟩, x.st.errs.errors, roots, x.mach.result,
    x.mach.eof⟩ : PSeg) = seg
  refine ⟨seg, ?_, by rw [← hsg]; exact hxe, by rw [← hsg]; exact hsh.result.symm,
    by rw [← hsg]; exact hsh.eof.symm, hF.pos, by rw [← hsg]; exact t2 ▸ htop.children⟩
  have hunf : ∀ fuel n, f0 ≤ fuel →
      eachLoop S (recordingP fun _ _ => 0) (startRule only) false fuel (n + 1) c cfg.ordinal none [] =
      if x.mach.eof then some (.ok (0, some stop, [seg]))
      else eachLoop S (recordingP fun _ _ => 0) (startRule only) false fuel n
        ⟨x.reader, { x.st with errs := x.st.errs.clearErrors, off := stop, lines := [0] },
          { x.mach with blocks := [{ top' with children := [] }] }⟩
        (cfg.ordinal + seg.toSegment.nnodes) (some stop) [seg] := by
    intro fuel n hle
    conv => lhs; unfold eachLoop
    rw [hrun fuel hle]
    simp only
    rw [if_neg (by rw [hp.consumed]; omega)]
    simp only [s1, t1, t2]
    rw [hp.off, hsg]
    simp [recordingP]
  have hpe : ∀ fuel, parseEach S src (recordingP fun _ _ => 0) [] cfg only false fuel =
      eachLoop S (recordingP fun _ _ => 0) (startRule only) false fuel fuel c cfg.ordinal none [] :=
    fun fuel => rfl
  cases hfin : x.mach.eof with
  | true =>
    refine ⟨some stop, f0 + 1, fun fuel hle => ?_⟩
    obtain ⟨n, rfl⟩ : ∃ n, fuel = n + 1 := ⟨fuel - 1, by omega⟩
    rw [hpe, hunf _ _ (by omega), hfin, if_pos rfl]
  | false =>
    obtain ⟨f2, r2, g1, g2⟩ := eachLoop_session hf only false (recordingP fun _ _ => 0) 0 []
      ⟨x.reader, { x.st with errs := x.st.errs.clearErrors, off := stop, lines := [0] },
        { x.mach with blocks := [{ top' with children := [] }] }⟩
      (cfg.ordinal + seg.toSegment.nnodes) (some stop) [seg] rfl (by simpa using hp.reader)
      ⟨⟨rfl, rfl, hp.labels⟩, hp.precs, ⟨_, rfl, rfl, t3⟩, hp.prev, hp.ops⟩
      (by
        refine ⟨?_, ?_⟩
        · simp [Mach.ids, prevIds, blocksIds, hp.prev, Node.idss]
        · simp [Mach.ids, prevIds, blocksIds, hp.prev, Node.idss])
    have hr2 : r2 = .ok (0, some stop, [seg]) := by
      have hno : ∀ {off n seg}, ¬ SegOk only x.st.errs.clearErrors.colorization [] off n seg := by
        intro off n seg h
        have h1 := h.pos
        have h2 := h.len
        simp at h2
        omega
      rcases g2 with ⟨e, rfl, hk | hk⟩ | ⟨ret, rfl, hses⟩
      · exact absurd hk.2 (by simp)
      · obtain ⟨-, p, hk | hk⟩ := hk <;> simp at hk
      · cases hses with
        | nothing => rfl
        | stopped h => exact absurd h hno
        | failed h => exact absurd h hno
        | done h => exact absurd h hno
        | next h => exact absurd h hno
    refine ⟨some stop, f0 + f2 + 1, fun fuel hle => ?_⟩
    obtain ⟨n, rfl⟩ : ∃ n, fuel = n + 1 := ⟨fuel - 1, by omega⟩
    rw [hpe, hunf _ _ (by omega), hfin, if_neg (by simp), g1 _ _ (by omega) (by omega), hr2]

end Verif.Cypher
