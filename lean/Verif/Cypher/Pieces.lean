import Verif.Cypher.Fill
import Verif.Cypher.LeafRules
/-!
# Pieces: quoted strings and backquoted names

The rules `quoted` and `escaped-symbolic-name` match every string and every name in quotes, and their
actions put the value in the string buffer.
-/
namespace Verif.Cypher
open Verif.Peg Verif.Text

variable {σ : Type}

namespace Pc

section
variable (w : List UInt8) (S : Source σ) (J : Nat → List Nat → Prop)

/-- The expression matches from `p` to `p'` with the thunks `ts` (latest first). `J` is what is known of
the line starts. -/
def Go (e : E) (p p' : Nat) (ts : List (Peg.Thunk Act)) : Prop :=
  ∀ (D : Reader σ → List UInt8 → Prop), Feeds S D → ∀ (r : Reader σ) (c : CState)
    (k : List (Peg.Thunk Act)), r.At D w p → J p c.lines →
    ∃ r' L', Eval grammar (chost S) e ⟨p, k, (r, c)⟩ (.ok ⟨p', ts ++ k, (r', { c with lines := L' })⟩) ∧
      r'.At D w p' ∧ J p' L'

/-- The expression does not match at `p`. -/
def No (e : E) (p : Nat) : Prop :=
  ∀ (D : Reader σ → List UInt8 → Prop), Feeds S D → ∀ (r : Reader σ) (c : CState)
    (k : List (Peg.Thunk Act)), r.At D w p → J p c.lines →
    ∃ r' L' q k', Eval grammar (chost S) e ⟨p, k, (r, c)⟩ (.fail ⟨q, k', (r', { c with lines := L' })⟩) ∧
      r'.At D w p ∧ J p L'
end

variable {w : List UInt8} {S : Source σ} {J : Nat → List Nat → Prop}

theorem peek_eq {D : Reader σ → List UInt8 → Prop} (hf : Feeds S D) {p : Nat} {r : Reader σ}
    (h : r.At D w p) (c : CState) : ∃ r', (chost S).peek p (r, c) = (w[p]?, (r', c)) ∧ r'.At D w p ∧
      (p < w.length → r'.At D w (p + 1)) := by
  have hr := hf.readsAs w (cpred (σ := σ))
  have h1 := hr.val (p := p) (g := (r, c)) h
  have h2 := hr.keep (p := p) (g := (r, c)) h
  have h3 := hr.next (p := p) (g := (r, c)) h
  refine ⟨((chost S).peek p (r, c)).2.1, ?_, h2, h3⟩
  rw [Prod.ext_iff]
  exact ⟨h1, Prod.ext rfl (chost_peek (S := S) (p := p) (g := (r, c)) rfl)⟩

theorem lt_of_get {p : Nat} {d : UInt8} (h : w[p]? = some d) : p < w.length := by
  rcases Nat.lt_or_ge p w.length with h' | h'
  · exact h'
  · rw [List.getElem?_eq_none h'] at h; cases h

theorem Go.one {m : CharSet} {p : Nat} {d : UInt8} (h : w[p]? = some d) (hm : m.mem d = true)
    (hJ : ∀ L, J p L → J (p + 1) L) : Go w S J (.one m) p (p + 1) [] := by
  intro D hf r c k hat hj
  obtain ⟨r', h1, -, h2⟩ := peek_eq hf hat c
  exact ⟨r', c.lines, .one_ok (h1.trans (by rw [h])) hm, h2 (lt_of_get h), hJ _ hj⟩

theorem No.one {m : CharSet} {p : Nat} (h : ∀ d, w[p]? = some d → m.mem d = false) :
    No w S J (.one m) p := by
  intro D hf r c k hat hj
  obtain ⟨r', h1, h2, -⟩ := peek_eq hf hat c
  cases hd : w[p]? with
  | none => exact ⟨r', c.lines, p, k, .one_end (h1.trans (by rw [hd])), h2, hj⟩
  | some d => exact ⟨r', c.lines, p, k, .one_no (h1.trans (by rw [hd])) (h d hd), h2, hj⟩

theorem Go.chr {p : Nat} {d : UInt8} (h : w[p]? = some d) (hJ : ∀ L, J p L → J (p + 1) L) :
    Go w S J (.chr d) p (p + 1) [] := Go.one h (by rw [single_mem]; simp) hJ

theorem No.chr {p : Nat} {d : UInt8} (h : w[p]? ≠ some d) : No w S J (.chr d) p :=
  No.one fun x hx => by
    rw [single_mem]
    have : x ≠ d := fun e => h (e ▸ hx)
    simpa using this

theorem Go.dot {p : Nat} (h : p < w.length) (hJ : ∀ L, J p L → J (p + 1) L) :
    Go w S J .dot p (p + 1) [] :=
  Go.one (List.getElem?_eq_getElem h) (any_mem _) hJ

theorem matchStr_eq {D : Reader σ → List UInt8 → Prop} (hf : Feeds S D) {start : Nat} (c : CState) :
    ∀ (l : List UInt8) (p : Nat) (r : Reader σ), start ≤ p → r.At D w p →
    ∃ b q r', matchStr (chost S) start l p (r, c) = (b, q, (r', c)) ∧ r'.At D w q ∧ start ≤ q ∧
      (b = true → q = p + l.length) ∧ (b = true ↔ ∀ i < l.length, w[p + i]? = l[i]?)
  | [], p, r, hs, h => ⟨true, p, r, rfl, h, hs, fun _ => rfl, by simp⟩
  | d :: l, p, r, hs, h => by
    obtain ⟨r', h1, h2, h3⟩ := peek_eq hf h c
    cases hd : w[p]? with
    | none =>
      rw [hd] at h1
      refine ⟨false, p, r', by simp only [matchStr, h1], h2, hs, by simp, ?_⟩
      simp only [Bool.false_eq_true, false_iff]
      intro hall
      have := hall 0 (by simp)
      rw [Nat.add_zero, hd] at this
      simp at this
    | some x =>
      rw [hd] at h1
      by_cases hx : x = d
      · subst hx
        obtain ⟨b, q, r2, g1, g2, g3, g4, g5⟩ := matchStr_eq hf (start := start) c l (p + 1) r' (by omega) (h3 (lt_of_get hd))
        refine ⟨b, q, r2, by simp only [matchStr, h1, if_true, g1], g2, g3,
          fun hb => by rw [g4 hb]; simp; omega, ?_⟩
        rw [g5]
        constructor
        · intro hall i hi
          cases i with
          | zero => simpa using hd
          | succ i =>
            have := hall i (by simpa using hi)
            rw [show p + (i + 1) = p + 1 + i by omega]
            simpa using this
        · intro hall i hi
          have := hall (i + 1) (by simpa using hi)
          rw [show p + (i + 1) = p + 1 + i by omega] at this
          simpa using this
      · refine ⟨false, start, r', by simp only [matchStr, h1, if_neg hx], ?_, Nat.le_refl _, by simp, ?_⟩
        · exact (hf.readsAs w (cpred (σ := σ))).down (p := p) (g := (r', c)) h2 hs
        · simp only [Bool.false_eq_true, false_iff]
          intro hall
          have := hall 0 (by simp)
          rw [Nat.add_zero, hd] at this
          simp at this
          exact hx this

theorem Go.str {l : List UInt8} {p : Nat} (h : ∀ i < l.length, w[p + i]? = l[i]?)
    (hJ : ∀ L, J p L → J (p + l.length) L) : Go w S J (.str l) p (p + l.length) [] := by
  intro D hf r c k hat hj
  obtain ⟨b, q, r', h1, h2, h3, h4, h5⟩ := matchStr_eq hf (start := p) c l p r (Nat.le_refl _) hat
  have hb := h5.2 h
  subst hb
  obtain rfl := h4 rfl
  exact ⟨r', c.lines, .str_ok h1, h2, hJ _ hj⟩

theorem No.str {l : List UInt8} {p : Nat} (h : ¬ ∀ i < l.length, w[p + i]? = l[i]?) :
    No w S J (.str l) p := by
  intro D hf r c k hat hj
  obtain ⟨b, q, r', h1, h2, h3, h4, h5⟩ := matchStr_eq hf (start := p) c l p r (Nat.le_refl _) hat
  cases b with
  | true => exact absurd (h5.1 rfl) h
  | false =>
    exact ⟨r', c.lines, q, k, .str_no h1,
      (hf.readsAs w (cpred (σ := σ))).down (p := q) (g := (r', c)) h2 h3, hj⟩

theorem Go.seq {a b : E} {p p1 p2 : Nat} {ts us : List (Peg.Thunk Act)} (ha : Go w S J a p p1 ts)
    (hb : Go w S J b p1 p2 us) : Go w S J (.seq a b) p p2 (us ++ ts) := by
  intro D hf r c k hat hj
  obtain ⟨r1, L1, h1, h2, h3⟩ := ha D hf r c k hat hj
  obtain ⟨r2, L2, g1, g2, g3⟩ := hb D hf r1 { c with lines := L1 } (ts ++ k) h2 h3
  exact ⟨r2, L2, by rw [List.append_assoc]; exact .seq_ok h1 g1, g2, g3⟩

theorem No.seq1 {a b : E} {p : Nat} (ha : No w S J a p) : No w S J (.seq a b) p := by
  intro D hf r c k hat hj
  obtain ⟨r1, L1, q, k', h1, h2⟩ := ha D hf r c k hat hj
  exact ⟨r1, L1, q, k', .seq_no h1, h2⟩

/-- The first part matches without moving. -/
theorem No.seq2 {a b : E} {p : Nat} {ts : List (Peg.Thunk Act)} (ha : Go w S J a p p ts)
    (hb : No w S J b p) : No w S J (.seq a b) p := by
  intro D hf r c k hat hj
  obtain ⟨r1, L1, h1, h2, h3⟩ := ha D hf r c k hat hj
  obtain ⟨r2, L2, q, k', g1, g2⟩ := hb D hf r1 { c with lines := L1 } (ts ++ k) h2 h3
  exact ⟨r2, L2, q, k', .seq_ok h1 g1, g2⟩

theorem Go.alt1 {a b : E} {p p' : Nat} {ts : List (Peg.Thunk Act)} (ha : Go w S J a p p' ts) :
    Go w S J (.alt a b) p p' ts := by
  intro D hf r c k hat hj
  obtain ⟨r1, L1, h1, h2⟩ := ha D hf r c k hat hj
  exact ⟨r1, L1, .alt_ok h1, h2⟩

theorem Go.alt2 {a b : E} {p p' : Nat} {ts : List (Peg.Thunk Act)} (ha : No w S J a p)
    (hb : Go w S J b p p' ts) : Go w S J (.alt a b) p p' ts := by
  intro D hf r c k hat hj
  obtain ⟨r1, L1, q, k', h1, h2, h3⟩ := ha D hf r c k hat hj
  obtain ⟨r2, L2, g1, g2⟩ := hb D hf r1 { c with lines := L1 } k h2 h3
  exact ⟨r2, L2, .alt_no h1 g1, g2⟩

theorem No.alt {a b : E} {p : Nat} (ha : No w S J a p) (hb : No w S J b p) : No w S J (.alt a b) p := by
  intro D hf r c k hat hj
  obtain ⟨r1, L1, q, k', h1, h2, h3⟩ := ha D hf r c k hat hj
  obtain ⟨r2, L2, q2, k2, g1, g2⟩ := hb D hf r1 { c with lines := L1 } k h2 h3
  exact ⟨r2, L2, q2, k2, .alt_no h1 g1, g2⟩

theorem Go.more {a : E} {p p1 p2 : Nat} {ts us : List (Peg.Thunk Act)} (ha : Go w S J a p p1 ts)
    (hb : Go w S J (.star a) p1 p2 us) : Go w S J (.star a) p p2 (us ++ ts) := by
  intro D hf r c k hat hj
  obtain ⟨r1, L1, h1, h2, h3⟩ := ha D hf r c k hat hj
  obtain ⟨r2, L2, g1, g2, g3⟩ := hb D hf r1 { c with lines := L1 } (ts ++ k) h2 h3
  exact ⟨r2, L2, by rw [List.append_assoc]; exact .star_more h1 g1, g2, g3⟩

theorem Go.stop {a : E} {p : Nat} (ha : No w S J a p) : Go w S J (.star a) p p [] := by
  intro D hf r c k hat hj
  obtain ⟨r1, L1, q, k', h1, h2⟩ := ha D hf r c k hat hj
  exact ⟨r1, L1, .star_end h1, h2⟩

theorem Go.npeek {a : E} {p : Nat} (ha : No w S J a p) : Go w S J (.npeek a) p p [] := by
  intro D hf r c k hat hj
  obtain ⟨r1, L1, q, k', h1, h2⟩ := ha D hf r c k hat hj
  exact ⟨r1, L1, .npeek_no h1, h2⟩

theorem No.npeek {a : E} {p p' : Nat} {ts : List (Peg.Thunk Act)} (ha : Go w S J a p p' ts)
    (hle : p ≤ p') (hJ : ∀ L, J p' L → J p L) : No w S J (.npeek a) p := by
  intro D hf r c k hat hj
  obtain ⟨r1, L1, h1, h2, h3⟩ := ha D hf r c k hat hj
  exact ⟨r1, L1, _, _, .npeek_ok h1,
    (hf.readsAs w (cpred (σ := σ))).down (p := p') (g := (r1, c)) h2 hle, hJ _ h3⟩

theorem Go.nt {x : Rule} {p p' : Nat} {ts : List (Peg.Thunk Act)} (hn : (grammar x).nvars = 0)
    (h : Go w S J (grammar x).body p p' ts) : Go w S J (.nt x none) p p' ts := by
  intro D hf r c k hat hj
  obtain ⟨r1, L1, h1, h2⟩ := h D hf r c k hat hj
  refine ⟨r1, L1, ?_, h2⟩
  have := Eval.nt_ok (G := grammar) (H := chost S) (r := x) (var := none) (s := ⟨p, k, (r, c)⟩)
    (by rw [hn]; exact h1)
  rw [hn] at this
  exact this

theorem No.nt {x : Rule} {p : Nat} (hn : (grammar x).nvars = 0) (h : No w S J (grammar x).body p) :
    No w S J (.nt x none) p := by
  intro D hf r c k hat hj
  obtain ⟨r1, L1, q, k', h1, h2⟩ := h D hf r c k hat hj
  refine ⟨r1, L1, p, k, ?_, h2⟩
  have := Eval.nt_no (G := grammar) (H := chost S) (r := x) (var := none) (s := ⟨p, k, (r, c)⟩)
    (by rw [hn]; exact h1)
  exact this

theorem Go.blockStart {p : Nat} : Go w S J (.pred .blockStart) p p [.act .blockStart p] := by
  intro D hf r c k hat hj
  exact ⟨r, c.lines, .pred_ok rfl, hat, hj⟩

theorem Go.blockEnd {p : Nat} : Go w S J (.pred .blockEnd) p p [.act .blockEnd p] := by
  intro D hf r c k hat hj
  exact ⟨r, c.lines, .pred_ok rfl, hat, hj⟩

theorem Go.act {a : Act} {p : Nat} : Go w S J (.act a) p p [.act a p] := by
  intro D hf r c k hat hj
  exact ⟨r, c.lines, .act, hat, hj⟩

theorem Go.onfail {a : E} {x : Pred} {p p' : Nat} {ts : List (Peg.Thunk Act)} (h : Go w S J a p p' ts) :
    Go w S J (.onfail a x) p p' ts := by
  intro D hf r c k hat hj
  obtain ⟨r1, L1, h1, h2⟩ := h D hf r c k hat hj
  exact ⟨r1, L1, .onfail_ok h1, h2⟩

/-! ## Effects -/

/-- What the thunks `ts` (latest first) add to the string buffer, given the text. -/
def Adds (w : List UInt8) (e : Nat) (ts : List (Peg.Thunk Act)) (s : List UInt8) : Prop :=
  ∀ (env : Env) (m : Mach), (∃ rest, w = env.buf ++ rest) → e ≤ env.buf.length →
    (∀ p, ∃ x, Mach.position env p = .ok x) → (∀ b, m.prev = some b → b.children = []) → m.blocks ≠ [] →
    ∃ p, Mach.exec env ts m = .ok { m with strbuf := m.strbuf ++ s, prev := p } ∧
      ∀ b, p = some b → b.children = []

theorem Adds.nil {e : Nat} : Adds w e [] [] := by
  intro env m _ _ _ h _
  exact ⟨m.prev, by simp [Mach.exec], h⟩

theorem Adds.append {e : Nat} {ts us : List (Peg.Thunk Act)} {s t : List UInt8} (h : Adds w e ts s)
    (h' : Adds w e us t) : Adds w e (us ++ ts) (s ++ t) := by
  intro env m h1 h2 h3 h4 h5
  obtain ⟨p, g1, g2⟩ := h env m h1 h2 h3 h4 h5
  obtain ⟨p', k1, k2⟩ := h' env { m with strbuf := m.strbuf ++ s, prev := p } h1 h2 h3 g2 h5
  refine ⟨p', ?_, k2⟩
  rw [Mach.exec_app, g1]
  simp only [Except.bind, k1, List.append_assoc]

theorem Adds.char {e p : Nat} {v : UInt8} : Adds w e [.act (.sbAppend v) p] [v] := by
  intro env m _ _ _ h _
  exact ⟨m.prev, by simp [Mach.exec, Mach.step, Mach.act, Bind.bind, Except.bind], h⟩

/-- A block and its text. -/
theorem Adds.block {e p q x : Nat} (hpq : p ≤ q) (hq : q ≤ e) :
    Adds w e [.act .sbAppendBlock x, .act .blockEnd q, .act .blockStart p] (w.extract p q) := by
  intro env m ⟨rest, hw⟩ hlen hpos hprev hbl
  obtain ⟨x1, hx1⟩ := hpos p
  obtain ⟨x2, hx2⟩ := hpos q
  have ho : x1.offset ≤ x2.offset := by
    have e1 := hx1
    have e2 := hx2
    have off : ∀ p x, Mach.position env p = .ok x → x.offset = p + env.off.offset := by
      intro p x h
      unfold Mach.position at h
      split at h
      · rename_i h1; cases h; exact inputPosition_offset h1
      · cases h
    rw [off _ _ hx1, off _ _ hx2]
    omega
  obtain ⟨b, bs, hb⟩ : ∃ b bs, m.blocks = b :: bs := by
    cases h : m.blocks with
    | nil => exact absurd h hbl
    | cons b bs => exact ⟨b, bs, rfl⟩
  have htext : env.buf.extract p q = w.extract p q := by
    rw [hw]
    simp only [List.extract_eq_take_drop]
    rw [List.drop_append_of_le_length (by omega), List.take_append_of_le_length (by simp; omega)]
  refine ⟨some ⟨p, q, x1, x2, [], []⟩, ?_, by rintro _ ⟨⟩; rfl⟩
  have hstart : Mach.blockStart env p m = .ok { m with
      blocks := ⟨p, p, x1, x1, [], []⟩ :: m.blocks, prev := none } := by
    unfold Mach.blockStart
    simp only [hx1, Bind.bind, Except.bind]
    cases hp : m.prev with
    | none => rfl
    | some b' => simp [hprev b' hp]
  have hlen' : q ≤ env.buf.length := by omega
  simp only [Mach.exec, Mach.step, Mach.act, Bind.bind, Except.bind, hstart, Mach.blockEnd, Mach.blockPop,
    hx2, hb, hpq, ho, hlen', and_self, not_true_eq_false, if_false, if_true, Mach.blockText, htext]

/-! ## Backquoted names -/

theorem Go.back {L : List Nat} {e : Nat}
    (he : w[e]? = some 96) : ∀ (n p : Nat), p + n = e → (∀ i, p ≤ i → i < e → w[i]? ≠ some 96) →
    Go w S (fun _ l => l = L) (.star (.seq (.npeek (.chr 96)) .dot)) p e []
  | 0, p, hp, _ => by
    obtain rfl : p = e := hp
    exact Go.stop (No.seq1 (No.npeek (Go.chr he fun _ h => h) (by omega) fun _ h => h))
  | n + 1, p, hp, h => by
    have hlt := lt_of_get he
    have h1 : Go w S (fun _ l => l = L) (.seq (.npeek (.chr 96)) .dot) p (p + 1) [] :=
      Go.seq (Go.npeek (No.chr (h p (Nat.le_refl _) (by omega)))) (Go.dot (by omega) fun _ h => h)
    exact Go.more h1 (Go.back he n (p + 1) (by omega) fun i h2 h3 => h i (by omega) h3)

/-- A backquoted name at `p`. -/
def backPiece (p : Nat) (s : List UInt8) : Piece :=
  ⟨96 :: (s ++ [96]), [.act .sbAppendBlock (p + s.length + 2), .act .blockEnd (p + 1 + s.length),
    .act .blockStart (p + 1)], [0]⟩

section
variable {T : Tmpl} {s : List UInt8}

theorem back_get (i : Nat) (hi : i < s.length + 2) :
    ((backPiece T.pre.length s).whole T)[T.pre.length + i]? = (96 :: (s ++ [96]))[i]? := by
  unfold Piece.whole backPiece
  simp only
  rw [List.append_assoc, List.getElem?_append_right (by omega), Nat.add_sub_cancel_left,
    List.getElem?_append_left (by simpa using hi)]

theorem back_ok (hr : T.rule = .r_escaped_symbolic_name) (hf : T.first = 96) (hs : 96 ∉ s)
    (D : Reader σ → List UInt8 → Prop) (hD : Feeds S D) : (backPiece T.pre.length s).Ok T S D := by
  refine ⟨by rw [hf]; rfl, ⟨[], rfl, by simp⟩, fun r c ts hat hl => ?_⟩
  replace hl : c.lines = [0] := by rcases hl with h | h <;> exact h
  generalize hw : (backPiece T.pre.length s).whole T = w at hat
  have hget := fun i hi => hw ▸ back_get (T := T) (s := s) i hi
  generalize T.pre.length = p at *
  have h0 : w[p]? = some 96 := by simpa using hget 0 (by omega)
  have hmid : ∀ i, p + 1 ≤ i → i < p + 1 + s.length → w[i]? ≠ some 96 := by
    intro i h1 h2 h3
    obtain ⟨j, rfl⟩ : ∃ j, i = p + (j + 1) := ⟨i - p - 1, by omega⟩
    rw [hget (j + 1) (by omega), List.getElem?_cons_succ, List.getElem?_append_left (by omega)] at h3
    exact hs (List.mem_of_getElem? h3)
  have hend : w[p + 1 + s.length]? = some 96 := by
    rw [show p + 1 + s.length = p + (s.length + 1) by omega, hget _ (by omega)]
    simp
  have hgo : Go w S (fun _ l => l = [0]) (.nt .r_escaped_symbolic_name none) p (p + 1 + s.length + 1)
      (backPiece p s).ts := by
    refine Go.nt rfl ?_
    have := Go.seq (S := S) (J := fun _ l => l = [0]) (Go.chr h0 fun _ h => h)
      (Go.seq Go.blockStart (Go.seq (Go.back hend s.length (p + 1) rfl hmid)
        (Go.seq Go.blockEnd (Go.seq (Go.onfail (x := .err 21) (Go.chr hend fun _ h => h))
          (Go.act (a := .sbAppendBlock))))))
    have e : (backPiece p s).ts = [.act .sbAppendBlock (p + 1 + s.length + 1),
        .act .blockEnd (p + 1 + s.length), .act .blockStart (p + 1)] := by
      unfold backPiece
      simp only [show p + s.length + 2 = p + 1 + s.length + 1 by omega]
    rw [e]
    exact this
  obtain ⟨r', L', h1, h2, h3⟩ := hgo D hD r c ts hat hl
  subst h3
  refine ⟨r', ?_⟩
  rw [hr, show p + (backPiece p s).bytes.length = p + 1 + s.length + 1 by simp [backPiece]; omega]
  exact h1

theorem back_runs : (backPiece T.pre.length s).Runs T s := by
  intro env m h1 h2 h3 h4 h5 h6
  have hb := Adds.block (w := (backPiece T.pre.length s).whole T) (e := T.pre.length + s.length + 2)
    (p := T.pre.length + 1) (q := T.pre.length + 1 + s.length) (x := T.pre.length + s.length + 2)
    (by omega) (by omega)
  have he : ((backPiece T.pre.length s).whole T).extract (T.pre.length + 1) (T.pre.length + 1 + s.length) = s := by
    unfold Piece.whole backPiece
    simp only [List.extract_eq_take_drop]
    rw [List.append_assoc, List.drop_append, List.drop_of_length_le (by omega)]
    simp
  rw [he] at hb
  obtain ⟨p, g1, g2⟩ := hb env m h1 (by simp [backPiece] at h2; omega) h3 h5 h6
  exact ⟨p, by rw [h4] at g1; simpa [backPiece] using g1, g2⟩

end

/-! ## Strings -/

/-- Line starts up to `p` are known, none are beyond `e`. -/
def Lines (w : List UInt8) (e p : Nat) (L : List Nat) : Prop := LInv w p L ∧ ∀ x ∈ L, x ≤ e

variable {e p : Nat}

theorem Lines.down {q : Nat} {L : List Nat} (h : Lines w e p L) (hq : q ≤ p) : Lines w e q L :=
  ⟨h.1.down hq, h.2⟩

theorem Lines.step (hp : w[p]? ≠ some 10) {L : List Nat} (h : Lines w e p L) : Lines w e (p + 1) L := by
  refine ⟨⟨h.1.sorted, h.1.sound, h.1.zero, fun q hq hle => ?_⟩, h.2⟩
  rcases Nat.lt_or_eq_of_le hle with h1 | rfl
  · exact h.1.complete q hq (by omega)
  · rcases hq with hq | ⟨x, hx, h2⟩
    · cases hq
    · obtain rfl : x = p := by omega
      exact absurd h2 hp

theorem Lines.start {p' : Nat} {L : List Nat} (h : Lines w e p L) (hp : p < p') (he : p' ≤ e)
    (hn : w[p' - 1]? = some 10) (hgap : ∀ q, p < q → q < p' → w[q - 1]? ≠ some 10) :
    Lines w e p' (lineStartL p' L) := by
  refine ⟨h.1.lineStart hp (.inr ⟨p' - 1, by omega, hn⟩) fun q h1 h2 h3 => ?_, fun x hx => ?_⟩
  · rcases h3 with rfl | ⟨y, rfl, hy⟩
    · omega
    · exact hgap _ h1 h2 hy
  · unfold lineStartL at hx
    have hb : ∀ x ∈ backtrackL p' L, x ≤ e := fun x hx => h.2 x ((List.dropWhile_suffix _).subset hx)
    simp only at hx
    split at hx
    · exact hb x hx
    · rcases List.mem_cons.1 hx with rfl | hx
      · exact he
      · exact hb x hx

/-- A line end at `p`. -/
def Eol (w : List UInt8) (p p' : Nat) : Prop :=
  (w[p]? = some 10 ∧ p' = p + 1) ∨ (w[p]? = some 13 ∧ w[p + 1]? = some 10 ∧ p' = p + 2)

theorem Go.eol {p' : Nat} (h : Eol w p p') (he : p' ≤ e) :
    Go w S (Lines w e) (.nt .r_EOL none) p p' [] := by
  refine Go.nt rfl ?_
  have ha : Go w S (fun _ => Lines w e p) (.alt (.chr 10) (.str [13, 10])) p p' [] := by
    rcases h with ⟨h, rfl⟩ | ⟨h1, h2, rfl⟩
    · exact Go.alt1 (Go.chr h fun _ h => h)
    · refine Go.alt2 (No.chr (by rw [h1]; decide)) (Go.str (l := [13, 10]) ?_ fun _ h => h)
      intro i hi
      have : i = 0 ∨ i = 1 := by simp at hi; omega
      rcases this with rfl | rfl
      · simpa using h1
      · simpa using h2
  have hlt : p < p' := by rcases h with ⟨-, rfl⟩ | ⟨-, -, rfl⟩ <;> omega
  intro D hf r c k hat hj
  obtain ⟨r1, L1, g1, g2, g3⟩ := ha D hf r c k hat hj
  refine ⟨r1, lineStartL p' L1, .seq_ok g1 ?_, g2, g3.start hlt he ?_ ?_⟩
  · have := Eval.nt_ok (G := grammar) (H := chost S) (r := .r__line_start_) (var := none)
      (s := ⟨p', [] ++ k, (r1, { c with lines := L1 })⟩) (s1 := ⟨p', k, (r1, { c with lines := lineStartL p' L1 })⟩)
      (.pred_ok (ts := []) rfl)
    exact this
  · rcases h with ⟨h, rfl⟩ | ⟨h1, h2, rfl⟩
    · simpa using h
    · simpa using h2
  · intro q h3 h4
    rcases h with ⟨h, rfl⟩ | ⟨h1, h2, rfl⟩
    · omega
    · obtain rfl : q = p + 1 := by omega
      simp [h1]

theorem No.eol {J : Nat → List Nat → Prop} (h : ∀ p', ¬ Eol w p p') : No w S J (.nt .r_EOL none) p := by
  refine No.nt rfl (No.seq1 (No.alt (No.chr fun h1 => h _ (.inl ⟨h1, rfl⟩)) (No.str fun h1 => ?_)))
  exact h _ (.inr ⟨by simpa using h1 0 (by simp), by simpa using h1 1 (by simp), rfl⟩)

/-- The alternatives of `escaped-char`. -/
def escAlt : UInt8 × UInt8 → List (UInt8 × UInt8) → E
  | x, [] => .seq (.str [92, x.1]) (.act (.sbAppend x.2))
  | x, y :: l => .alt (.seq (.str [92, x.1]) (.act (.sbAppend x.2))) (escAlt y l)

theorem Go.escAlt {J : Nat → List Nat → Prop} {d v : UInt8} (h1 : w[p]? = some 92) (h2 : w[p + 1]? = some d)
    (hJ : ∀ L, J p L → J (p + 2) L) : ∀ (x : UInt8 × UInt8) (l : List (UInt8 × UInt8)),
    (x :: l).lookup d = some v → Go w S J (escAlt x l) p (p + 2) [.act (.sbAppend v) (p + 2)] := by
  have hstr : Go w S J (.str [92, d]) p (p + 2) [] := by
    refine Go.str (l := [92, d]) ?_ hJ
    intro i hi
    have : i = 0 ∨ i = 1 := by simp at hi; omega
    rcases this with rfl | rfl
    · simpa using h1
    · simpa using h2
  have hno : ∀ x : UInt8, d ≠ x → No w S J (.str [92, x]) p := by
    intro x hx
    refine No.str fun hall => hx ?_
    have := hall 1 (by simp)
    rw [h2] at this
    simpa using this
  intro x l
  induction l generalizing x with
  | nil =>
    intro hl
    obtain ⟨a, b⟩ := x
    by_cases hd : d = a
    · subst hd
      simp at hl
      subst hl
      exact Go.seq hstr Go.act
    · simp [List.lookup, beq_false_of_ne hd] at hl
  | cons y l ih =>
    intro hl
    obtain ⟨a, b⟩ := x
    by_cases hd : d = a
    · subst hd
      simp at hl
      subst hl
      exact Go.alt1 (Go.seq hstr Go.act)
    · rw [List.lookup_cons, beq_false_of_ne hd] at hl
      exact Go.alt2 (No.seq1 (hno _ hd)) (ih y hl)

theorem No.escAlt {J : Nat → List Nat → Prop} (h : w[p]? ≠ some 92 ∨ ∀ d, w[p + 1]? = some d → escape d = none) :
    ∀ (x : UInt8 × UInt8) (l : List (UInt8 × UInt8)), (∀ y ∈ x :: l, escape y.1 ≠ none) →
    No w S J (escAlt x l) p := by
  have hno : ∀ x : UInt8, escape x ≠ none → No w S J (.str [92, x]) p := by
    intro x hx
    refine No.str fun hall => ?_
    have h0 := hall 0 (by simp)
    have h1 := hall 1 (by simp)
    rcases h with h | h
    · exact h (by simpa using h0)
    · exact hx (h x (by simpa using h1))
  intro x l
  induction l generalizing x with
  | nil => intro hl; exact No.seq1 (hno _ (hl x (by simp)))
  | cons y l ih =>
    intro hl
    exact No.alt (No.seq1 (hno _ (hl x (by simp)))) (ih y fun z hz => hl z (by simp [hz]))

theorem Go.escaped {J : Nat → List Nat → Prop} {d v : UInt8} (h1 : w[p]? = some 92) (h2 : w[p + 1]? = some d)
    (hv : escape d = some v) (hJ : ∀ L, J p L → J (p + 2) L) :
    Go w S J (.nt .r_escaped_char none) p (p + 2) [.act (.sbAppend v) (p + 2)] :=
  Go.nt rfl (Go.escAlt h1 h2 hJ (97, 7) escapeTable.tail hv)

theorem No.escaped {J : Nat → List Nat → Prop}
    (h : w[p]? ≠ some 92 ∨ ∀ d, w[p + 1]? = some d → escape d = none) :
    No w S J (.nt .r_escaped_char none) p :=
  No.nt rfl (No.escAlt h (97, 7) escapeTable.tail (by decide))

/-- The text `t` stands at `p`. -/
def Has (w : List UInt8) (p : Nat) (t : List UInt8) : Prop := ∀ i < t.length, w[p + i]? = t[i]?

theorem Has.head {c : UInt8} {t : List UInt8} (h : Has w p (c :: t)) : w[p]? = some c := by
  simpa using h 0 (by simp)

theorem Has.drop {a b : List UInt8} (h : Has w p (a ++ b)) : Has w (p + a.length) b := by
  intro i hi
  have := h (a.length + i) (by simpa using hi)
  rw [Nat.add_assoc, this, List.getElem?_append_right (by omega), Nat.add_sub_cancel_left]

theorem Has.tail {c : UInt8} {t : List UInt8} (h : Has w p (c :: t)) : Has w (p + 1) t :=
  Has.drop (a := [c]) h

theorem Has.extract {a b : List UInt8} (h : Has w p (a ++ b)) : w.extract p (p + a.length) = a := by
  induction a generalizing p with
  | nil => exact ext_nil (by simp)
  | cons c a ih =>
    have h1 : w[p]? = some c := Has.head (t := a ++ b) h
    have h2 : Has w (p + 1) (a ++ b) := Has.tail (c := c) h
    have := ih h2
    rw [List.length_cons, show p + (a.length + 1) = p + 1 + a.length by omega, ext_cons h1 (by omega), this]

section
variable (q : UInt8)

def runE : E := .seq (.npeek (.alt (.chr q) (.alt (.nt .r_escaped_char none) (.nt .r_EOL none)))) .dot

def itemE : E :=
  .alt (.nt .r_escaped_char none) (.alt (.seq (.pred .blockStart) (.seq (.nt .r_EOL none)
    (.seq (.pred .blockEnd) (.act .sbAppendBlock)))) (.seq (.pred .blockStart) (.seq (.plus (runE q))
      (.seq (.pred .blockEnd) (.act .sbAppendBlock)))))

def strE (l : Nat) : E := .seq (.chr q) (.seq (.star (itemE q)) (.onfail (.chr q) (.err l)))
end

theorem single_body : (grammar .r_single_quoted).body = strE 39 19 := rfl
theorem double_body : (grammar .r_double_quoted).body = strE 34 20 := rfl

/-- An ordinary byte at `p`. -/
structure Plain (w : List UInt8) (q : UInt8) (p : Nat) : Prop where
  lt : p < w.length
  quote : w[p]? ≠ some q
  esc : w[p]? ≠ some 92 ∨ ∀ d, w[p + 1]? = some d → escape d = none
  eol : ∀ p', ¬ Eol w p p'

variable {q : UInt8}

theorem Plain.lines (h : Plain w q p) : ∀ L, Lines w e p L → Lines w e (p + 1) L := fun _ hL =>
  hL.step fun h1 => h.eol _ (.inl ⟨h1, rfl⟩)

theorem Go.plain (h : Plain w q p) : Go w S (Lines w e) (runE q) p (p + 1) [] :=
  Go.seq (Go.npeek (No.alt (No.chr h.quote) (No.alt (No.escaped h.esc) (No.eol h.eol))))
    (Go.dot h.lt h.lines)

theorem No.run_quote (h : w[p]? = some q) (hq : q ≠ 10) : No w S (Lines w e) (runE q) p :=
  No.seq1 (No.npeek (Go.alt1 (Go.chr h fun _ hL => hL.step (by rw [h]; simpa using hq))) (by omega)
    fun _ hL => hL.down (by omega))

theorem No.run_escaped {d v : UInt8} (hq : w[p]? ≠ some q) (h1 : w[p]? = some 92) (h2 : w[p + 1]? = some d)
    (hv : escape d = some v) : No w S (Lines w e) (runE q) p := by
  have hd : d ≠ 10 := by rintro rfl; cases hv
  exact No.seq1 (No.npeek (Go.alt2 (No.chr hq) (Go.alt1 (Go.escaped h1 h2 hv fun _ hL =>
    (hL.step (by rw [h1]; decide)).step (by rw [h2]; simpa using hd)))) (by omega)
    fun _ hL => hL.down (by omega))

theorem No.run_eol {p' : Nat} (hq : w[p]? ≠ some q) (h : Eol w p p') (he : p' ≤ e) :
    No w S (Lines w e) (runE q) p := by
  have h1 : w[p]? ≠ some 92 := by rcases h with ⟨h, -⟩ | ⟨h, -⟩ <;> rw [h] <;> decide
  have hlt : p ≤ p' := by rcases h with ⟨-, rfl⟩ | ⟨-, -, rfl⟩ <;> omega
  exact No.seq1 (No.npeek (Go.alt2 (No.chr hq) (Go.alt2 (No.escaped (.inl h1)) (Go.eol h he))) hlt
    fun _ hL => hL.down hlt)

theorem eol_in {c : UInt8} {t : List UInt8} {p' : Nat} (hq : q ≠ 10) (ht : Has w p (c :: t))
    (hend : w[p + (c :: t).length]? = some q) (h : Eol w p p') :
    (c = 10 ∧ p' = p + 1) ∨ (c = 13 ∧ p' = p + 2 ∧ ∃ t', t = 10 :: t') := by
  rcases h with ⟨h, rfl⟩ | ⟨h1, h2, rfl⟩
  · rw [ht.head] at h; exact .inl ⟨Option.some.inj h, rfl⟩
  · rw [ht.head] at h1
    refine .inr ⟨Option.some.inj h1, rfl, ?_⟩
    cases t with
    | nil =>
      rw [List.length_singleton, h2] at hend
      exact absurd (Option.some.inj hend).symm hq
    | cons d t =>
      rw [ht.tail.head] at h2
      exact ⟨t, by rw [Option.some.inj h2]⟩

theorem lone_plain {d : UInt8} {t : List UInt8} (hq : q = 39 ∨ q = 34) (hd : escape d = none)
    (ht : Has w p (92 :: d :: t)) : Plain w q p := by
  refine ⟨lt_of_get ht.head, ?_, .inr ?_, ?_⟩
  · rw [ht.head]; rcases hq with rfl | rfl <;> decide
  · intro x hx
    rw [ht.tail.head] at hx
    exact Option.some.inj hx ▸ hd
  · rintro p' (⟨h, -⟩ | ⟨h, -⟩) <;> rw [ht.head] at h <;> exact absurd h (by decide)

theorem char_plain {c : UInt8} {t : List UInt8} (h1 : c ≠ q) (h2 : c ≠ 92) (ht : Has w p (c :: t))
    (he : ∀ p', ¬ Eol w p p') : Plain w q p :=
  ⟨lt_of_get ht.head, by rw [ht.head]; simpa using h1, .inl (by rw [ht.head]; simpa using h2), he⟩

/-- The longest run of ordinary bytes. -/
theorem Go.run (hq : q = 39 ∨ q = 34) {t s : List UInt8} (h : Quoted q t s) : ∀ {p : Nat}, Has w p t →
    w[p + t.length]? = some q → p + t.length < e →
    ∃ u t' s', t = u ++ t' ∧ s = u ++ s' ∧ Quoted q t' s' ∧
      Go w S (Lines w e) (.star (runE q)) p (p + u.length) [] := by
  have hq10 : q ≠ 10 := by rcases hq with rfl | rfl <;> decide
  induction h with
  | nil =>
    intro p _ hend _
    exact ⟨[], [], [], rfl, rfl, .nil, Go.stop (No.run_quote hend hq10)⟩
  | @char c t s h1 h2 h3 ih =>
    intro p ht hend hlt
    by_cases he : ∃ p', Eol w p p'
    · obtain ⟨p', he⟩ := he
      refine ⟨[], c :: t, c :: s, rfl, rfl, .char h1 h2 h3, Go.stop (No.run_eol ?_ he ?_)⟩
      · rw [ht.head]; simpa using h1
      · rcases eol_in hq10 ht hend he with ⟨-, rfl⟩ | ⟨-, rfl, t', rfl⟩ <;> simp at hlt <;> omega
    · have hp := char_plain h1 h2 ht (fun p' h => he ⟨p', h⟩)
      obtain ⟨u, t', s', rfl, rfl, h4, h5⟩ := ih ht.tail
        (by rw [← hend]; congr 1; simp; omega) (by simp at hlt ⊢; omega)
      refine ⟨c :: u, t', s', rfl, rfl, h4, ?_⟩
      rw [List.length_cons, show p + (u.length + 1) = p + 1 + u.length by omega]
      exact Go.more (Go.plain hp) h5
  | @escape d v t s h1 h2 ih =>
    intro p ht hend hlt
    refine ⟨[], _, _, rfl, rfl, .escape h1 h2, Go.stop (No.run_escaped ?_ ht.head ht.tail.head h1)⟩
    rw [ht.head]; rcases hq with rfl | rfl <;> decide
  | @lone d t s h1 h2 ih =>
    intro p ht hend hlt
    have hp := lone_plain hq h1 ht
    obtain ⟨u, t', s', e1, rfl, h4, h5⟩ := ih ht.tail
      (by rw [← hend]; congr 1; simp; omega) (by simp at hlt ⊢; omega)
    refine ⟨92 :: u, t', s', by rw [e1]; rfl, rfl, h4, ?_⟩
    rw [List.length_cons, show p + (u.length + 1) = p + 1 + u.length by omega]
    exact Go.more (Go.plain hp) h5

/-- A run of ordinary bytes, as one item. -/
theorem Go.item_run {n : Nat} (hp : Plain w q p) (h : Go w S (Lines w e) (.star (runE q)) (p + 1) n []) :
    Go w S (Lines w e) (itemE q) p n [.act .sbAppendBlock n, .act .blockEnd n, .act .blockStart p] :=
  Go.alt2 (No.escaped hp.esc) (Go.alt2 (No.seq2 Go.blockStart (No.seq1 (No.eol hp.eol)))
    (Go.seq Go.blockStart (Go.seq (Go.seq (Go.plain hp) h) (Go.seq Go.blockEnd Go.act))))

theorem Go.item_eol {p' : Nat} (h : Eol w p p') (he : p' ≤ e) :
    Go w S (Lines w e) (itemE q) p p' [.act .sbAppendBlock p', .act .blockEnd p', .act .blockStart p] := by
  have h1 : w[p]? ≠ some 92 := by rcases h with ⟨h, -⟩ | ⟨h, -⟩ <;> rw [h] <;> decide
  exact Go.alt2 (No.escaped (.inl h1)) (Go.alt1 (Go.seq Go.blockStart (Go.seq (Go.eol h he)
    (Go.seq Go.blockEnd Go.act))))

/-- What stands between the quotes. -/
theorem Go.items (hq : q = 39 ∨ q = 34) : ∀ (n : Nat) (t s : List UInt8) (p : Nat), t.length ≤ n →
    Quoted q t s → Has w p t → w[p + t.length]? = some q → p + t.length < e →
    ∃ ts, Go w S (Lines w e) (.star (itemE q)) p (p + t.length) ts ∧ Adds w e ts s := by
  have hq10 : q ≠ 10 := by rcases hq with rfl | rfl <;> decide
  have hq13 : q ≠ 13 := by rcases hq with rfl | rfl <;> decide
  have hq92 : q ≠ 92 := by rcases hq with rfl | rfl <;> decide
  intro n
  induction n with
  | zero =>
    intro t s p hn h ht hend hlt
    obtain rfl : t = [] := List.eq_nil_of_length_eq_zero (by omega)
    cases h
    refine ⟨[], Go.stop ?_, Adds.nil⟩
    simp only [List.length_nil, Nat.add_zero] at hend
    refine No.alt (No.escaped (.inl (by rw [hend]; simpa using hq92))) (No.alt
      (No.seq2 Go.blockStart (No.seq1 (No.eol ?_))) (No.seq2 Go.blockStart (No.seq1 (No.seq1
        (No.run_quote hend hq10)))))
    rintro p' (⟨h, -⟩ | ⟨h, -⟩) <;> rw [hend] at h <;> cases h
    · exact hq10 rfl
    · exact hq13 rfl
  | succ n ih =>
    intro t s p hn h ht hend hlt
    -- a run of ordinary bytes
    have hrun : ∀ c t s, (c :: t).length ≤ n + 1 → Plain w q p → Quoted q t s → Has w p (c :: t) →
        w[p + (c :: t).length]? = some q → p + (c :: t).length < e →
        ∃ ts, Go w S (Lines w e) (.star (itemE q)) p (p + (c :: t).length) ts ∧ Adds w e ts (c :: s) := by
      intro c t s hn hp h ht hend hlt
      obtain ⟨u, t', s', rfl, rfl, h4, h5⟩ := Go.run (S := S) hq h ht.tail
        (by rw [← hend]; congr 1; simp; omega) (e := e) (by simp at hlt ⊢; omega)
      have hcu : Has w p ((c :: u) ++ t') := ht
      obtain ⟨ts, k1, k2⟩ := ih t' s' (p + (c :: u).length) (by simp at hn ⊢; omega) h4 hcu.drop
        (by rw [← hend]; congr 1; simp; omega) (by simp at hlt ⊢; omega)
      have hb := Adds.block (w := w) (e := e) (p := p) (q := p + (c :: u).length)
        (x := p + (c :: u).length) (by omega) (by simp at hlt ⊢; omega)
      rw [hcu.extract] at hb
      refine ⟨_, ?_, by simpa using hb.append k2⟩
      have h6 := Go.item_run (e := e) (n := p + (c :: u).length) hp
        (by rw [List.length_cons, show p + (u.length + 1) = p + 1 + u.length by omega]; exact h5)
      have := Go.more h6 k1
      rw [show p + (c :: (u ++ t')).length = p + (c :: u).length + t'.length by simp; omega]
      exact this
    cases h with
    | nil => exact ih [] [] p (by simp) .nil ht hend hlt
    | @escape d v t s h1 h2 =>
      have hd : d ≠ 10 := by rintro rfl; cases h1
      obtain ⟨ts, k1, k2⟩ := ih t s (p + 2) (by simp at hn; omega) h2 ht.tail.tail
        (by rw [← hend]; congr 1; simp; omega) (by simp at hlt ⊢; omega)
      refine ⟨_, ?_, by simpa using Adds.append (Adds.char (p := p + 2)) k2⟩
      · rw [show p + (92 :: d :: t).length = p + 2 + t.length by simp; omega]
        exact Go.more (Go.alt1 (Go.escaped ht.head ht.tail.head h1 fun _ hL =>
          (hL.step (by rw [ht.head]; decide)).step (by rw [ht.tail.head]; simpa using hd))) k1
    | @lone d t s h1 h2 => exact hrun 92 (d :: t) s hn (lone_plain hq h1 ht) h2 ht hend hlt
    | @char c t s h1 h2 h3 =>
      by_cases he : ∃ p', Eol w p p'
      · obtain ⟨p', he⟩ := he
        rcases eol_in hq10 ht hend he with ⟨rfl, rfl⟩ | ⟨rfl, rfl, t', rfl⟩
        · obtain ⟨ts, k1, k2⟩ := ih t s (p + 1) (by simp at hn; omega) h3 ht.tail
            (by rw [← hend]; congr 1; simp; omega) (by simp at hlt ⊢; omega)
          have hb := Adds.block (w := w) (e := e) (p := p) (q := p + 1) (x := p + 1) (by omega)
            (by simp at hlt; omega)
          rw [show w.extract p (p + 1) = [10] from Has.extract (a := [10]) (b := t) ht] at hb
          refine ⟨_, ?_, by simpa using hb.append k2⟩
          rw [show p + (10 :: t).length = p + 1 + t.length by simp; omega]
          exact Go.more (Go.item_eol he (by simp at hlt; omega)) k1
        · obtain ⟨s', rfl, h4⟩ : ∃ s', s = 10 :: s' ∧ Quoted q t' s' := by
            cases h3 with
            | char _ _ h => exact ⟨_, rfl, h⟩
          obtain ⟨ts, k1, k2⟩ := ih t' s' (p + 2) (by simp at hn; omega) h4 ht.tail.tail
            (by rw [← hend]; congr 1; simp; omega) (by simp at hlt ⊢; omega)
          have hb := Adds.block (w := w) (e := e) (p := p) (q := p + 2) (x := p + 2) (by omega)
            (by simp at hlt; omega)
          rw [show w.extract p (p + 2) = [13, 10] from Has.extract (a := [13, 10]) (b := t') ht] at hb
          refine ⟨_, ?_, by simpa using hb.append k2⟩
          rw [show p + (13 :: 10 :: t').length = p + 2 + t'.length by simp; omega]
          exact Go.more (Go.item_eol he (by simp at hlt; omega)) k1
      · exact hrun c t s hn (char_plain h1 h2 ht fun p' h => he ⟨p', h⟩) h3 ht hend hlt

/-- A quoted string at `p`. -/
theorem Go.quoted (hq : q = 39 ∨ q = 34) {t s : List UInt8} (h : Quoted q t s)
    (ht : Has w p (q :: (t ++ [q]))) (he : e = p + t.length + 2) :
    ∃ ts, Go w S (Lines w e) (.nt .r_quoted none) p e ts ∧ Adds w e ts s := by
  have hq10 : q ≠ 10 := by rcases hq with rfl | rfl <;> decide
  have hend : w[p + 1 + t.length]? = some q := by
    have := (Has.drop (a := t) ht.tail).head
    exact this
  have ht' : Has w (p + 1) t := fun i hi => by
    rw [ht.tail i (by simp; omega), List.getElem?_append_left hi]
  obtain ⟨ts, h1, h2⟩ := Go.items (w := w) (S := S) (e := e) hq t.length t s (p + 1) (Nat.le_refl _) h
    ht' hend (by omega)
  refine ⟨ts, Go.nt rfl ?_, h2⟩
  have hb : ∀ l, Go w S (Lines w e) (strE q l) p e ts := by
    intro l
    have := Go.seq (Go.chr (S := S) (J := Lines w e) ht.head fun _ hL => hL.step (by rw [ht.head]; simpa using hq10))
      (Go.seq h1 (Go.onfail (x := .err l) (Go.chr hend fun _ hL => hL.step (by rw [hend]; simpa using hq10))))
    rw [show p + 1 + t.length + 1 = e by omega] at this
    simpa [strE] using this
  rcases hq with rfl | rfl
  · exact Go.alt1 (Go.nt rfl (hb 19))
  · refine Go.alt2 (No.nt rfl (No.seq1 (No.chr ?_))) (Go.nt rfl (hb 20))
    rw [ht.head]; decide

/-- A quoted string fits the hole of a template. -/
theorem str_piece {T : Tmpl} (S : Source σ) (hr : T.rule = .r_quoted) (hq : q = 39 ∨ q = 34)
    (hf : T.first = q) (hpre : 10 ∉ T.pre) {t s : List UInt8} (h : Quoted q t s) :
    ∃ F : Piece, F.bytes = q :: (t ++ [q]) ∧ (∀ D, Feeds S D → F.Ok T S D) ∧ F.Runs T s := by
  let w := T.pre ++ (q :: (t ++ [q])) ++ T.post
  have ht : Has w T.pre.length (q :: (t ++ [q])) := by
    intro i hi
    show (T.pre ++ (q :: (t ++ [q])) ++ T.post)[T.pre.length + i]? = _
    rw [List.append_assoc, List.getElem?_append_right (by omega), Nat.add_sub_cancel_left,
      List.getElem?_append_left hi]
  obtain ⟨ts, h1, h2⟩ := Go.quoted (S := S) hq h ht rfl
  have hlow : ∀ x, LineStart w x → x = 0 ∨ T.pre.length < x := by
    rintro x (rfl | ⟨y, rfl, hy⟩)
    · exact .inl rfl
    · refine .inr ?_
      rcases Nat.lt_or_ge y T.pre.length with h3 | h3
      · exfalso
        have hy : (T.pre ++ (q :: (t ++ [q])) ++ T.post)[y]? = some 10 := hy
        rw [List.append_assoc, List.getElem?_append_left h3] at hy
        exact hpre (List.mem_of_getElem? hy)
      · omega
  generalize he : T.pre.length + t.length + 2 = e at h1 h2
  have hspec := startsTo_spec w e
  have hzero : LInv w e (startsTo w e) := by
    refine ⟨hspec.1, fun x hx => ((hspec.2 x).1 hx).1, ?_, fun x hx hle => (hspec.2 x).2 ⟨hx, hle⟩⟩
    clear hspec h1 h2 he
    induction e with
    | zero => rfl
    | succ e ih =>
      unfold startsTo
      split
      · rw [List.getLast?_cons, ih]; rfl
      · exact ih
  refine ⟨⟨q :: (t ++ [q]), ts, startsTo w e⟩, rfl, fun D hD => ⟨by rw [hf]; rfl, ?_, ?_⟩, ?_⟩
  · obtain ⟨A, hA⟩ := List.getLast?_eq_some_iff.1 hzero.zero
    refine ⟨A, hA, fun x hx => ?_⟩
    have hx0 : x ≠ 0 := by
      have := hzero.sorted
      rw [hA, List.pairwise_append] at this
      have := this.2.2 x hx 0 (by simp)
      omega
    have hmem : x ∈ startsTo w e := by rw [hA]; simp [hx]
    obtain ⟨h3, h4⟩ := (hspec.2 x).1 hmem
    refine ⟨(hlow x h3).resolve_left hx0, ?_⟩
    simp only [List.length_cons, List.length_append, List.length_nil]
    omega
  · intro r c k hat hl
    have hL : Lines w e T.pre.length c.lines := by
      rcases hl with hl | hl <;> rw [hl]
      · refine ⟨⟨by simp, fun x hx => ?_, rfl, fun x hx hle => ?_⟩, by simp⟩
        · simp at hx; exact .inl hx
        · rcases hlow x hx with rfl | h3
          · simp
          · omega
      · exact ⟨hzero.down (by omega), fun x hx => ((hspec.2 x).1 hx).2⟩
    obtain ⟨r', L', g1, g2, g3⟩ := h1 D hD r c k hat hL
    have e1 : L' = startsTo w e := by
      rw [← g3.1.starts (Nat.le_refl _)]
      unfold backtrackL
      cases hL' : L' with
      | nil => rfl
      | cons a l =>
        have := g3.2 a (by rw [hL']; simp)
        rw [List.dropWhile_cons_of_neg (by simp; omega)]
    subst e1
    refine ⟨r', ?_⟩
    rw [hr, show T.pre.length + (q :: (t ++ [q])).length = e by simp; omega]
    exact g1
  · intro env m k1 k2 k3 k4 k5 k6
    have hlen : e ≤ env.buf.length := by simp at k2; omega
    obtain ⟨p, g1, g2⟩ := h2 env m k1 hlen k3 k5 k6
    exact ⟨p, by rw [k4] at g1; exact g1, g2⟩

end Pc
end Verif.Cypher
