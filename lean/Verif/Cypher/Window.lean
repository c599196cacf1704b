import Verif.Cypher.OpStop
import Mathlib.Data.Nat.Bitwise
/-!
# Matching a text of which only the kinds of bytes are known

A window is a list of cells: one byte of a given set, any number of bytes of a given set, or a piece of which only the
first byte is known. `Win.run` is the generated parser (as `Sk`) on such a window. It gives up where it would need to
know more. What rules match at certain cells may be given to it. `Win.run_sound` says that what the run finds holds for
every text that fits the window.
-/
namespace Verif.Cypher
open Verif.Peg

/-- The predicates, but not the one that records an error. -/
def qquiet : Pred → QState → Option (Bool × QState)
  | .recordError, _ => none
  | x, q => qpred x q

/-- A match that records no error, not even in an alternative that is given up later: `Sk` without `recordError`. -/
inductive Hush (w : List UInt8) : E → Nat → QState → SkRes → Prop
  | eps {p q} : Hush w .eps p q (.ok p [] q)
  | one_ok {m p q c} : w[p]? = some c → m.mem c = true → Hush w (.one m) p q (.ok (p + 1) [] q)
  | one_no {m p q} : (∀ c, w[p]? = some c → m.mem c = false) → Hush w (.one m) p q (.no q)
  | str_ok {l p q} : w.extract p (p + l.length) = l → Hush w (.str l) p q (.ok (p + l.length) [] q)
  | str_no {l p q} : w.extract p (p + l.length) ≠ l → Hush w (.str l) p q (.no q)
  | nt_ok {r v p q p' ts q'} : Hush w (grammar r).body p q (.ok p' ts q') →
      Hush w (.nt r v) p q (.ok p' (setT v ++ (leaveT (grammar r).nvars ++
        (ts ++ enterT (grammar r).nvars))) q')
  | nt_no {r v p q q'} : Hush w (grammar r).body p q (.no q') → Hush w (.nt r v) p q (.no q')
  | seq_ok {a b p q p1 ts q1 p2 us q2} : Hush w a p q (.ok p1 ts q1) → Hush w b p1 q1 (.ok p2 us q2) →
      Hush w (.seq a b) p q (.ok p2 (us ++ ts) q2)
  | seq_no {a b p q q1} : Hush w a p q (.no q1) → Hush w (.seq a b) p q (.no q1)
  | seq_no2 {a b p q p1 ts q1 q2} : Hush w a p q (.ok p1 ts q1) → Hush w b p1 q1 (.no q2) →
      Hush w (.seq a b) p q (.no q2)
  | alt_ok {a b p q p1 ts q1} : Hush w a p q (.ok p1 ts q1) → Hush w (.alt a b) p q (.ok p1 ts q1)
  | alt_no {a b p q q1 res} : Hush w a p q (.no q1) → Hush w b p q1 res → Hush w (.alt a b) p q res
  | star_more {a p q p1 ts q1 p2 us q2} : Hush w a p q (.ok p1 ts q1) →
      Hush w (.star a) p1 q1 (.ok p2 us q2) → Hush w (.star a) p q (.ok p2 (us ++ ts) q2)
  | star_end {a p q q1} : Hush w a p q (.no q1) → Hush w (.star a) p q (.ok p [] q1)
  | peek_ok {a p q p1 ts q1} : Hush w a p q (.ok p1 ts q1) → Hush w (.peek a) p q (.ok p [] q1)
  | peek_no {a p q q1} : Hush w a p q (.no q1) → Hush w (.peek a) p q (.no q1)
  | npeek_ok {a p q p1 ts q1} : Hush w a p q (.ok p1 ts q1) → Hush w (.npeek a) p q (.no q1)
  | npeek_no {a p q q1} : Hush w a p q (.no q1) → Hush w (.npeek a) p q (.ok p [] q1)
  | pred_ok {x p q q'} : qquiet x q = some (true, q') → Hush w (.pred x) p q (.ok p (recT x p) q')
  | pred_no {x p q q'} : qquiet x q = some (false, q') → Hush w (.pred x) p q (.no q')
  | act {a p q} : Hush w (.act a) p q (.ok p [.act a p] q)
  | onfail_ok {a x p q p1 ts q1} : Hush w a p q (.ok p1 ts q1) → Hush w (.onfail a x) p q (.ok p1 ts q1)
  | onfail_no {a x p q q1 b q2} : Hush w a p q (.no q1) → qquiet x q1 = some (b, q2) →
      Hush w (.onfail a x) p q (.no q2)

inductive Tile where
  /-- one byte of the set -/
  | byte (K : CharSet)
  /-- any number of bytes of the set -/
  | run (K : CharSet)
  /-- at least one byte, the first of the set -/
  | hole (K : CharSet)
  /-- white space that ends here; at least one byte of it if `ne` -/
  | ws (ne : Bool)
  /-- the end of the input -/
  | fin
  deriving DecidableEq

/-- What is known of a rule: at cell `at_`, when the last operator is `op` if that is given, it matches up to cell `upTo`,
or it does not match. -/
structure Fact where
  at_ : Nat
  rule : Rule
  op : Option Op
  upTo : Option Nat
  /-- The state of the operators is left as it was. -/
  keep : Bool := false
  deriving DecidableEq

/-- The last operator, as far as it is known. -/
inductive OpS where
  | same
  | known (o : Op)
  | unk
  deriving DecidableEq

/-- `k`: the cell; `ps`: the precedences pushed. -/
inductive WRes where
  | ok (k : Nat) (op : OpS) (ps : List Nat)
  | no (op : OpS) (ps : List Nat)
  deriving DecidableEq

/-- `top` is the precedence on the stack at the beginning. -/
structure Win where
  cells : List Tile
  facts : List Fact := []
  top : Option Nat := none
  /-- repetitions of which it is known that they go from one cell to another -/
  stars : List (Nat × E × Nat) := []

namespace Win

/-- No byte is in both sets. -/
def disj (K m : CharSet) : Bool := K.mask &&& m.mask == 0
/-- Every byte of the first set is in the second. -/
def sub (K m : CharSet) : Bool := K.mask &&& m.mask == K.mask

/-- Space, tab, newline and carriage return. -/
def blank : CharSet := ⟨0x100002600⟩

/-- No byte of the set can be the next one. -/
def never (m : CharSet) : List Tile → Bool
  | [] => false
  | .byte K :: _ => disj K m
  | .hole K :: _ => disj K m
  | .run K :: cs => disj K m && never m cs
  | .ws ne :: cs => disj blank m && (ne || never m cs)
  | .fin :: _ => true

/-- `sym-part` (parser.leg:882). -/
def symPart : CharSet := ⟨0x7fffffe87fffffe03ff001000000000⟩

def str (W : Win) : List UInt8 → Nat → Option (Option Nat)
  | [], k => some (some k)
  | c :: cs, k =>
    bif never (.single c) (W.cells.drop k) then some none
    else match W.cells[k]? with
      | some (.byte K) => bif sub K (.single c) then W.str cs (k + 1) else none
      | _ => none

def pred (W : Win) (x : Pred) (op : OpS) (ps : List Nat) : Option (Bool × OpS × List Nat) :=
  match x with
  | .op o => some (true, .known o, ps)
  | .precPushTop => some (true, op, 0 :: ps)
  | .precPush => match op with
    | .known o => some (true, op, o.next :: ps)
    | _ => none
  | .precPop => match ps with
    | [] => none
    | _ :: ps => some (true, op, ps)
  | .precChk => match op with
    | .known o => match ps with
      | x :: _ => some (decide (x ≤ o.prec), op, ps)
      | [] => match W.top with
        | some M => some (decide (M ≤ o.prec), op, ps)
        | none => none
    | _ => none
  | .no => some (false, op, ps)
  | .recordError => none
  | _ => some (true, op, ps)

def isWs (W : Win) (k : Nat) : Bool := match W.cells[k]? with
  | some (.ws _) => true
  | _ => false

def fact (W : Win) (k : Nat) (r : Rule) : Option Fact := W.facts.find? fun f => f.at_ == k && f.rule == r

/-- The parser on the window. -/
def run : Nat → Win → E → Nat → OpS → List Nat → Option WRes
  | 0, _, _, _, _, _ => none
  | n + 1, W, e, k, op, ps =>
    match e with
    | .eps => some (.ok k op ps)
    | .one m =>
      bif never m (W.cells.drop k) then some (.no op ps)
      else match W.cells[k]? with
        | some (.byte K) => bif sub K m then some (.ok (k + 1) op ps) else none
        | _ => none
    | .str l => match W.str l k with
      | some (some k) => some (.ok k op ps)
      | some none => some (.no op ps)
      | none => none
    | .nt r _ =>
      bif r == .r_ws && W.isWs k then some (.ok (k + 1) op ps)
      else match W.fact k r with
      | some f =>
        bif f.op.isNone || decide (some op = f.op.map OpS.known) then match f.upTo with
          | some k' => some (.ok k' (bif f.keep then op else .unk) ps)
          | none => some (.no (bif f.keep then op else .unk) ps)
        else none
      | none =>
        bif r == .r_WB && never symPart (W.cells.drop k) then some (.ok k op ps)
        else run n W (grammar r).body k op ps
    | .seq a b => match run n W a k op ps with
      | some (.ok k1 op1 ps1) => run n W b k1 op1 ps1
      | r => r
    | .alt a b => match run n W a k op ps with
      | some (.no op1 ps1) => run n W b k op1 ps1
      | r => r
    | .star a =>
      match W.stars.find? fun f => f.1 == k && decide (f.2.1 = a) with
      | some f => some (.ok f.2.2 .unk ps)
      | none =>
      let one := match W.cells[k]? with
        | some (.run K) => decide (run n ⟨[.byte K], [], none, []⟩ a 0 .same [] = some (.ok 1 .same []))
        | _ => false
      bif one then run n W (.star a) (k + 1) op ps
      else match run n W a k op ps with
        | some (.ok k1 op1 ps1) => run n W (.star a) k1 op1 ps1
        | some (.no op1 ps1) => some (.ok k op1 ps1)
        | none => none
    | .peek a => match run n W a k op ps with
      | some (.ok _ op1 ps1) => some (.ok k op1 ps1)
      | r => r
    | .npeek a => match run n W a k op ps with
      | some (.ok _ op1 ps1) => some (.no op1 ps1)
      | some (.no op1 ps1) => some (.ok k op1 ps1)
      | none => none
    | .pred x => match W.pred x op ps with
      | some (true, op1, ps1) => some (.ok k op1 ps1)
      | some (false, op1, ps1) => some (.no op1 ps1)
      | none => none
    | .act _ => some (.ok k op ps)
    | .onfail a x => match run n W a k op ps with
      | some (.no op1 ps1) => match W.pred x op1 ps1 with
        | some (_, op2, ps2) => some (.no op2 ps2)
        | none => none
      | r => r

end Win

/-! ## What it means -/

/-- A match of a rule, whatever the state of the operators. -/
def FactOk (w : List UInt8) (pos : Nat → Nat) (f : Fact) : Prop :=
  ∀ v q, (∀ o, f.op = some o → q.1 = some o) → match f.upTo with
    | some k' => ∃ ts op', Hush w (.nt f.rule v) (pos f.at_) q (.ok (pos k') ts (op', q.2)) ∧ (f.keep = true → op' = q.1)
    | none => ∃ op', Hush w (.nt f.rule v) (pos f.at_) q (.no (op', q.2)) ∧ (f.keep = true → op' = q.1)

/-- The text `w` fits the window: cell `k` begins at `pos k`. -/
structure Fit (w : List UInt8) (W : Win) (pos : Nat → Nat) : Prop where
  byte : ∀ k K, W.cells[k]? = some (.byte K) → pos (k + 1) = pos k + 1 ∧ ∃ c, w[pos k]? = some c ∧ K.mem c = true
  run : ∀ k K, W.cells[k]? = some (.run K) → ∃ n, pos (k + 1) = pos k + n ∧
    ∀ i, i < n → ∃ c, w[pos k + i]? = some c ∧ K.mem c = true
  hole : ∀ k K, W.cells[k]? = some (.hole K) → ∃ c, w[pos k]? = some c ∧ K.mem c = true
  ws : ∀ k ne, W.cells[k]? = some (.ws ne) →
    (pos (k + 1) = pos k ∧ ne = false ∨ ∃ c, w[pos k]? = some c ∧ Win.blank.mem c = true) ∧
    ∀ v q, ∃ ts, Hush w (.nt .r_ws v) (pos k) q (.ok (pos (k + 1)) ts q)
  fin : ∀ k, W.cells[k]? = some .fin → w.length ≤ pos k
  facts : ∀ f ∈ W.facts, FactOk w pos f
  stars : ∀ f ∈ W.stars, ∀ q, ∃ ts op', Hush w (.star f.2.1) (pos f.1) q (.ok (pos f.2.2) ts (op', q.2))

/-- The state of the operators, relative to that at the beginning. -/
structure Stands (q0 : QState) (op : OpS) (ps : List Nat) (q : QState) : Prop where
  ps : q.2 = ps ++ q0.2
  same : op = .same → q.1 = q0.1
  known : ∀ o, op = .known o → q.1 = some o

/-- What a result says of the text. -/
def WRes.Holds (w : List UInt8) (pos : Nat → Nat) (q0 : QState) (e : E) (p : Nat) (q : QState) : WRes → Prop
  | .ok k op ps => ∃ ts q', Hush w e p q (.ok (pos k) ts q') ∧ Stands q0 op ps q'
  | .no op ps => ∃ q', Hush w e p q (.no q') ∧ Stands q0 op ps q'

theorem Win.disj_mem {K m : CharSet} (h : disj K m = true) {c : UInt8} (hc : K.mem c = true) : m.mem c = false := by
  have h := congrArg (fun x => x.testBit c.toNat) (beq_iff_eq.1 h)
  simp only [Nat.testBit_and, Nat.zero_testBit] at h
  unfold CharSet.mem at hc ⊢
  rw [hc] at h
  simpa using h

theorem Win.sub_mem {K m : CharSet} (h : sub K m = true) {c : UInt8} (hc : K.mem c = true) : m.mem c = true := by
  have h := congrArg (fun x => x.testBit c.toNat) (beq_iff_eq.1 h)
  simp only [Nat.testBit_and] at h
  unfold CharSet.mem at hc ⊢
  rw [hc] at h
  simpa using h

theorem Win.single_mem {c d : UInt8} : (CharSet.single c).mem d = true ↔ c = d := by
  unfold CharSet.mem CharSet.single
  rw [Nat.testBit_two_pow]
  simp [UInt8.toNat_inj]

section
variable {w : List UInt8} {W : Win} {pos : Nat → Nat}

/-- No byte of the set is next. -/
theorem Fit.never (hf : Fit w W pos) {m : CharSet} : ∀ (k : Nat), Win.never m (W.cells.drop k) = true →
    ∀ c, w[pos k]? = some c → m.mem c = false := by
  suffices ∀ (cs : List Tile) (k : Nat), W.cells.drop k = cs → Win.never m cs = true →
      ∀ c, w[pos k]? = some c → m.mem c = false from fun k => this _ k rfl
  have key : ∀ {p : Nat} {c : UInt8}, w[p]? = some c → m.mem c = false → ∀ d, w[p]? = some d → m.mem d = false := by
    intro p c h1 h2 d hd
    rw [h1] at hd
    cases hd
    exact h2
  intro cs
  induction cs with
  | nil => intro k _ h; simp [Win.never] at h
  | cons x cs ih =>
    intro k hd h
    have hk : W.cells[k]? = some x := by
      have := congrArg List.head? hd
      simpa [List.head?_drop] using this
    have hd' : W.cells.drop (k + 1) = cs := by
      rw [← List.drop_drop, hd]; rfl
    cases x with
    | byte K =>
      obtain ⟨-, c, h1, h2⟩ := hf.byte k K hk
      exact key h1 (Win.disj_mem h h2)
    | hole K =>
      obtain ⟨c, h1, h2⟩ := hf.hole k K hk
      exact key h1 (Win.disj_mem h h2)
    | run K =>
      simp only [Win.never, Bool.and_eq_true] at h
      obtain ⟨n, h1, h2⟩ := hf.run k K hk
      rcases Nat.eq_zero_or_pos n with rfl | hn
      · have := ih (k + 1) hd' h.2
        rw [h1] at this
        exact this
      · obtain ⟨c, h3, h4⟩ := h2 0 hn
        exact key h3 (Win.disj_mem h.1 h4)
    | ws ne =>
      simp only [Win.never, Bool.and_eq_true, Bool.or_eq_true] at h
      rcases (hf.ws k ne hk).1 with ⟨h1, rfl⟩ | ⟨c, h3, h4⟩
      · have := ih (k + 1) hd' (by simpa using h.2)
        rw [h1] at this
        exact this
      · exact key h3 (Win.disj_mem h.1 h4)
    | fin =>
      intro c hc
      have := hf.fin k hk
      rw [List.getElem?_eq_none this] at hc
      cases hc

theorem Fit.str (hf : Fit w W pos) : ∀ (l : List UInt8) (k : Nat) (r : Option Nat), W.str l k = some r →
    match r with
    | some k' => pos k' = pos k + l.length ∧ w.extract (pos k) (pos k + l.length) = l
    | none => w.extract (pos k) (pos k + l.length) ≠ l := by
  intro l
  induction l with
  | nil =>
    intro k r h
    simp only [Win.str, Option.some.injEq] at h
    subst h
    exact ⟨rfl, by simp⟩
  | cons c cs ih =>
    intro k r h
    simp only [Win.str] at h
    have ex : ∀ p : Nat, w.extract p (p + (c :: cs).length) = (w.drop p).take (cs.length + 1) := by
      intro p; simp [List.extract_eq_take_drop]
    cases hn : Win.never (.single c) (W.cells.drop k) with
    | true =>
      rw [hn] at h
      simp only [cond, Option.some.injEq] at h
      subst h
      show _ ≠ _
      intro he
      rw [ex] at he
      have := congrArg List.head? he
      rw [List.head?_take, if_neg (by omega), List.head?_drop] at this
      have h2 := hf.never k hn c this
      rw [Win.single_mem.2 rfl] at h2
      cases h2
    | false =>
      rw [hn] at h
      simp only [cond] at h
      split at h
      · rename_i K hk
        cases hs : Win.sub K (.single c) with
        | false => rw [hs] at h; cases h
        | true =>
          rw [hs] at h
          simp only [cond] at h
          obtain ⟨h1, d, h2, h3⟩ := hf.byte k K hk
          have hd := Win.single_mem.1 (Win.sub_mem hs h3)
          subst hd
          have hdr : w.drop (pos k) = c :: w.drop (pos k + 1) := by
            obtain ⟨hl, hg⟩ := List.getElem?_eq_some_iff.1 h2
            rw [List.drop_eq_getElem_cons hl, hg]
          have := ih (k + 1) r h
          cases r with
          | some k' =>
            simp only at this ⊢
            obtain ⟨g1, g2⟩ := this
            refine ⟨by rw [g1, h1]; simp; omega, ?_⟩
            rw [ex, hdr, List.take_succ_cons]
            rw [h1] at g2
            simp only [List.extract_eq_take_drop, Nat.add_sub_cancel_left] at g2
            rw [g2]
          | none =>
            simp only at this ⊢
            intro he
            apply this
            rw [ex, hdr, List.take_succ_cons] at he
            simp only [List.cons.injEq, true_and] at he
            rw [h1]
            simp only [List.extract_eq_take_drop, Nat.add_sub_cancel_left]
            exact he
      · cases h

theorem Win.pred_sound {q0 : QState} {x : Pred} {op op' : OpS} {ps ps' : List Nat} {b : Bool}
    (ht : ∀ M, W.top = some M → lastPrec q0.2 = M)
    (h : W.pred x op ps = some (b, op', ps')) {q : QState} (hq : Stands q0 op ps q) :
    ∃ q', qquiet x q = some (b, q') ∧ Stands q0 op' ps' q' := by
  cases x with
  | op o =>
    simp only [Win.pred, Option.some.injEq, Prod.mk.injEq] at h
    obtain ⟨rfl, rfl, rfl⟩ := h
    exact ⟨_, rfl, hq.ps, (fun h => by cases h), fun o h => by cases h; rfl⟩
  | precPushTop =>
    simp only [Win.pred, Option.some.injEq, Prod.mk.injEq] at h
    obtain ⟨rfl, rfl, rfl⟩ := h
    exact ⟨_, rfl, by simp [hq.ps], hq.same, hq.known⟩
  | precPush =>
    cases op with
    | known o =>
      simp only [Win.pred, Option.some.injEq, Prod.mk.injEq] at h
      obtain ⟨rfl, rfl, rfl⟩ := h
      have := hq.known o rfl
      exact ⟨(q.1, o.next :: q.2), by simp [qquiet, qpred, this], by simp [hq.ps], hq.same, hq.known⟩
    | _ => simp [Win.pred] at h
  | precPop =>
    cases ps with
    | nil => simp [Win.pred] at h
    | cons x ps =>
      simp only [Win.pred, Option.some.injEq, Prod.mk.injEq] at h
      obtain ⟨rfl, rfl, rfl⟩ := h
      exact ⟨_, rfl, by simp [hq.ps], hq.same, hq.known⟩
  | precChk =>
    cases op with
    | known o =>
      have hk := hq.known o rfl
      cases ps with
      | nil =>
        simp only [Win.pred] at h
        cases hM : W.top with
        | none => rw [hM] at h; cases h
        | some M =>
          rw [hM] at h
          simp only [Option.some.injEq, Prod.mk.injEq] at h
          obtain ⟨rfl, rfl, rfl⟩ := h
          refine ⟨q, ?_, hq⟩
          have := ht M hM
          have hps := hq.ps
          rw [List.nil_append] at hps
          simp only [qquiet, qpred, hk, hps, this]
      | cons x ps =>
        simp only [Win.pred, Option.some.injEq, Prod.mk.injEq] at h
        obtain ⟨rfl, rfl, rfl⟩ := h
        refine ⟨q, ?_, hq⟩
        simp only [qquiet, qpred, hk, hq.ps]
        rfl
    | _ => simp [Win.pred] at h
  | recordError => simp [Win.pred] at h
  | _ =>
    simp only [Win.pred, Option.some.injEq, Prod.mk.injEq] at h
    obtain ⟨rfl, rfl, rfl⟩ := h
    exact ⟨_, rfl, hq⟩

/-- A repetition goes over a run of bytes that are each matched. -/
theorem Hush.star_run {a : E} {q : QState} {res : SkRes} : ∀ (n p : Nat),
    (∀ i, i < n → ∃ ts, Hush w a (p + i) q (.ok (p + i + 1) ts q)) →
    (∃ ts, res = .ok p' ts q' ∧ Hush w (.star a) (p + n) q res) →
    ∃ ts, Hush w (.star a) p q (.ok p' ts q') := by
  intro n
  induction n with
  | zero => rintro p - ⟨ts, rfl, h⟩; exact ⟨ts, h⟩
  | succ n ih =>
    intro p h1 h2
    obtain ⟨ts, h3⟩ := h1 0 (by omega)
    obtain ⟨us, h4⟩ := ih (p + 1) (fun i hi => by
        have := h1 (i + 1) (by omega)
        rwa [show p + (i + 1) = p + 1 + i by omega] at this)
      (by rwa [show p + 1 + n = p + (n + 1) by omega])
    exact ⟨us ++ ts, .star_more h3 h4⟩

/-- A word ends before a byte that cannot be part of it. -/
theorem Hush.wb {p : Nat} {q : QState} {v : Option Nat} (h : ∀ c, w[p]? = some c → Win.symPart.mem c = false) :
    ∃ ts, Hush w (.nt .r_WB v) p q (.ok p ts q) := by
  have hany : ∀ c, CharSet.any.mem c = true := by
    intro c
    unfold CharSet.mem CharSet.any
    rw [Nat.testBit_two_pow_sub_one]
    exact decide_eq_true (UInt8.toNat_lt c)
  cases hc : w[p]? with
  | none => exact ⟨_, .nt_ok (.peek_ok (.alt_ok (.nt_ok (.seq_ok (.npeek_no (.one_no fun c h => by rw [hc] at h; cases h)) .act))))⟩
  | some c =>
    exact ⟨_, .nt_ok (.peek_ok (.alt_no (.nt_no (.seq_no (.npeek_ok (.one_ok hc (hany c)))))
      (.seq_ok (.npeek_no (.nt_no (.one_no h))) (.one_ok hc (hany c)))))⟩

/-- What the run finds holds for every text that fits. -/
theorem Win.run_sound : ∀ (n : Nat) (W : Win) (pos : Nat → Nat) (q0 : QState), Fit w W pos →
    (∀ M, W.top = some M → lastPrec q0.2 = M) →
    ∀ (e : E) (k : Nat) (op : OpS) (ps : List Nat) (r : WRes), run n W e k op ps = some r →
    ∀ q, Stands q0 op ps q → r.Holds w pos q0 e (pos k) q := by
  intro n
  induction n with
  | zero => intro W pos q0 _ _ e k op ps r h; simp [run] at h
  | succ n ih =>
    intro W pos q0 hf ht e k op ps r h q hq
    cases e with
    | eps =>
      simp only [run, Option.some.injEq] at h
      subst h
      exact ⟨_, _, .eps, hq⟩
    | one m =>
      simp only [run] at h
      cases hn : never m (W.cells.drop k) with
      | true =>
        rw [hn] at h
        simp only [cond, Option.some.injEq] at h
        subst h
        exact ⟨_, .one_no (hf.never k hn), hq⟩
      | false =>
        rw [hn] at h
        simp only [cond] at h
        split at h
        · rename_i K hk
          cases hs : sub K m with
          | false => rw [hs] at h; cases h
          | true =>
            rw [hs] at h
            simp only [cond, Option.some.injEq] at h
            subst h
            obtain ⟨h1, c, h2, h3⟩ := hf.byte k K hk
            refine ⟨[], _, ?_, hq⟩
            rw [h1]
            exact .one_ok h2 (sub_mem hs h3)
        · cases h
    | str l =>
      simp only [run] at h
      split at h
      · rename_i k' hs
        cases h
        obtain ⟨h1, h2⟩ := hf.str _ _ _ hs
        refine ⟨[], _, ?_, hq⟩
        rw [h1]
        exact .str_ok h2
      · rename_i hs
        cases h
        exact ⟨_, .str_no (hf.str _ _ _ hs), hq⟩
      · cases h
    | nt x v =>
      simp only [run] at h
      cases hws : x == .r_ws && W.isWs k with
      | true =>
        rw [hws] at h
        simp only [cond, Option.some.injEq] at h
        subst h
        simp only [Bool.and_eq_true, beq_iff_eq] at hws
        obtain ⟨rfl, hws⟩ := hws
        unfold isWs at hws
        split at hws
        · rename_i ne hk
          obtain ⟨ts, h1⟩ := (hf.ws k ne hk).2 v q
          exact ⟨_, _, h1, hq⟩
        · cases hws
      | false =>
      rw [hws] at h
      simp only [cond] at h
      split at h
      · rename_i f hx
        have hmem := List.mem_of_find?_eq_some hx
        have hat := List.find?_some hx
        simp only [Bool.and_eq_true, beq_iff_eq] at hat
        obtain ⟨hat, rfl⟩ := hat
        cases hb : f.op.isNone || decide (some op = f.op.map OpS.known) with
        | false => rw [hb] at h; cases h
        | true =>
          rw [hb] at h
          simp only [cond] at h
          have := hf.facts f hmem v q (by
            intro o ho
            rw [ho] at hb
            simp only [Option.isNone_some, Option.map_some, Option.some.injEq, Bool.false_or,
              decide_eq_true_eq] at hb
            exact hq.known o hb)
          rw [hat] at this
          cases hto : f.upTo with
          | some k' =>
            rw [hto] at h this
            simp only [Option.some.injEq] at h
            subst h
            obtain ⟨ts, op', h1, h2⟩ := this
            refine ⟨_, _, h1, ?_⟩
            cases hk : f.keep with
            | false => exact ⟨hq.ps, (fun h => by cases h), fun o h => by cases h⟩
            | true => rw [h2 hk]; exact hq
          | none =>
            rw [hto] at h this
            simp only [Option.some.injEq] at h
            subst h
            obtain ⟨op', h1, h2⟩ := this
            refine ⟨_, h1, ?_⟩
            cases hk : f.keep with
            | false => exact ⟨hq.ps, (fun h => by cases h), fun o h => by cases h⟩
            | true => rw [h2 hk]; exact hq
      · cases hwb : x == .r_WB && never symPart (W.cells.drop k) with
        | true =>
          rw [hwb] at h
          simp only [Option.some.injEq] at h
          subst h
          simp only [Bool.and_eq_true, beq_iff_eq] at hwb
          obtain ⟨rfl, hwb⟩ := hwb
          obtain ⟨ts, h1⟩ := Hush.wb (q := q) (v := v) (hf.never k hwb)
          exact ⟨_, _, h1, hq⟩
        | false =>
        rw [hwb] at h
        simp only [cond] at h
        have := ih W pos q0 hf ht _ _ _ _ _ h q hq
        cases r with
        | ok k' op' ps' =>
          obtain ⟨ts, q', h1, h2⟩ := this
          exact ⟨_, _, .nt_ok h1, h2⟩
        | no op' ps' =>
          obtain ⟨q', h1, h2⟩ := this
          exact ⟨_, .nt_no h1, h2⟩
    | seq a b =>
      simp only [run] at h
      split at h
      · rename_i k1 op1 ps1 ha
        obtain ⟨ts, q1, h1, h2⟩ := ih W pos q0 hf ht _ _ _ _ _ ha q hq
        have := ih W pos q0 hf ht _ _ _ _ _ h q1 h2
        cases r with
        | ok k' op' ps' =>
          obtain ⟨us, q', h3, h4⟩ := this
          exact ⟨_, _, .seq_ok h1 h3, h4⟩
        | no op' ps' =>
          obtain ⟨q', h3, h4⟩ := this
          exact ⟨_, .seq_no2 h1 h3, h4⟩
      · rename_i hne
        have := ih W pos q0 hf ht _ _ _ _ _ h q hq
        cases r with
        | ok k' op' ps' => exact absurd h (hne _ _ _)
        | no op' ps' =>
          obtain ⟨q', h1, h2⟩ := this
          exact ⟨_, .seq_no h1, h2⟩
    | alt a b =>
      simp only [run] at h
      split at h
      · rename_i op1 ps1 ha
        obtain ⟨q1, h1, h2⟩ := ih W pos q0 hf ht _ _ _ _ _ ha q hq
        have := ih W pos q0 hf ht _ _ _ _ _ h q1 h2
        cases r with
        | ok k' op' ps' =>
          obtain ⟨us, q', h3, h4⟩ := this
          exact ⟨_, _, .alt_no h1 h3, h4⟩
        | no op' ps' =>
          obtain ⟨q', h3, h4⟩ := this
          exact ⟨_, .alt_no h1 h3, h4⟩
      · rename_i hne
        have := ih W pos q0 hf ht _ _ _ _ _ h q hq
        cases r with
        | ok k' op' ps' =>
          obtain ⟨ts, q', h1, h2⟩ := this
          exact ⟨_, _, .alt_ok h1, h2⟩
        | no op' ps' => exact absurd h (hne _ _)
    | star a =>
      simp only [run] at h
      split at h
      · rename_i f hx
        have hmem := List.mem_of_find?_eq_some hx
        have hat := List.find?_some hx
        simp only [Bool.and_eq_true, beq_iff_eq, decide_eq_true_eq] at hat
        obtain ⟨hat, rfl⟩ := hat
        subst hat
        cases h
        obtain ⟨ts, op', h1⟩ := hf.stars f hmem q
        exact ⟨_, _, h1, hq.ps, (fun h => by cases h), fun o h => by cases h⟩
      split at h
      rotate_left
      · simp only [cond] at h
        split at h
        · rename_i k1 op1 ps1 ha
          obtain ⟨ts, q1, h1, h2⟩ := ih W pos q0 hf ht _ _ _ _ _ ha q hq
          have := ih W pos q0 hf ht _ _ _ _ _ h q1 h2
          cases r with
          | ok k' op' ps' =>
            obtain ⟨us, q', h3, h4⟩ := this
            exact ⟨_, _, .star_more h1 h3, h4⟩
          | no op' ps' =>
            obtain ⟨q', h3, h4⟩ := this
            cases h3
        · rename_i op1 ps1 ha
          obtain ⟨q1, h1, h2⟩ := ih W pos q0 hf ht _ _ _ _ _ ha q hq
          cases h
          exact ⟨_, _, .star_end h1, h2⟩
        · cases h
      rename_i K hk
      cases hone : decide (run n ⟨[.byte K], [], none, []⟩ a 0 .same [] = some (.ok 1 .same [])) with
      | true =>
        rw [hone] at h
        simp only [cond] at h
        have hone := of_decide_eq_true hone
        obtain ⟨m, h1, h2⟩ := hf.run k K hk
        have := ih W pos q0 hf ht _ _ _ _ _ h q hq
        cases r with
        | no op' ps' =>
          obtain ⟨q', h3, h4⟩ := this
          cases h3
        | ok k' op' ps' =>
          obtain ⟨us, q', h3, h4⟩ := this
          rw [h1] at h3
          obtain ⟨ts, h5⟩ := Hush.star_run (w := w) (a := a) (q := q) m (pos k) (fun i hi => by
            obtain ⟨c, g1, g2⟩ := h2 i hi
            have hfit : Fit w ⟨[.byte K], [], none, []⟩ (fun j => pos k + i + j) := by
              refine ⟨fun j L hj => ?_, fun j L hj => ?_, fun j L hj => ?_, fun j L hj => ?_, fun j hj => ?_, by simp, by simp⟩
              · cases j with
                | zero =>
                  simp only [List.getElem?_cons_zero, Option.some.injEq, Tile.byte.injEq] at hj
                  subst hj
                  exact ⟨by omega, c, g1, g2⟩
                | succ j => simp at hj
              all_goals (cases j <;> simp at hj)
            obtain ⟨ts, q1, e1, e2⟩ := ih _ _ q hfit (by simp) _ _ _ _ _ hone q ⟨rfl, (fun _ => rfl), (fun o h => by cases h)⟩
            have : q1 = q := Prod.ext (e2.same rfl) e2.ps
            subst this
            exact ⟨ts, e1⟩) ⟨us, rfl, h3⟩
          exact ⟨ts, q', h5, h4⟩
      | false =>
        rw [hone] at h
        simp only [cond] at h
        split at h
        · rename_i k1 op1 ps1 ha
          obtain ⟨ts, q1, h1, h2⟩ := ih W pos q0 hf ht _ _ _ _ _ ha q hq
          have := ih W pos q0 hf ht _ _ _ _ _ h q1 h2
          cases r with
          | ok k' op' ps' =>
            obtain ⟨us, q', h3, h4⟩ := this
            exact ⟨_, _, .star_more h1 h3, h4⟩
          | no op' ps' =>
            obtain ⟨q', h3, h4⟩ := this
            cases h3
        · rename_i op1 ps1 ha
          obtain ⟨q1, h1, h2⟩ := ih W pos q0 hf ht _ _ _ _ _ ha q hq
          cases h
          exact ⟨_, _, .star_end h1, h2⟩
        · cases h
    | peek a =>
      simp only [run] at h
      split at h
      · rename_i k1 op1 ps1 ha
        obtain ⟨ts, q1, h1, h2⟩ := ih W pos q0 hf ht _ _ _ _ _ ha q hq
        cases h
        exact ⟨_, _, .peek_ok h1, h2⟩
      · rename_i hne
        have := ih W pos q0 hf ht _ _ _ _ _ h q hq
        cases r with
        | ok k' op' ps' => exact absurd h (hne _ _ _)
        | no op' ps' =>
          obtain ⟨q', h1, h2⟩ := this
          exact ⟨_, .peek_no h1, h2⟩
    | npeek a =>
      simp only [run] at h
      split at h
      · rename_i k1 op1 ps1 ha
        obtain ⟨ts, q1, h1, h2⟩ := ih W pos q0 hf ht _ _ _ _ _ ha q hq
        cases h
        exact ⟨_, .npeek_ok h1, h2⟩
      · rename_i op1 ps1 ha
        obtain ⟨q1, h1, h2⟩ := ih W pos q0 hf ht _ _ _ _ _ ha q hq
        cases h
        exact ⟨_, _, .npeek_no h1, h2⟩
      · cases h
    | pred x =>
      simp only [run] at h
      split at h
      · rename_i op1 ps1 hp
        obtain ⟨q1, h1, h2⟩ := pred_sound ht hp hq
        cases h
        exact ⟨_, _, .pred_ok h1, h2⟩
      · rename_i op1 ps1 hp
        obtain ⟨q1, h1, h2⟩ := pred_sound ht hp hq
        cases h
        exact ⟨_, .pred_no h1, h2⟩
      · cases h
    | act a =>
      simp only [run, Option.some.injEq] at h
      subst h
      exact ⟨_, _, .act, hq⟩
    | onfail a x =>
      simp only [run] at h
      split at h
      · rename_i op1 ps1 ha
        obtain ⟨q1, h1, h2⟩ := ih W pos q0 hf ht _ _ _ _ _ ha q hq
        split at h
        · rename_i b op2 ps2 hp
          obtain ⟨q2, h3, h4⟩ := pred_sound ht hp h2
          cases h
          exact ⟨_, .onfail_no h1 h3, h4⟩
        · cases h
      · rename_i hne
        have := ih W pos q0 hf ht _ _ _ _ _ h q hq
        cases r with
        | ok k' op' ps' =>
          obtain ⟨ts, q', h1, h2⟩ := this
          exact ⟨_, _, .onfail_ok h1, h2⟩
        | no op' ps' => exact absurd h (hne _ _)

end

end Verif.Cypher
