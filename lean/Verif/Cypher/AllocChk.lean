import Verif.Cypher.AllocCmd
/-!
# A check of programs that allocate

`chk` follows a program with what is known of each pointer, and `chk_sound` shows that a program that passes loses and
misuses nothing, whatever is answered.
-/
namespace Verif.Alloc
open Verif

/-- What is known of a pointer. -/
inductive Know where
  /-- nothing, or it is not ours -/
  | wild
  | null
  /-- to an allocation that we own -/
  | own
  /-- `null` or `own` -/
  | maybe
  deriving DecidableEq, Repr

def Know.owned : Know → Bool
  | .own | .maybe => true
  | _ => false

abbrev Knows := Slot → Know

def Knows.set (A : Knows) (x : Slot) (k : Know) : Knows := fun y => if y = x then k else A y

def Knows.fill (A : Knows) (x : Slot) (k : Know) : Knows :=
  if x = .node then ((Knows.set A .kids .null).set .extra .null).set .node k else A.set x k

def Knows.reach (A : Knows) (x : Slot) : Bool := !x.inNode || A .node == .own

/-- Nothing is ours. -/
def Knows.clear (A : Knows) : Bool := Slot.all.all fun x => !(A x).owned

def chkFail (A : Knows) : List Slot → Bool
  | [] => A.clear
  | x :: xs => A.reach x && A x != .wild && chkFail (A.set x .wild) xs

/-- `done` is whether there is something to be returned. -/
def chk (A : Knows) (done : Bool) : List Cmd → Bool
  | [] => A.clear
  | .check f :: p => !done && chkFail A f && chk A done p
  | .alloc x f :: p => !done && A.reach x && !(A x).owned && (x != .node || (!(A .kids).owned && !(A .extra).owned)) &&
    chkFail (A.set x .null) f && chk (A.fill x .own) done p
  | .part x f :: p => !done && x != .node && A.reach x && A x == .null && chkFail (A.set x .null) f &&
    chk (A.set x .maybe) done p
  | .init f :: p => !done && A.reach .kids && !(A .kids).owned && chkFail (A.set .kids .null) f &&
    chk (A.set .kids .maybe) done p
  | .bare :: p => A.reach .kids && !(A .kids).owned && chk (A.set .kids .null) done p
  | .build _ :: p => !done && chk A true p
  | .drop x :: p => A.reach x && A x != .wild && chk (A.set x .wild) done p
  | .ret :: p => !done && A .node == .own && A .kids != .wild && A .extra != .wild &&
    chk (((A.set .node .wild).set .kids .wild).set .extra .wild) true p

def Knows.start : Knows := fun _ => .wild

/-! ## What a run should do -/

/-- If NULL is returned, what is allocated is what was; otherwise that and the node, which is new. -/
def Tidy (live : List Nat) (r : Option Made × Mem) : Prop :=
  match r.1 with
  | none => ∀ c, c ∈ r.2.live ↔ c ∈ live
  | some d => d.cells.Nodup ∧ (∀ c ∈ d.cells, c ∉ live) ∧ ∀ c, c ∈ r.2.live ↔ c ∈ d.cells ∨ c ∈ live

/-- The numbers of what is allocated are those of questions that were answered. -/
def Mem.Old (m : Mem) : Prop := ∀ c ∈ m.live, c < m.tick

/-! ## Soundness -/

def outCells : Option Made → List Nat
  | none => []
  | some d => d.cells

structure Inv (base : List Nat) (A : Knows) (done : Bool) (fr : Frame) (m : Mem) : Prop where
  null : ∀ x, A x = .null → fr.ptr x = .null
  own : ∀ x, A x = .own → ∃ c, fr.ptr x = .cell c
  maybe : ∀ x, A x = .maybe → fr.ptr x ≠ .wild
  live : ∀ c, c ∈ m.live ↔ c ∈ base ∨ (∃ x, (A x).owned = true ∧ fr.ptr x = .cell c) ∨ c ∈ outCells fr.out
  old : m.Old
  inj : ∀ x y c, (A x).owned = true → (A y).owned = true → fr.ptr x = .cell c → fr.ptr y = .cell c → x = y
  sep : ∀ x c, (A x).owned = true → fr.ptr x = .cell c → c ∉ base ∧ c ∉ outCells fr.out
  outNodup : (outCells fr.out).Nodup
  outSep : ∀ c ∈ outCells fr.out, c ∉ base
  done : done = false → fr.out = none

variable {base : List Nat} {A : Knows} {done : Bool} {fr : Frame} {m : Mem}

theorem clear_spec (h : A.clear = true) (x : Slot) : (A x).owned = false := by
  unfold Knows.clear Slot.all at h
  simp only [List.all_cons, List.all_nil, Bool.and_true, Bool.and_eq_true, Bool.not_eq_true'] at h
  obtain ⟨h1, h2, h3, h4, h5⟩ := h
  cases x <;> assumption

theorem Inv.tidy (h : Inv base A done fr m) (hc : A.clear = true) : Tidy base (fr.out, m) ∧ m.Old := by
  refine ⟨?_, h.old⟩
  have hn : ∀ c, ¬ ∃ x, (A x).owned = true ∧ fr.ptr x = .cell c := fun c ⟨x, hx, _⟩ => by
    rw [clear_spec hc x] at hx; cases hx
  have hl := h.live
  have h1 := h.outNodup
  have h2 := h.outSep
  unfold Tidy
  cases e : fr.out with
  | none =>
    intro c
    rw [e] at hl
    simpa [hn c, outCells] using hl c
  | some d =>
    rw [e] at hl h1 h2
    refine ⟨h1, h2, fun c => ?_⟩
    have := hl c
    simp only [hn c, false_or, outCells] at this
    rw [this]; exact or_comm

/-- A pointer that is not ours is assigned. -/
theorem Inv.setOther (h : Inv base A done fr m) {x : Slot} (hx : (A x).owned = false) {k : Know} {p : Ptr}
    (hk : k.owned = false) (hp : k = .null → p = .null) : Inv base (A.set x k) done (fr.set x p) m := by
  have key : ∀ y, ((A.set x k) y).owned = true → y ≠ x ∧ (A y).owned = true := fun y hy => by
    unfold Knows.set at hy
    split at hy
    · rw [hk] at hy; cases hy
    · exact ⟨‹_›, hy⟩
  have ptr : ∀ y, y ≠ x → (fr.set x p).ptr y = fr.ptr y := fun y hy => by simp [Frame.set, hy]
  refine ⟨fun y hy => ?_, fun y hy => ?_, fun y hy => ?_, fun c => ?_, h.old, fun y z c hy hz e1 e2 => ?_, fun y c hy e => ?_,
    h.outNodup, h.outSep, h.done⟩
  · unfold Knows.set at hy
    split at hy
    · subst y; simpa [Frame.set] using hp hy
    · rw [ptr y ‹_›]; exact h.null y hy
  · have := key y (by rw [hy]; rfl)
    rw [ptr y this.1]
    unfold Knows.set at hy
    rw [if_neg this.1] at hy
    exact h.own y hy
  · have := key y (by rw [hy]; rfl)
    rw [ptr y this.1]
    unfold Knows.set at hy
    rw [if_neg this.1] at hy
    exact h.maybe y hy
  · rw [h.live c]
    have : (∃ y, (A y).owned = true ∧ fr.ptr y = .cell c) ↔
        ∃ y, ((A.set x k) y).owned = true ∧ (fr.set x p).ptr y = .cell c := by
      constructor
      · rintro ⟨y, hy, e⟩
        have hyx : y ≠ x := fun e => by rw [e, hx] at hy; cases hy
        exact ⟨y, by simpa [Knows.set, hyx] using hy, by rw [ptr y hyx]; exact e⟩
      · rintro ⟨y, hy, e⟩
        obtain ⟨h1, h2⟩ := key y hy
        exact ⟨y, h2, by rw [← ptr y h1]; exact e⟩
    rw [this]; rfl
  · obtain ⟨a1, a2⟩ := key y hy
    obtain ⟨b1, b2⟩ := key z hz
    rw [ptr y a1] at e1
    rw [ptr z b1] at e2
    exact h.inj y z c a2 b2 e1 e2
  · obtain ⟨a1, a2⟩ := key y hy
    rw [ptr y a1] at e
    exact h.sep y c a2 e

/-- A pointer that is not ours gets a new allocation. -/
theorem Inv.setNew (h : Inv base A done fr m) (hb : ∀ c ∈ base, c < m.tick) {x : Slot} (hx : (A x).owned = false) {k : Know}
    (hk : k.owned = true) (ho : done = false) : Inv base (A.set x k) done (fr.set x (.cell m.tick)) m.add := by
  have hout := h.done ho
  have key : ∀ y, y ≠ x → (A.set x k) y = A y := fun y hy => by simp [Knows.set, hy]
  have ptr : ∀ y, y ≠ x → (fr.set x (.cell m.tick)).ptr y = fr.ptr y := fun y hy => by simp [Frame.set, hy]
  have ptrx : (fr.set x (.cell m.tick)).ptr x = .cell m.tick := by simp [Frame.set]
  have lt : ∀ y c, (A y).owned = true → fr.ptr y = .cell c → c < m.tick := fun y c hy e =>
    h.old c ((h.live c).2 (.inr (.inl ⟨y, hy, e⟩)))
  refine ⟨fun y hy => ?_, fun y hy => ?_, fun y hy => ?_, fun c => ?_, fun c hc => ?_, fun y z c hy hz e1 e2 => ?_, fun y c hy e => ?_,
    h.outNodup, h.outSep, h.done⟩
  · by_cases e : y = x
    · subst e; simp only [Knows.set, if_true] at hy; rw [hy] at hk; cases hk
    · rw [ptr y e]; rw [key y e] at hy; exact h.null y hy
  · by_cases e : y = x
    · subst e; exact ⟨_, ptrx⟩
    · rw [ptr y e]; rw [key y e] at hy; exact h.own y hy
  · by_cases e : y = x
    · subst e; rw [ptrx]; simp
    · rw [ptr y e]; rw [key y e] at hy; exact h.maybe y hy
  · have : c ∈ m.add.live ↔ c = m.tick ∨ c ∈ m.live := by simp [Mem.add]
    rw [this, h.live c]
    constructor
    · rintro (rfl | h1 | ⟨y, hy, e⟩ | h1)
      · exact .inr (.inl ⟨x, by simpa [Knows.set] using hk, ptrx⟩)
      · exact .inl h1
      · have hyx : y ≠ x := fun e => by rw [e, hx] at hy; cases hy
        exact .inr (.inl ⟨y, by rw [key y hyx]; exact hy, by rw [ptr y hyx]; exact e⟩)
      · exact .inr (.inr h1)
    · rintro (h1 | ⟨y, hy, e⟩ | h1)
      · exact .inr (.inl h1)
      · by_cases e' : y = x
        · subst e'; rw [ptrx] at e; cases e; exact .inl rfl
        · rw [key y e'] at hy; rw [ptr y e'] at e; exact .inr (.inr (.inl ⟨y, hy, e⟩))
      · exact .inr (.inr (.inr h1))
  · simp only [Mem.add, List.mem_cons] at hc ⊢
    rcases hc with rfl | hc
    · omega
    · have := h.old c hc; omega
  · by_cases ey : y = x <;> by_cases ez : z = x
    · rw [ey, ez]
    · subst ey; rw [ptrx] at e1; cases e1; rw [key z ez] at hz; rw [ptr z ez] at e2
      have := lt z _ hz e2; omega
    · subst ez; rw [ptrx] at e2; cases e2; rw [key y ey] at hy; rw [ptr y ey] at e1
      have := lt y _ hy e1; omega
    · rw [key y ey] at hy; rw [key z ez] at hz; rw [ptr y ey] at e1; rw [ptr z ez] at e2
      exact h.inj y z c hy hz e1 e2
  · by_cases ey : y = x
    · subst ey; rw [ptrx] at e; cases e
      refine ⟨fun hc => ?_, by show _ ∉ outCells fr.out; rw [hout]; simp [outCells]⟩
      have := hb _ hc; omega
    · rw [key y ey] at hy; rw [ptr y ey] at e; exact h.sep y c hy e

theorem Inv.next (h : Inv base A done fr m) : Inv base A done fr m.next :=
  { h with old := fun c hc => by have := h.old c hc; simp only [Mem.next]; omega }

theorem Inv.reach (h : Inv base A done fr m) {x : Slot} (hx : A.reach x = true) : fr.reach x m = .ok () := by
  unfold Frame.reach
  cases e : x.inNode with
  | false => rfl
  | true =>
    rw [if_pos rfl]
    have hn : A .node = .own := by simpa [Knows.reach, e] using hx
    obtain ⟨c, hc⟩ := h.own _ hn
    rw [hc]
    have : c ∈ m.live := (h.live c).2 (.inr (.inl ⟨.node, by rw [hn]; rfl, hc⟩))
    simp [touch, this]

/-- `free` of a pointer of which something is known. -/
theorem Inv.free (h : Inv base A done fr m) {x : Slot} (hr : A.reach x = true) (hx : A x ≠ .wild) :
    ∃ m', fr.free x m = .ok m' ∧ m'.tick = m.tick ∧ Inv base (A.set x .wild) done fr m' := by
  unfold Frame.free
  rw [h.reach hr]
  show ∃ m', Alloc.free (fr.ptr x) m = .ok m' ∧ _
  have hfr : fr.set x (fr.ptr x) = fr := by
    unfold Frame.set
    congr 1
    funext y
    by_cases e : y = x
    · simp [e]
    · simp [e]
  cases ep : fr.ptr x with
  | wild =>
    exfalso
    cases ea : A x with
    | wild => exact hx ea
    | null => rw [h.null x ea] at ep; cases ep
    | own => obtain ⟨c, hc⟩ := h.own x ea; rw [hc] at ep; cases ep
    | maybe => exact h.maybe x ea ep
  | null =>
    refine ⟨m, rfl, rfl, ?_⟩
    by_cases ho : (A x).owned = true
    · have key : ∀ y, y ≠ x → (A.set x .wild) y = A y := fun y hy => by simp [Knows.set, hy]
      have keyx : (A.set x .wild) x = .wild := by simp [Knows.set]
      have k2 : ∀ y, (A.set x .wild) y ≠ .wild → y ≠ x ∧ (A.set x .wild) y = A y := fun y hy => by
        have : y ≠ x := fun e => hy (by rw [e]; exact keyx)
        exact ⟨this, key y this⟩
      refine ⟨fun y hy => ?_, fun y hy => ?_, fun y hy => ?_, fun c => ?_, h.old, fun y z c hy hz e1 e2 => ?_, fun y c hy e => ?_,
        h.outNodup, h.outSep, h.done⟩
      · exact h.null y ((k2 y (by rw [hy]; simp)).2 ▸ hy)
      · exact h.own y ((k2 y (by rw [hy]; simp)).2 ▸ hy)
      · exact h.maybe y ((k2 y (by rw [hy]; simp)).2 ▸ hy)
      · rw [h.live c]
        have : (∃ y, (A y).owned = true ∧ fr.ptr y = .cell c) ↔ ∃ y, ((A.set x .wild) y).owned = true ∧ fr.ptr y = .cell c := by
          constructor
          · rintro ⟨y, hy, e⟩
            have : y ≠ x := fun e' => by rw [e', ep] at e; cases e
            exact ⟨y, by rw [key y this]; exact hy, e⟩
          · rintro ⟨y, hy, e⟩
            have : y ≠ x := fun e' => by rw [e', keyx] at hy; cases hy
            exact ⟨y, by rw [key y this] at hy; exact hy, e⟩
        rw [this]
      · have a : y ≠ x := fun e' => by rw [e', keyx] at hy; cases hy
        have b : z ≠ x := fun e' => by rw [e', keyx] at hz; cases hz
        rw [key y a] at hy; rw [key z b] at hz
        exact h.inj y z c hy hz e1 e2
      · have a : y ≠ x := fun e' => by rw [e', keyx] at hy; cases hy
        rw [key y a] at hy
        exact h.sep y c hy e
    · have := h.setOther (x := x) (by simpa using ho) (k := .wild) (p := fr.ptr x) rfl (by simp)
      rwa [hfr] at this
  | cell i =>
    have ho : (A x).owned = true := by
      cases ea : A x with
      | wild => exact absurd ea hx
      | null => rw [h.null x ea] at ep; cases ep
      | own => rfl
      | maybe => rfl
    have hi : i ∈ m.live := (h.live i).2 (.inr (.inl ⟨x, ho, ep⟩))
    have key : ∀ y, y ≠ x → (A.set x .wild) y = A y := fun y hy => by simp [Knows.set, hy]
    have keyx : (A.set x .wild) x = .wild := by simp [Knows.set]
    have k2 : ∀ y, (A.set x .wild) y ≠ .wild → y ≠ x ∧ (A.set x .wild) y = A y := fun y hy => by
      have : y ≠ x := fun e => hy (by rw [e]; exact keyx)
      exact ⟨this, key y this⟩
    refine ⟨{ m with live := m.live.filter (· ≠ i) }, by simp [Alloc.free, hi], rfl, ?_⟩
    refine ⟨fun y hy => ?_, fun y hy => ?_, fun y hy => ?_, fun c => ?_, fun c hc => ?_, fun y z c hy hz e1 e2 => ?_,
      fun y c hy e => ?_, h.outNodup, h.outSep, h.done⟩
    · exact h.null y ((k2 y (by rw [hy]; simp)).2 ▸ hy)
    · exact h.own y ((k2 y (by rw [hy]; simp)).2 ▸ hy)
    · exact h.maybe y ((k2 y (by rw [hy]; simp)).2 ▸ hy)
    · simp only [List.mem_filter, decide_eq_true_eq]
      rw [h.live c]
      constructor
      · rintro ⟨h1 | ⟨y, hy, e⟩ | h1, h2⟩
        · exact .inl h1
        · have : y ≠ x := fun e' => by rw [e', ep] at e; cases e; exact h2 rfl
          exact .inr (.inl ⟨y, by rw [key y this]; exact hy, e⟩)
        · exact .inr (.inr h1)
      · rintro (h1 | ⟨y, hy, e⟩ | h1)
        · exact ⟨.inl h1, fun e => (h.sep x i ho ep).1 (e ▸ h1)⟩
        · have a : y ≠ x := fun e' => by rw [e', keyx] at hy; cases hy
          rw [key y a] at hy
          exact ⟨.inr (.inl ⟨y, hy, e⟩), fun e' => a (h.inj y x i hy ho (e' ▸ e) ep)⟩
        · exact ⟨.inr (.inr h1), fun e => (h.sep x i ho ep).2 (e ▸ h1)⟩
    · exact h.old c (List.mem_filter.1 hc).1
    · have a : y ≠ x := fun e' => by rw [e', keyx] at hy; cases hy
      have b : z ≠ x := fun e' => by rw [e', keyx] at hz; cases hz
      rw [key y a] at hy; rw [key z b] at hz
      exact h.inj y z c hy hz e1 e2
    · have a : y ≠ x := fun e' => by rw [e', keyx] at hy; cases hy
      rw [key y a] at hy
      exact h.sep y c hy e

theorem chkFail_sound : ∀ {f : List Slot} {A : Knows} {m : Mem}, chkFail A f = true → Inv base A false fr m →
    ∃ r, fail fr f m = .ok r ∧ r.1 = none ∧ Tidy base r ∧ r.2.Old ∧ m.tick ≤ r.2.tick
  | [], A, m, h, hi => by
    have := hi.tidy h
    rw [hi.done rfl] at this
    exact ⟨_, rfl, rfl, this.1, this.2, Nat.le_refl _⟩
  | x :: xs, A, m, h, hi => by
    simp only [chkFail, Bool.and_eq_true, bne_iff_ne] at h
    obtain ⟨m', e, ht, hi'⟩ := hi.free h.1.1 h.1.2
    obtain ⟨r, hr, h2⟩ := chkFail_sound h.2 hi'
    refine ⟨r, ?_, ht ▸ h2⟩
    unfold fail
    rw [e]
    exact hr

theorem Inv.fillNew (h : Inv base A done fr m) (hb : ∀ c ∈ base, c < m.tick) {x : Slot} (hx : (A x).owned = false)
    (hn : x = .node → (A .kids).owned = false ∧ (A .extra).owned = false) (ho : done = false) :
    Inv base (A.fill x .own) done (fr.fill x (.cell m.tick)) m.add := by
  unfold Knows.fill Frame.fill
  by_cases e : x = .node
  · subst e
    rw [if_pos rfl, if_pos rfl]
    obtain ⟨h1, h2⟩ := hn rfl
    refine ((h.setOther h1 rfl (fun _ => rfl)).setOther (x := .extra) ?_ rfl (fun _ => rfl)).setNew hb ?_ rfl ho
    · simpa [Knows.set] using h2
    · simpa [Knows.set] using hx
  · rw [if_neg e, if_neg e]
    exact h.setNew hb hx rfl ho

theorem Inv.setMaybe (h : Inv base A done fr m) {x : Slot} (hx : A x = .null) : Inv base (A.set x .maybe) done fr m := by
  have hp := h.null x hx
  have key : ∀ y, y ≠ x → (A.set x .maybe) y = A y := fun y hy => by simp [Knows.set, hy]
  have ne : ∀ y c, fr.ptr y = .cell c → y ≠ x := fun y c e e' => by rw [e', hp] at e; cases e
  have hx' : ∀ {k}, (A.set x .maybe) x = k → k = .maybe := fun e => by simpa [Knows.set] using e.symm
  refine ⟨fun y hy => ?_, fun y hy => ?_, fun y hy => ?_, fun c => ?_, h.old, fun y z c hy hz e1 e2 => ?_, fun y c hy e => ?_,
    h.outNodup, h.outSep, h.done⟩
  · by_cases e : y = x
    · subst e; cases hx' hy
    · exact h.null y (key y e ▸ hy)
  · by_cases e : y = x
    · subst e; cases hx' hy
    · exact h.own y (key y e ▸ hy)
  · by_cases e : y = x
    · subst e; rw [hp]; simp
    · exact h.maybe y (key y e ▸ hy)
  · rw [h.live c]
    have : (∃ y, (A y).owned = true ∧ fr.ptr y = .cell c) ↔ ∃ y, ((A.set x .maybe) y).owned = true ∧ fr.ptr y = .cell c := by
      constructor
      · rintro ⟨y, hy, e⟩
        exact ⟨y, by rw [key y (ne y c e)]; exact hy, e⟩
      · rintro ⟨y, hy, e⟩
        exact ⟨y, by rw [key y (ne y c e)] at hy; exact hy, e⟩
    rw [this]
  · rw [key y (ne y c e1)] at hy; rw [key z (ne z c e2)] at hz
    exact h.inj y z c hy hz e1 e2
  · rw [key y (ne y c e)] at hy
    exact h.sep y c hy e

/-- A constructor was called. -/
theorem Inv.build (h : Inv base A false fr m) {r : Option Made × Mem} (ht : Tidy m.live r) (ho : r.2.Old) :
    Inv base A true { fr with out := r.1 } r.2 := by
  have hout := h.done rfl
  have hl := h.live
  rw [hout] at hl
  simp only [outCells, List.not_mem_nil, or_false] at hl
  unfold Tidy at ht
  obtain ⟨o, m'⟩ := r
  have h1 : (outCells o).Nodup ∧ (∀ c ∈ outCells o, c ∉ m.live) ∧ ∀ c, c ∈ m'.live ↔ c ∈ outCells o ∨ c ∈ m.live := by
    cases o with
    | none => exact ⟨.nil, by simp [outCells], fun c => by simpa [outCells] using ht c⟩
    | some d => exact ht
  refine ⟨h.null, h.own, h.maybe, fun c => ?_, ho, h.inj, fun x c hx e => ?_, h1.1, fun c hc hb => ?_, by simp⟩
  · rw [h1.2.2 c, hl c]
    show _ ↔ _ ∨ (∃ x, (A x).owned = true ∧ fr.ptr x = .cell c) ∨ c ∈ outCells o
    rw [or_comm, or_assoc]
  · exact ⟨(h.sep x c hx e).1, fun hc => h1.2.1 c hc ((hl c).2 (.inr ⟨x, hx, e⟩))⟩
  · exact h1.2.1 c hc ((hl c).2 (.inl hb))

/-- What a pointer of which something is known contributes to the node. -/
theorem Inv.opt (h : Inv base A done fr m) {x : Slot} (hx : A x ≠ .wild) :
    ∃ o, (fr.ptr x).opt = .ok o ∧ ∀ c, o = some c ↔ (A x).owned = true ∧ fr.ptr x = .cell c := by
  cases ep : fr.ptr x with
  | wild =>
    exfalso
    cases ea : A x with
    | wild => exact hx ea
    | null => rw [h.null x ea] at ep; cases ep
    | own => obtain ⟨c, hc⟩ := h.own x ea; rw [hc] at ep; cases ep
    | maybe => exact h.maybe x ea ep
  | null => exact ⟨none, rfl, by simp⟩
  | cell i =>
    refine ⟨some i, rfl, fun c => ?_⟩
    have ho : (A x).owned = true := by
      cases ea : A x with
      | wild => exact absurd ea hx
      | null => rw [h.null x ea] at ep; cases ep
      | own => rfl
      | maybe => rfl
    simp [ho]

theorem Inv.ret (h : Inv base A false fr m) (h1 : A .node = .own) (h2 : A .kids ≠ .wild) (h3 : A .extra ≠ .wild) :
    ∃ fr', fr.ret m = .ok fr' ∧ Inv base (((A.set .node .wild).set .kids .wild).set .extra .wild) true fr' m := by
  obtain ⟨i, hi⟩ := h.own _ h1
  have hn : (A .node).owned = true := by rw [h1]; rfl
  obtain ⟨k, ek, hk⟩ := h.opt h2
  obtain ⟨e, ee, he⟩ := h.opt h3
  have hl : i ∈ m.live := (h.live i).2 (.inr (.inl ⟨.node, hn, hi⟩))
  have hout := h.done rfl
  refine ⟨{ fr with out := some ⟨i, k, e⟩ }, ?_, ?_⟩
  · unfold Frame.ret
    rw [hi, ek, ee]
    simp only [touch, hl, if_true]
    rfl
  · have hc : ∀ c, c ∈ (⟨i, k, e⟩ : Made).cells ↔ ∃ x, (x = .node ∨ x = .kids ∨ x = .extra) ∧ (A x).owned = true ∧
        fr.ptr x = .cell c := by
      intro c
      simp only [Made.cells, List.mem_cons, List.mem_append, Option.mem_toList, Option.mem_def]
      rw [hk, he]
      constructor
      · rintro (rfl | h | h)
        · exact ⟨.node, .inl rfl, hn, hi⟩
        · exact ⟨_, .inr (.inl rfl), h⟩
        · exact ⟨_, .inr (.inr rfl), h⟩
      · rintro ⟨x, rfl | rfl | rfl, hx⟩
        · rw [hi] at hx; injection hx.2 with e; exact .inl e.symm
        · exact .inr (.inl hx)
        · exact .inr (.inr hx)
    have key : ∀ y, ((((A.set .node .wild).set .kids .wild).set .extra .wild) y ≠ .wild) →
        (((A.set .node .wild).set .kids .wild).set .extra .wild) y = A y ∧ ¬ (y = .node ∨ y = .kids ∨ y = .extra) := by
      intro y hy
      cases y <;> simp [Knows.set] at hy ⊢
    have nw : ∀ {k : Know}, k.owned = true → k ≠ .wild := fun {k} hk e => by rw [e] at hk; cases hk
    refine ⟨fun y hy => ?_, fun y hy => ?_, fun y hy => ?_, fun c => ?_, h.old, fun y z c hy hz e1 e2 => ?_, fun y c hy e => ?_,
      ?_, fun c hcc => ?_, by simp⟩
    · exact h.null y ((key y (by rw [hy]; simp)).1 ▸ hy)
    · exact h.own y ((key y (by rw [hy]; simp)).1 ▸ hy)
    · exact h.maybe y ((key y (by rw [hy]; simp)).1 ▸ hy)
    · rw [h.live c, hout]
      show _ ↔ _ ∨ _ ∨ c ∈ (⟨i, k, e⟩ : Made).cells
      rw [hc c]
      constructor
      · rintro (hb | ⟨x, hx, ex⟩ | hx)
        · exact .inl hb
        · by_cases hy : x = .node ∨ x = .kids ∨ x = .extra
          · exact .inr (.inr ⟨x, hy, hx, ex⟩)
          · refine .inr (.inl ⟨x, ?_, ex⟩)
            simp only [not_or] at hy
            simpa [Knows.set, hy] using hx
        · simp [outCells] at hx
      · rintro (hb | ⟨x, hx, ex⟩ | ⟨x, -, hx⟩)
        · exact .inl hb
        · exact .inr (.inl ⟨x, (key x (nw hx)).1 ▸ hx, ex⟩)
        · exact .inr (.inl ⟨x, hx⟩)
    · exact h.inj y z c ((key y (nw hy)).1 ▸ hy) ((key z (nw hz)).1 ▸ hz) e1 e2
    · obtain ⟨k1, k2⟩ := key y (nw hy)
      rw [k1] at hy
      refine ⟨(h.sep y c hy e).1, fun hcc => ?_⟩
      obtain ⟨x, hx, hx1, hx2⟩ := (hc c).1 hcc
      exact k2 (h.inj y x c hy hx1 e hx2 ▸ hx)
    · show ((⟨i, k, e⟩ : Made).cells).Nodup
      have d1 : ∀ c, k = some c → i ≠ c := fun c hkc ei => by
        have := (hk c).1 hkc
        exact absurd (h.inj .node .kids c hn this.1 (ei ▸ hi) this.2) (by simp)
      have d2 : ∀ c, e = some c → i ≠ c := fun c hkc ei => by
        have := (he c).1 hkc
        exact absurd (h.inj .node .extra c hn this.1 (ei ▸ hi) this.2) (by simp)
      have d3 : ∀ c, k = some c → e ≠ some c := fun c hkc ei => by
        have := (he c).1 ei
        have t := (hk c).1 hkc
        exact absurd (h.inj .kids .extra c t.1 this.1 t.2 this.2) (by simp)
      cases k with
      | none => cases e with
        | none => simp [Made.cells]
        | some b => simpa [Made.cells] using d2 b rfl
      | some a => cases e with
        | none => simpa [Made.cells] using d1 a rfl
        | some b =>
          have := d3 a rfl
          simp only [ne_eq, Option.some.injEq] at this
          have ab : a ≠ b := fun h => this h.symm
          simp [Made.cells, d1 a rfl, d2 b rfl, ab]
    · obtain ⟨x, -, hx1, hx2⟩ := (hc c).1 hcc
      exact (h.sep x c hx1 hx2).1

section
variable {ask : Nat → Bool} {n : Nat} {callee : AstType → Mem → Except Fault (Option Made × Mem)}

/-- A good answer to a call. -/
def Good (live : List Nat) (tick : Nat) (x : Except Fault (Option Made × Mem)) : Prop :=
  ∃ r, x = .ok r ∧ Tidy live r ∧ r.2.Old ∧ tick ≤ r.2.tick

theorem Good.later {live : List Nat} {t t' : Nat} {x : Except Fault (Option Made × Mem)} (h : Good live t x) (ht : t' ≤ t) :
    Good live t' x := by
  obtain ⟨r, h1, h2, h3, h4⟩ := h
  exact ⟨r, h1, h2, h3, Nat.le_trans ht h4⟩

theorem chkFail_good {f : List Slot} (h : chkFail A f = true) (hi : Inv base A false fr m) :
    Good base m.tick (fail fr f m) := by
  obtain ⟨r, h1, -, h2⟩ := chkFail_sound h hi
  exact ⟨r, h1, h2⟩

/-- A program that passes the check ends as it should, whatever is answered, if the functions it calls do. -/
theorem chk_sound : ∀ {p : List Cmd} {A : Knows} {done : Bool} {fr : Frame} {m : Mem}, chk A done p = true →
    (∀ t, .build t ∈ p → ∀ m : Mem, m.Old → Good m.live m.tick (callee t m)) → Inv base A done fr m →
    (∀ c ∈ base, c < m.tick) → Good base m.tick (exec ask n callee p fr m)
  | [], A, done, fr, m, h, _, hi, _ => ⟨_, rfl, (hi.tidy h).1, (hi.tidy h).2, Nat.le_refl _⟩
  | c :: p, A, done, fr, m, h, hc, hi, hb => by
    have hc' : ∀ t, .build t ∈ p → ∀ m : Mem, m.Old → Good m.live m.tick (callee t m) := fun t ht =>
      hc t (List.mem_cons_of_mem _ ht)
    have hb1 : ∀ c ∈ base, c < m.tick + 1 := fun c hcb => Nat.lt_succ_of_lt (hb c hcb)
    have hb2 : ∀ c ∈ base, c < m.tick + 1 + 1 := fun c hcb => Nat.lt_succ_of_lt (hb1 c hcb)
    cases c with
    | check f =>
      simp only [chk, Bool.and_eq_true, Bool.not_eq_true'] at h
      obtain ⟨⟨rfl, h1⟩, h2⟩ := h
      unfold exec
      split
      · exact (chk_sound h2 hc' hi.next hb1).later (Nat.le_succ _)
      · exact (chkFail_good h1 hi.next).later (Nat.le_succ _)
    | alloc x f =>
      simp only [chk, Bool.and_eq_true, Bool.not_eq_true', Bool.or_eq_true, bne_iff_ne] at h
      obtain ⟨⟨⟨⟨⟨rfl, h1⟩, h2⟩, h3⟩, h4⟩, h5⟩ := h
      unfold exec
      rw [hi.reach h1]
      show Good _ _ (if _ then _ else _)
      split
      · refine (chk_sound h5 hc' (hi.fillNew hb h2 (fun e => ?_) rfl) hb1).later (Nat.le_succ _)
        rcases h3 with h3 | h3
        · exact absurd e h3
        · exact h3
      · exact (chkFail_good h4 ((hi.setOther h2 rfl (fun _ => rfl)).next)).later (Nat.le_succ _)
    | part x f =>
      simp only [chk, Bool.and_eq_true, Bool.not_eq_true', bne_iff_ne, beq_iff_eq] at h
      obtain ⟨⟨⟨⟨⟨rfl, h1⟩, h2⟩, h3⟩, h4⟩, h5⟩ := h
      have h6 : (A x).owned = false := by rw [h3]; rfl
      unfold exec
      split
      · dsimp only
        rw [hi.next.reach h2]
        show Good _ _ (if _ then _ else _)
        split
        · have : fr.fill x (.cell m.next.tick) = fr.set x (.cell m.next.tick) := by rw [Frame.fill, if_neg h1]
          rw [this]
          refine (chk_sound h5 hc' (hi.next.setNew hb1 h6 rfl rfl) hb2).later ?_
          simp only [Mem.add, Mem.next]; omega
        · refine (chkFail_good h4 ((hi.next.setOther h6 rfl (fun _ => rfl)).next)).later ?_
          simp only [Mem.next]; omega
      · exact (chk_sound h5 hc' (hi.next.setMaybe h3) hb1).later (Nat.le_succ _)
    | init f =>
      simp only [chk, Bool.and_eq_true, Bool.not_eq_true'] at h
      obtain ⟨⟨⟨⟨rfl, h1⟩, h2⟩, h3⟩, h4⟩ := h
      have hn : Inv base (A.set .kids .null) false (fr.set .kids .null) m := hi.setOther h2 rfl (fun _ => rfl)
      unfold exec
      rw [hi.reach h1]
      show Good _ _ (if _ then _ else _)
      split
      · have := hn.setMaybe (x := .kids) (by simp [Knows.set])
        have e : (A.set .kids .null).set .kids .maybe = A.set .kids .maybe := by
          funext y; by_cases e : y = .kids <;> simp [Knows.set, e]
        rw [e] at this
        exact chk_sound h4 hc' this hb
      · split
        · exact (chk_sound h4 hc' (hi.setNew hb h2 rfl rfl) hb1).later (Nat.le_succ _)
        · exact (chkFail_good h3 hn.next).later (Nat.le_succ _)
    | bare =>
      simp only [chk, Bool.and_eq_true, Bool.not_eq_true'] at h
      unfold exec
      rw [hi.reach h.1.1]
      exact chk_sound h.2 hc' (hi.setOther h.1.2 rfl (fun _ => rfl)) hb
    | build t =>
      simp only [chk, Bool.and_eq_true, Bool.not_eq_true'] at h
      obtain ⟨rfl, h1⟩ := h
      obtain ⟨r, e, h2, h3, h4⟩ := hc t (by simp) m hi.old
      unfold exec
      rw [e]
      exact (chk_sound h1 hc' (hi.build h2 h3) (fun c hcb => Nat.lt_of_lt_of_le (hb c hcb) h4)).later h4
    | drop x =>
      simp only [chk, Bool.and_eq_true, bne_iff_ne] at h
      obtain ⟨m', e, ht, hi'⟩ := hi.free h.1.1 h.1.2
      unfold exec
      rw [e]
      exact (chk_sound h.2 hc' hi' (fun c hcb => ht ▸ hb c hcb)).later (Nat.le_of_eq ht.symm)
    | ret =>
      simp only [chk, Bool.and_eq_true, Bool.not_eq_true', bne_iff_ne, beq_iff_eq] at h
      obtain ⟨⟨⟨⟨rfl, h1⟩, h2⟩, h3⟩, h4⟩ := h
      obtain ⟨fr', e, hi'⟩ := hi.ret h1 h2 h3
      unfold exec
      rw [e]
      exact chk_sound h4 hc' hi' hb

theorem Inv.start (h : m.Old) : Inv m.live .start false .start m := by
  refine ⟨fun x hx => (by cases hx), fun x hx => (by cases hx), fun x hx => (by cases hx), fun c => ?_, h,
    fun x y c hx => (by cases hx), fun x c hx => (by cases hx), .nil, fun c hc => (by cases hc), fun _ => rfl⟩
  constructor
  · exact .inl
  · rintro (h | ⟨x, hx, -⟩ | h)
    · exact h
    · cases hx
    · cases h

theorem chk_start {p : List Cmd} (h : chk .start false p = true)
    (hc : ∀ t, .build t ∈ p → ∀ m : Mem, m.Old → Good m.live m.tick (callee t m)) (hm : m.Old) :
    Good m.live m.tick (exec ask n callee p .start m) := chk_sound h hc (.start hm) hm

end

end Verif.Alloc
