import Verif.Data.Annotation
import Mathlib.Data.List.Nodup
import Mathlib.Data.List.Perm.Subperm
/-!
# C05: annotation contexts behave as finite maps
-/
namespace Verif

/-- Specification: one attached annotation. -/
structure Entry where
  c : Nat
  n : Nat
  d : Nat
  deriving DecidableEq, Repr

/-- Specification: attached annotations, newest attachment first. -/
abbrev AnnMap := List Entry

def AnnMap.lookup (m : AnnMap) (c n : Nat) : Option Nat :=
  (m.find? (fun e => e.c = c ∧ e.n = n)).map Entry.d

/-- Specification of the operations on the map. -/
def AnnMap.step (m : AnnMap) : AnnOp → AnnObs × AnnMap
  | .attach c n d =>
    match m.lookup c n with
    | some old => (.val (some old), m.map fun e => if e.c = c ∧ e.n = n then { e with d := d } else e)
    | none => (.val none, ⟨c, n, d⟩ :: m)
  | .remove c n => (.val (m.lookup c n), m.filter fun e => ¬ (e.c = c ∧ e.n = n))
  | .get c n => (.val (m.lookup c n), m)
  | .freeCtx c => (.released ((m.filter fun e => e.c = c).map Entry.d), m.filter fun e => e.c ≠ c)
  | .freeNode n => (.released ((m.filter fun e => e.n = n).map Entry.d), m.filter fun e => e.n ≠ n)

def AnnMap.run (m : AnnMap) : List AnnOp → List AnnObs
  | [] => []
  | op :: ops => (m.step op).1 :: AnnMap.run (m.step op).2 ops

/-! ## Doubly linked lists -/

/-- `l` is the doubly linked list through `nx`/`pv`. -/
def Dll (nx pv : Nat → Option Nat) (l : List Nat) : Prop :=
  ∀ i a : Nat, l[i]? = some a → nx a = l[i + 1]? ∧ pv a = if i = 0 then none else l[i - 1]?

theorem Dll.frame {nx pv nx' pv' : Nat → Option Nat} {l : List Nat} (h : Dll nx pv l)
    (h1 : ∀ a ∈ l, nx' a = nx a) (h2 : ∀ a ∈ l, pv' a = pv a) : Dll nx' pv' l := by
  intro i a hi
  have hm : a ∈ l := List.mem_of_getElem? hi
  rw [h1 a hm, h2 a hm]
  exact h i a hi

theorem nodup_idx {l : List Nat} (hn : l.Nodup) {i j : Nat} {a : Nat} (hi : l[i]? = some a)
    (hj : l[j]? = some a) : i = j := by
  obtain ⟨h1, h2⟩ := List.getElem?_eq_some_iff.1 hi
  obtain ⟨h3, h4⟩ := List.getElem?_eq_some_iff.1 hj
  exact (List.Nodup.getElem_inj_iff hn).1 (h2.trans h4.symm)

theorem Dll.insert {nx pv : Nat → Option Nat} {l : List Nat} {a : Nat} (h : Dll nx pv l)
    (hn : l.Nodup) (ha : a ∉ l) (hpa : pv a = none) :
    Dll (upd nx a l[0]?) (match l[0]? with | some b => upd pv b (some a) | none => pv) (a :: l) := by
  intro i x hi
  cases i with
  | zero =>
    simp at hi; subst hi
    refine ⟨by simp [upd], ?_⟩
    simp only [if_true]
    cases hb : l[0]? with
    | some b =>
      have : a ≠ b := by rintro rfl; exact ha (List.mem_of_getElem? hb)
      simp [upd, this, hpa]
    | none => exact hpa
  | succ i =>
    simp only [List.getElem?_cons_succ] at hi
    have hm : x ∈ l := List.mem_of_getElem? hi
    have hxa : x ≠ a := by rintro rfl; exact ha hm
    obtain ⟨h1, h2⟩ := h i x hi
    refine ⟨by simp [upd, hxa, h1], ?_⟩
    cases i with
    | zero => simp [hi, upd]
    | succ i =>
      obtain ⟨b, hb⟩ : ∃ b, l[0]? = some b := by
        cases l with
        | nil => simp at hi
        | cons b l => exact ⟨b, rfl⟩
      have : x ≠ b := by
        rintro rfl
        have := nodup_idx hn hi hb
        omega
      simp [hb, upd, this, h2]

/-- The next-pointers after unlinking `a`. -/
def unlinkNx (nx pv : Nat → Option Nat) (a : Nat) : Nat → Option Nat :=
  match pv a with | none => nx | some b => upd nx b (nx a)

/-- The prev-pointers after unlinking `a`. -/
def unlinkPv (nx pv : Nat → Option Nat) (a : Nat) : Nat → Option Nat :=
  match nx a with | none => pv | some b => upd pv b (pv a)

theorem Dll.remove {nx pv : Nat → Option Nat} {l : List Nat} {a k : Nat} (h : Dll nx pv l)
    (hn : l.Nodup) (ha : l[k]? = some a) :
    Dll (unlinkNx nx pv a) (unlinkPv nx pv a) (l.eraseIdx k) ∧
    (l.eraseIdx k)[0]? = (if pv a = none then nx a else l[0]?) := by
  obtain ⟨ha1, ha2⟩ := h k a ha
  have hkl : k < l.length := (List.getElem?_eq_some_iff.1 ha).1
  constructor
  · intro i x hi
    rw [List.getElem?_eraseIdx] at hi
    -- index of x in l
    obtain ⟨j, hj, hjk⟩ : ∃ j, l[j]? = some x ∧ ((i < k ∧ j = i) ∨ (k ≤ i ∧ j = i + 1)) := by
      split at hi
      · exact ⟨i, hi, .inl ⟨by assumption, rfl⟩⟩
      · exact ⟨i + 1, hi, .inr ⟨by omega, rfl⟩⟩
    obtain ⟨h1, h2⟩ := h j x hj
    constructor
    · -- next
      rw [List.getElem?_eraseIdx]
      unfold unlinkNx
      rw [ha2, ha1]
      by_cases hk0 : k = 0
      · simp only [hk0, if_true]
        rw [h1]
        have : j = i + 1 := by omega
        simp [this]
      · simp only [hk0, if_false]
        obtain ⟨b, hb⟩ : ∃ b, l[k - 1]? = some b := ⟨l[k - 1], List.getElem?_eq_getElem (by omega)⟩
        simp only [hb]
        by_cases hxb : x = b
        · subst hxb
          have := nodup_idx hn hj hb
          have hik : ¬ i + 1 < k := by omega
          have : i + 1 + 1 = k + 1 := by omega
          simp [upd, hik, this]
        · have hne : j ≠ k - 1 := by
            rintro rfl
            rw [hj] at hb; exact hxb (Option.some.inj hb)
          simp only [upd, hxb, if_false, h1]
          rcases hjk with ⟨c1, c2⟩ | ⟨c1, c2⟩
          · rw [if_pos (by omega), c2]
          · rw [if_neg (by omega), c2]
    · -- prev
      unfold unlinkPv
      rw [ha1, ha2]
      cases hb : l[k + 1]? with
      | none =>
        have hlen : ¬ k + 1 < l.length := by
          intro hc; rw [List.getElem?_eq_getElem hc] at hb; cases hb
        have hjl : j < l.length := (List.getElem?_eq_some_iff.1 hj).1
        simp only [h2]
        rcases hjk with ⟨c1, c2⟩ | ⟨c1, c2⟩
        · subst c2
          by_cases h0 : j = 0
          · simp [h0]
          · simp only [h0, if_false]
            rw [List.getElem?_eraseIdx, if_pos (by omega)]
        · omega
      | some b =>
        simp only []
        by_cases hxb : x = b
        · subst hxb
          have hj' := nodup_idx hn hj hb
          have hik : i = k := by omega
          subst hik
          simp only [upd, if_true]
          by_cases h0 : i = 0
          · simp [h0]
          · simp only [h0, if_false]
            rw [List.getElem?_eraseIdx, if_pos (by omega)]
        · have hne : j ≠ k + 1 := by
            rintro rfl
            rw [hj] at hb; exact hxb (Option.some.inj hb)
          simp only [upd, hxb, if_false, h2]
          rcases hjk with ⟨c1, c2⟩ | ⟨c1, c2⟩
          · subst c2
            by_cases h0 : j = 0
            · simp [h0]
            · simp only [h0, if_false]
              rw [List.getElem?_eraseIdx, if_pos (by omega)]
          · have hi0 : i ≠ 0 := by omega
            have hj0 : j ≠ 0 := by omega
            simp only [hi0, hj0, if_false]
            rw [List.getElem?_eraseIdx, if_neg (by omega)]
            congr 1; omega
  · rw [List.getElem?_eraseIdx, ha1, ha2]
    by_cases hk0 : k = 0
    · simp [hk0]
    · have : l[k - 1]? ≠ none := by
        rw [List.getElem?_eq_getElem (by omega)]; simp
      have h0 : 0 < k := by omega
      simp [hk0, h0, this]

theorem eraseIdx_eq_filter {l : List Nat} (hn : l.Nodup) {k a : Nat} (hk : l[k]? = some a) :
    l.eraseIdx k = l.filter (fun x => x ≠ a) := by
  induction l generalizing k with
  | nil => simp at hk
  | cons b l ih =>
    rw [List.nodup_cons] at hn
    cases k with
    | zero =>
      simp at hk; subst hk
      simp only [List.eraseIdx_zero, List.tail_cons, ne_eq, decide_not]
      rw [List.filter_cons_of_neg (by simp)]
      symm
      rw [List.filter_eq_self]
      intro x hx
      simp; rintro rfl; exact hn.1 hx
    | succ k =>
      simp at hk
      have hm : a ∈ l := List.mem_of_getElem? hk
      have hba : b ≠ a := by rintro rfl; exact hn.1 hm
      rw [List.eraseIdx_cons_succ, ih hn.2 hk, List.filter_cons_of_pos (by simpa using hba)]

/-! ## The heap invariant -/

/-- An attached annotation with the address of its record. -/
structure GE where
  a : Nat
  c : Nat
  n : Nat
  d : Nat

def GE.entry (g : GE) : Entry := ⟨g.c, g.n, g.d⟩

/-- Addresses of the entries selected by `p`, in order. -/
def sub (G : List GE) (p : GE → Bool) : List Nat := (G.filter p).map GE.a

structure AInv (h : AHeap) (G : List GE) : Prop where
  nodup : (G.map GE.a).Nodup
  lt : ∀ g ∈ G, g.a < h.fresh
  live : ∀ a, h.live a = true ↔ ∃ g ∈ G, g.a = a
  ctx : ∀ g ∈ G, h.context g.a = some g.c
  node : ∀ g ∈ G, h.astnode g.a = some g.n
  data : ∀ g ∈ G, h.data g.a = g.d
  uniq : ∀ g ∈ G, ∀ g' ∈ G, g.c = g'.c → g.n = g'.n → g = g'
  nodeL : ∀ n, h.nodeHead n = (sub G (fun g => g.n = n))[0]? ∧
    Dll h.nodeNext h.nodePrev (sub G (fun g => g.n = n))
  ctxL : ∀ c, h.ctxHead c = (sub G (fun g => g.c = c))[0]? ∧
    Dll h.ctxNext h.ctxPrev (sub G (fun g => g.c = c))

theorem sub_nodup {G : List GE} (h : (G.map GE.a).Nodup) (p : GE → Bool) : (sub G p).Nodup :=
  h.sublist (List.filter_sublist.map _)

theorem mem_sub {G : List GE} {p : GE → Bool} {a : Nat} :
    a ∈ sub G p ↔ ∃ g ∈ G, p g = true ∧ g.a = a := by
  simp [sub, and_assoc]

theorem GE.eq_of_addr {G : List GE} (h : (G.map GE.a).Nodup) {g g' : GE} (h1 : g ∈ G) (h2 : g' ∈ G)
    (e : g.a = g'.a) : g = g' := List.inj_on_of_nodup_map h h1 h2 e

theorem sub_filter (G : List GE) (p : GE → Bool) (a : Nat) :
    sub (G.filter (fun g => g.a ≠ a)) p = (sub G p).filter (fun x => x ≠ a) := by
  simp only [sub, List.filter_map, List.filter_filter]
  congr 1
  apply List.filter_congr
  intro x _
  simp [Bool.and_comm]

namespace AInv
variable {h : AHeap} {G : List GE}

theorem chk_ok (hI : AInv h G) {g : GE} (hg : g ∈ G) : h.chk g.a = .ok () := by
  simp [AHeap.chk, (hI.live g.a).2 ⟨g, hg, rfl⟩]

theorem chk_sub (hI : AInv h G) {p : GE → Bool} {a : Nat} (ha : a ∈ sub G p) : h.chk a = .ok () := by
  obtain ⟨g, hg, _, rfl⟩ := mem_sub.1 ha
  exact hI.chk_ok hg

end AInv

theorem detachNode_eq {h : AHeap} {l : List Nat} {a k n : Nat}
    (hd : Dll h.nodeNext h.nodePrev l) (hn : l.Nodup) (hk : l[k]? = some a)
    (hlive : ∀ x ∈ l, h.live x = true) (hnode : h.astnode a = some n) :
    h.detachNode a = .ok { h with
      astnode := upd h.astnode a none
      nodeNext := upd (unlinkNx h.nodeNext h.nodePrev a) a none
      nodePrev := upd (unlinkPv h.nodeNext h.nodePrev a) a none
      nodeHead := if h.nodePrev a = none then upd h.nodeHead n (h.nodeNext a) else h.nodeHead } := by
  obtain ⟨h1, h2⟩ := hd k a hk
  have hla : h.live a = true := hlive a (List.mem_of_getElem? hk)
  have hnx : ∀ b, h.nodeNext a = some b → h.live b = true ∧ a ≠ b := by
    intro b hb
    rw [h1] at hb
    refine ⟨hlive b (List.mem_of_getElem? hb), ?_⟩
    rintro rfl
    have := nodup_idx hn hk hb
    omega
  have hpv : ∀ b, h.nodePrev a = some b → h.live b = true := by
    intro b hb
    rw [h2] at hb
    split at hb
    · cases hb
    · exact hlive b (List.mem_of_getElem? hb)
  unfold AHeap.detachNode unlinkNx unlinkPv
  cases hN : h.nodeNext a with
  | none =>
    cases hP : h.nodePrev a with
    | none => simp [AHeap.chk, hla, hN, hP, hnode, bind, Except.bind, pure, Except.pure]
    | some b =>
      simp [AHeap.chk, hla, hN, hP, hpv b hP, bind, Except.bind, pure, Except.pure]
  | some b =>
    obtain ⟨hb1, hb2⟩ := hnx b hN
    cases hP : h.nodePrev a with
    | none =>
      simp [AHeap.chk, hla, hN, hP, hb1, hnode, upd, hb2, bind, Except.bind, pure, Except.pure]
    | some b' =>
      simp [AHeap.chk, hla, hN, hP, hb1, hpv b' hP, upd, hb2, bind, Except.bind, pure, Except.pure]

theorem detachCtx_eq {h : AHeap} {l : List Nat} {a k n : Nat}
    (hd : Dll h.ctxNext h.ctxPrev l) (hn : l.Nodup) (hk : l[k]? = some a)
    (hlive : ∀ x ∈ l, h.live x = true) (hnode : h.context a = some n) :
    h.detachCtx a = .ok { h with
      context := upd h.context a none
      ctxNext := upd (unlinkNx h.ctxNext h.ctxPrev a) a none
      ctxPrev := upd (unlinkPv h.ctxNext h.ctxPrev a) a none
      ctxHead := if h.ctxPrev a = none then upd h.ctxHead n (h.ctxNext a) else h.ctxHead } := by
  obtain ⟨h1, h2⟩ := hd k a hk
  have hla : h.live a = true := hlive a (List.mem_of_getElem? hk)
  have hnx : ∀ b, h.ctxNext a = some b → h.live b = true ∧ a ≠ b := by
    intro b hb
    rw [h1] at hb
    refine ⟨hlive b (List.mem_of_getElem? hb), ?_⟩
    rintro rfl
    have := nodup_idx hn hk hb
    omega
  have hpv : ∀ b, h.ctxPrev a = some b → h.live b = true := by
    intro b hb
    rw [h2] at hb
    split at hb
    · cases hb
    · exact hlive b (List.mem_of_getElem? hb)
  unfold AHeap.detachCtx unlinkNx unlinkPv
  cases hN : h.ctxNext a with
  | none =>
    cases hP : h.ctxPrev a with
    | none => simp [AHeap.chk, hla, hN, hP, hnode, bind, Except.bind, pure, Except.pure]
    | some b =>
      simp [AHeap.chk, hla, hN, hP, hpv b hP, bind, Except.bind, pure, Except.pure]
  | some b =>
    obtain ⟨hb1, hb2⟩ := hnx b hN
    cases hP : h.ctxPrev a with
    | none =>
      simp [AHeap.chk, hla, hN, hP, hb1, hnode, upd, hb2, bind, Except.bind, pure, Except.pure]
    | some b' =>
      simp [AHeap.chk, hla, hN, hP, hb1, hpv b' hP, upd, hb2, bind, Except.bind, pure, Except.pure]

theorem free_eq {h : AHeap} {a : Nat} (hl : h.live a = true) :
    h.free a = .ok { h with live := upd h.live a false } := by
  simp [AHeap.free, AHeap.chk, hl, bind, Except.bind, pure, Except.pure]

/-- Unlinking one list of a family keeps the whole family linked. -/
theorem family_remove {nx pv : Nat → Option Nat} {head : Nat → Option Nat} {G : List GE}
    (key : GE → Nat) {g : GE} (hg : g ∈ G) (hnd : (G.map GE.a).Nodup)
    (hL : ∀ n, head n = (sub G (fun g => key g = n))[0]? ∧ Dll nx pv (sub G (fun g => key g = n))) :
    ∀ n, (if pv g.a = none then upd head (key g) (nx g.a) else head) n =
        (sub (G.filter (fun x => x.a ≠ g.a)) (fun g => key g = n))[0]? ∧
      Dll (upd (unlinkNx nx pv g.a) g.a none) (upd (unlinkPv nx pv g.a) g.a none)
        (sub (G.filter (fun x => x.a ≠ g.a)) (fun g => key g = n)) := by
  intro n
  have hmem : g.a ∈ sub G (fun x => key x = key g) := mem_sub.2 ⟨g, hg, by simp, rfl⟩
  obtain ⟨k, hk⟩ := List.getElem?_of_mem hmem
  have hd := hL (key g)
  obtain ⟨r1, r2⟩ := Dll.remove hd.2 (sub_nodup hnd _) hk
  obtain ⟨a1, a2⟩ := hd.2 k g.a hk
  by_cases hn : n = key g
  · subst hn
    rw [sub_filter, ← eraseIdx_eq_filter (sub_nodup hnd _) hk]
    constructor
    · rw [r2]
      split
      · simp [upd]
      · exact hd.1
    · refine r1.frame ?_ ?_ <;>
      · intro x hx
        rw [eraseIdx_eq_filter (sub_nodup hnd _) hk] at hx
        have : x ≠ g.a := by simpa using (List.mem_filter.1 hx).2
        simp [upd, this]
  · -- an unrelated list
    have hnot : ∀ x ∈ sub G (fun y => key y = n), x ≠ g.a ∧ x ∉ sub G (fun y => key y = key g) := by
      intro x hx
      obtain ⟨y, hy, hy1, rfl⟩ := mem_sub.1 hx
      simp at hy1
      constructor
      · intro e
        have := GE.eq_of_addr hnd hy hg e
        subst this; exact hn hy1.symm
      · intro hx2
        obtain ⟨z, hz, hz1, hz2⟩ := mem_sub.1 hx2
        simp at hz1
        have := GE.eq_of_addr hnd hz hy hz2
        subst this; exact hn (hy1.symm.trans hz1)
    have hself : sub (G.filter (fun x => x.a ≠ g.a)) (fun g => key g = n) =
        sub G (fun g => key g = n) := by
      rw [sub_filter, List.filter_eq_self]
      intro x hx; simpa using (hnot x hx).1
    rw [hself]
    constructor
    · rw [← (hL n).1]
      split
      · simp [upd, hn]
      · rfl
    · refine (hL n).2.frame ?_ ?_
      · intro x hx
        obtain ⟨x1, x2⟩ := hnot x hx
        simp only [upd, x1, if_false, unlinkNx]
        cases hp : pv g.a with
        | none => rfl
        | some b =>
          have hb : b ∈ sub G (fun y => key y = key g) := by
            rw [hp] at a2
            split at a2
            · cases a2
            · exact List.mem_of_getElem? a2.symm
          have : x ≠ b := by rintro rfl; exact x2 hb
          simp [upd, this]
      · intro x hx
        obtain ⟨x1, x2⟩ := hnot x hx
        simp only [upd, x1, if_false, unlinkPv]
        cases hp : nx g.a with
        | none => rfl
        | some b =>
          have hb : b ∈ sub G (fun y => key y = key g) := by
            rw [hp] at a1
            exact List.mem_of_getElem? a1.symm
          have : x ≠ b := by rintro rfl; exact x2 hb
          simp [upd, this]

/-- Detaching and freeing one annotation. -/
theorem detach_free {h : AHeap} {G : List GE} (hI : AInv h G) {g : GE} (hg : g ∈ G) :
    ∃ h1 h2 h3, h.detachNode g.a = .ok h1 ∧ h1.detachCtx g.a = .ok h2 ∧ h2.free g.a = .ok h3 ∧
      h2.data g.a = g.d ∧ h2.astnode g.a = none ∧ h3.fresh = h.fresh ∧
      AInv h3 (G.filter (fun x => x.a ≠ g.a)) := by
  have hn := family_remove (fun g => g.n) hg hI.nodup hI.nodeL
  have hc := family_remove (fun g => g.c) hg hI.nodup hI.ctxL
  obtain ⟨k, hk⟩ := List.getElem?_of_mem
    (mem_sub.2 ⟨g, hg, by simp, rfl⟩ : g.a ∈ sub G (fun x => x.n = g.n))
  obtain ⟨k', hk'⟩ := List.getElem?_of_mem
    (mem_sub.2 ⟨g, hg, by simp, rfl⟩ : g.a ∈ sub G (fun x => x.c = g.c))
  have hlive : ∀ p, ∀ x ∈ sub G p, h.live x = true := by
    intro p x hx
    obtain ⟨y, hy, _, rfl⟩ := mem_sub.1 hx
    exact (hI.live _).2 ⟨y, hy, rfl⟩
  have e1 := detachNode_eq (hI.nodeL g.n).2 (sub_nodup hI.nodup _) hk (hlive _) (hI.node g hg)
  have e2 := detachCtx_eq (h := { h with
      astnode := upd h.astnode g.a none
      nodeNext := upd (unlinkNx h.nodeNext h.nodePrev g.a) g.a none
      nodePrev := upd (unlinkPv h.nodeNext h.nodePrev g.a) g.a none
      nodeHead := if h.nodePrev g.a = none then upd h.nodeHead g.n (h.nodeNext g.a) else h.nodeHead })
    (hI.ctxL g.c).2 (sub_nodup hI.nodup _) hk' (hlive _) (hI.ctx g hg)
  have hla : h.live g.a = true := (hI.live _).2 ⟨g, hg, rfl⟩
  refine ⟨_, _, _, e1, e2, free_eq hla,
    hI.data g hg, by simp [upd], rfl, ?_⟩
  have hmem : ∀ x, x ∈ G.filter (fun x => x.a ≠ g.a) ↔ x ∈ G ∧ x.a ≠ g.a := by
    intro x; simp
  refine ⟨hI.nodup.sublist (List.filter_sublist.map _), ?_, ?_, ?_, ?_, ?_, ?_, hn, hc⟩
  · intro x hx; exact hI.lt x ((hmem x).1 hx).1
  · intro a
    simp only [upd]
    by_cases ha : a = g.a
    · subst ha
      simp
    · simp only [ha, if_false]
      rw [hI.live a]
      constructor
      · rintro ⟨x, hx, rfl⟩; exact ⟨x, (hmem x).2 ⟨hx, ha⟩, rfl⟩
      · rintro ⟨x, hx, rfl⟩; exact ⟨x, ((hmem x).1 hx).1, rfl⟩
  · intro x hx
    have := (hmem x).1 hx
    simp [upd, this.2, hI.ctx x this.1]
  · intro x hx
    have := (hmem x).1 hx
    simp [upd, this.2, hI.node x this.1]
  · intro x hx
    exact hI.data x ((hmem x).1 hx).1
  · intro x hx y hy
    exact hI.uniq x ((hmem x).1 hx).1 y ((hmem y).1 hy).1

theorem release_ok {h : AHeap} {G : List GE} (hI : AInv h G) {g : GE} (hg : g ∈ G) :
    ∃ h', h.release g.a = .ok ((none, g.d), h') ∧ h'.fresh = h.fresh ∧
      AInv h' (G.filter (fun x => x.a ≠ g.a)) := by
  obtain ⟨h1, h2, h3, e1, e2, e3, e4, e5, e6, e7⟩ := detach_free hI hg
  refine ⟨h3, ?_, e6, e7⟩
  simp [AHeap.release, hI.chk_ok hg, hI.ctx g hg, e1, e2, e3, e4, e5, bind, Except.bind, pure,
    Except.pure]

/-- Walking the node's list finds the annotation of the context. -/
theorem find_ok {h : AHeap} {G : List GE} (hI : AInv h G) (c n : Nat) :
    h.find c n = .ok ((G.find? (fun g => g.c = c ∧ g.n = n)).map GE.a) := by
  have hd := (hI.nodeL n)
  -- generalise to suffixes of the node's list
  have key : ∀ (l : List GE) (i fuel : Nat), (∀ g ∈ l, g ∈ G ∧ g.n = n) →
      (sub G (fun g => g.n = n)).drop i = l.map GE.a → l.length ≤ fuel →
      h.findLoop c fuel ((sub G (fun g => g.n = n))[i]?) =
        .ok ((l.find? (fun g => g.c = c ∧ g.n = n)).map GE.a) := by
    intro l
    induction l with
    | nil =>
      intro i fuel _ hdr _
      have : (sub G (fun g => g.n = n))[i]? = none := by
        have h0 := List.getElem?_drop (xs := sub G (fun g => g.n = n)) (i := i) (j := 0)
        rw [hdr] at h0; simpa using h0.symm
      rw [this]
      cases fuel <;> simp [AHeap.findLoop]
    | cons g l ih =>
      intro i fuel hl hdr hf
      have hgi : (sub G (fun g => g.n = n))[i]? = some g.a := by
        have h0 := List.getElem?_drop (xs := sub G (fun g => g.n = n)) (i := i) (j := 0)
        rw [hdr] at h0; simpa using h0.symm
      obtain ⟨hgG, hgn⟩ := hl g (by simp)
      cases fuel with
      | zero => simp at hf
      | succ fuel =>
        rw [hgi]
        simp only [AHeap.findLoop, hI.chk_ok hgG, bind, Except.bind, hI.ctx g hgG]
        by_cases hc : g.c = c
        · subst hc; simp [hgn]
        · have hc' : ¬ (some g.c = some c) := by simpa using hc
          rw [if_neg hc', (hd.2 i g.a hgi).1]
          rw [List.find?_cons_of_neg (by simp [hc])]
          refine ih (i + 1) fuel (fun x hx => hl x (by simp [hx])) ?_ (by simp at hf; omega)
          rw [← List.drop_drop, hdr]; simp
  have hlen : (G.filter (fun g => g.n = n)).length ≤ h.fresh := by
    -- distinct addresses below `fresh`
    have h1 : (sub G (fun g => g.n = n)).length ≤ (List.range h.fresh).length := by
      apply List.Subperm.length_le
      apply (sub_nodup hI.nodup _).subperm
      intro x hx
      obtain ⟨g, hg, _, rfl⟩ := mem_sub.1 hx
      simp [hI.lt g hg]
    simpa [sub] using h1
  have := key (G.filter (fun g => g.n = n)) 0 h.fresh
    (by intro g hg; simpa using hg) (by simp [sub]) hlen
  unfold AHeap.find
  rw [hd.1, this, List.find?_filter]
  congr 3
  funext x
  by_cases h1 : x.n = n <;> by_cases h2 : x.c = c <;> simp [h1, h2]

theorem alloc_attach {h : AHeap} {G : List GE} (hI : AInv h G) (c n d : Nat)
    (hnew : ∀ g ∈ G, ¬ (g.c = c ∧ g.n = n)) :
    ∃ h1 h2, (h.alloc d).attachNode n h.fresh = .ok h1 ∧ h1.attachCtx c h.fresh = .ok h2 ∧
      AInv h2 (⟨h.fresh, c, n, d⟩ :: G) := by
  have hfr : ∀ g ∈ G, g.a ≠ h.fresh := fun g hg => by have := hI.lt g hg; omega
  have hfs : ∀ p, h.fresh ∉ sub G p := by
    intro p hx
    obtain ⟨g, hg, _, he⟩ := mem_sub.1 hx
    exact hfr g hg he
  have hlv : ∀ p x, x ∈ sub G p → h.live x = true := by
    intro p x hx
    obtain ⟨y, hy, _, rfl⟩ := mem_sub.1 hx
    exact (hI.live _).2 ⟨y, hy, rfl⟩
  -- the node's list
  have e1 : (h.alloc d).attachNode n h.fresh = .ok { h.alloc d with
      astnode := upd (h.alloc d).astnode h.fresh (some n)
      nodeNext := upd (h.alloc d).nodeNext h.fresh ((sub G (fun g => g.n = n))[0]?)
      nodePrev := (match (sub G (fun g => g.n = n))[0]? with
        | some b => upd (h.alloc d).nodePrev b (some h.fresh) | none => (h.alloc d).nodePrev)
      nodeHead := upd h.nodeHead n (some h.fresh) } := by
    unfold AHeap.attachNode
    have hhd : (h.alloc d).nodeHead n = (sub G (fun g => g.n = n))[0]? := (hI.nodeL n).1
    have hla : (h.alloc d).live h.fresh = true := by simp [AHeap.alloc, upd]
    cases hb : (sub G (fun g => g.n = n))[0]? with
    | none =>
      rw [hb] at hhd
      simp [AHeap.chk, hla, hhd, bind, Except.bind, pure, Except.pure]
      simp [AHeap.alloc]
    | some b =>
      rw [hb] at hhd
      have hlb : (h.alloc d).live b = true := by
        have := hlv _ b (List.mem_of_getElem? hb)
        simp only [AHeap.alloc, upd]
        split
        · rfl
        · exact this
      simp [AHeap.chk, hla, hhd, hlb, bind, Except.bind, pure, Except.pure]
      simp [AHeap.alloc]
  generalize hh1 : ({ h.alloc d with
      astnode := upd (h.alloc d).astnode h.fresh (some n)
      nodeNext := upd (h.alloc d).nodeNext h.fresh ((sub G (fun g => g.n = n))[0]?)
      nodePrev := (match (sub G (fun g => g.n = n))[0]? with
        | some b => upd (h.alloc d).nodePrev b (some h.fresh) | none => (h.alloc d).nodePrev)
      nodeHead := upd h.nodeHead n (some h.fresh) } : AHeap) = h1 at e1
  have e2 : h1.attachCtx c h.fresh = .ok { h1 with
      context := upd h1.context h.fresh (some c)
      ctxNext := upd h1.ctxNext h.fresh ((sub G (fun g => g.c = c))[0]?)
      ctxPrev := (match (sub G (fun g => g.c = c))[0]? with
        | some b => upd h1.ctxPrev b (some h.fresh) | none => h1.ctxPrev)
      ctxHead := upd h1.ctxHead c (some h.fresh) } := by
    unfold AHeap.attachCtx
    have hhd : h1.ctxHead c = (sub G (fun g => g.c = c))[0]? := by
      subst hh1; exact (hI.ctxL c).1
    have hla : h1.live h.fresh = true := by subst hh1; simp [AHeap.alloc, upd]
    cases hb : (sub G (fun g => g.c = c))[0]? with
    | none =>
      rw [hb] at hhd
      simp [AHeap.chk, hla, hhd, bind, Except.bind, pure, Except.pure]
    | some b =>
      rw [hb] at hhd
      have hlb : h1.live b = true := by
        have := hlv _ b (List.mem_of_getElem? hb)
        subst hh1
        simp only [AHeap.alloc, upd]
        split
        · rfl
        · exact this
      simp [AHeap.chk, hla, hhd, hlb, bind, Except.bind, pure, Except.pure]
  refine ⟨_, _, e1, e2, ?_⟩
  subst hh1
  -- families after insertion at the head
  have fam : ∀ (key : GE → Nat) (kv : Nat) (nx pv head : Nat → Option Nat),
      (∀ m, head m = (sub G (fun g => key g = m))[0]? ∧ Dll nx pv (sub G (fun g => key g = m))) →
      key ⟨h.fresh, c, n, d⟩ = kv →
      ∀ m, upd head kv (some h.fresh) m =
          (sub (⟨h.fresh, c, n, d⟩ :: G) (fun g => key g = m))[0]? ∧
        Dll (upd (upd nx h.fresh none) h.fresh ((sub G (fun g => key g = kv))[0]?))
          (match (sub G (fun g => key g = kv))[0]? with
            | some b => upd (upd pv h.fresh none) b (some h.fresh) | none => upd pv h.fresh none)
          (sub (⟨h.fresh, c, n, d⟩ :: G) (fun g => key g = m)) := by
    intro key kv nx pv head hL hkv m
    by_cases hm : m = kv
    · subst hm
      have hs : sub (⟨h.fresh, c, n, d⟩ :: G) (fun g => key g = m) =
          h.fresh :: sub G (fun g => key g = m) := by
        simp [sub, hkv]
      rw [hs]
      refine ⟨by simp [upd], ?_⟩
      have base : Dll (upd nx h.fresh none) (upd pv h.fresh none) (sub G (fun g => key g = m)) :=
        (hL m).2.frame
          (fun a ha => by
            have : a ≠ h.fresh := by rintro rfl; exact hfs _ ha
            simp [upd, this])
          (fun a ha => by
            have : a ≠ h.fresh := by rintro rfl; exact hfs _ ha
            simp [upd, this])
      exact base.insert (sub_nodup hI.nodup _) (hfs _) (by simp [upd])
    · have hs : sub (⟨h.fresh, c, n, d⟩ :: G) (fun g => key g = m) = sub G (fun g => key g = m) := by
        have : ¬ kv = m := fun e => hm e.symm
        simp [sub, hkv, this]
      rw [hs]
      refine ⟨by simp only [upd, hm, if_false]; exact (hL m).1, ?_⟩
      refine (hL m).2.frame ?_ ?_
      · intro a ha
        have : a ≠ h.fresh := by rintro rfl; exact hfs _ ha
        simp [upd, this]
      · intro a ha
        have hne : a ≠ h.fresh := by rintro rfl; exact hfs _ ha
        cases hb : (sub G (fun g => key g = kv))[0]? with
        | none => simp [upd, hne]
        | some b =>
          have hab : a ≠ b := by
            rintro rfl
            obtain ⟨x, hx, hx1, hx2⟩ := mem_sub.1 ha
            obtain ⟨y, hy, hy1, hy2⟩ := mem_sub.1 (List.mem_of_getElem? hb)
            have := GE.eq_of_addr hI.nodup hx hy (hx2.trans hy2.symm)
            subst this
            simp at hx1 hy1
            exact hm (hx1.symm.trans hy1)
          simp [upd, hne, hab]
  refine ⟨?_, ?_, ?_, ?_, ?_, ?_, ?_, ?_, ?_⟩
  · simp only [List.map_cons, List.nodup_cons]
    refine ⟨?_, hI.nodup⟩
    intro hm
    obtain ⟨g, hg, he⟩ := List.mem_map.1 hm
    exact hfr g hg he
  · intro g hg
    rcases List.mem_cons.1 hg with rfl | hg
    · simp [AHeap.alloc]
    · have := hI.lt g hg; simp [AHeap.alloc]; omega
  · intro a
    simp only [AHeap.alloc, upd]
    by_cases ha : a = h.fresh
    · simp [ha]
    · simp only [ha, if_false]
      rw [hI.live a]
      constructor
      · rintro ⟨g, hg, rfl⟩; exact ⟨g, by simp [hg], rfl⟩
      · rintro ⟨g, hg, rfl⟩
        rcases List.mem_cons.1 hg with rfl | hg
        · exact absurd rfl ha
        · exact ⟨g, hg, rfl⟩
  · intro g hg
    rcases List.mem_cons.1 hg with rfl | hg
    · simp [upd]
    · simp [upd, AHeap.alloc, hfr g hg, hI.ctx g hg]
  · intro g hg
    rcases List.mem_cons.1 hg with rfl | hg
    · simp [upd]
    · simp [upd, AHeap.alloc, hfr g hg, hI.node g hg]
  · intro g hg
    rcases List.mem_cons.1 hg with rfl | hg
    · simp [upd, AHeap.alloc]
    · simp [upd, AHeap.alloc, hfr g hg, hI.data g hg]
  · intro x hx y hy hc hn
    rcases List.mem_cons.1 hx with rfl | hx <;> rcases List.mem_cons.1 hy with rfl | hy
    · rfl
    · exact absurd ⟨hc.symm, hn.symm⟩ (hnew y hy)
    · exact absurd ⟨hc, hn⟩ (hnew x hx)
    · exact hI.uniq x hx y hy hc hn
  · exact fam (fun g => g.n) n h.nodeNext h.nodePrev h.nodeHead hI.nodeL rfl
  · exact fam (fun g => g.c) c h.ctxNext h.ctxPrev h.ctxHead hI.ctxL rfl

theorem lookup_entry (G : List GE) (c n : Nat) :
    AnnMap.lookup (G.map GE.entry) c n = (G.find? (fun g => g.c = c ∧ g.n = n)).map GE.d := by
  simp [AnnMap.lookup, List.find?_map, Function.comp_def, GE.entry]
  rfl

/-- Removing by address is removing by (context, node). -/
theorem filter_addr {h : AHeap} {G : List GE} (hI : AInv h G) {g : GE} (hg : g ∈ G) :
    G.filter (fun x => x.a ≠ g.a) = G.filter (fun x => ¬ (x.c = g.c ∧ x.n = g.n)) := by
  apply List.filter_congr
  intro x hx
  by_cases he : x.a = g.a
  · have := GE.eq_of_addr hI.nodup hx hg he
    subst this; simp
  · have : ¬ (x.c = g.c ∧ x.n = g.n) := by
      rintro ⟨h1, h2⟩
      exact he (by rw [hI.uniq x hx g hg h1 h2])
    simp [he, this]

theorem freeLoop_ctx (c : Nat) : ∀ (fuel : Nat) {h : AHeap} {G : List GE}, AInv h G →
    (G.filter (fun g => g.c = c)).length ≤ fuel →
    ∃ calls h' , AHeap.freeCtxLoop c fuel h = .ok (calls, h') ∧
      calls = ((G.filter (fun g => g.c = c)).map fun g => (none, g.d)) ∧
      AInv h' (G.filter (fun g => g.c ≠ c)) := by
  intro fuel
  induction fuel with
  | zero =>
    intro h G hI hf
    have hnil : G.filter (fun g => g.c = c) = [] := List.eq_nil_of_length_eq_zero (by omega)
    have hhd : h.ctxHead c = none := by rw [(hI.ctxL c).1]; simp [sub, hnil]
    refine ⟨[], h, by simp [AHeap.freeCtxLoop, hhd], by simp [hnil], ?_⟩
    have : G.filter (fun g => g.c ≠ c) = G := by
      rw [List.filter_eq_self]
      intro g hg
      rw [List.filter_eq_nil_iff] at hnil
      simpa using hnil g hg
    rw [this]; exact hI
  | succ fuel ih =>
    intro h G hI hf
    cases hG : G.filter (fun g => g.c = c) with
    | nil =>
      have hhd : h.ctxHead c = none := by rw [(hI.ctxL c).1]; simp [sub, hG]
      refine ⟨[], h, by simp [AHeap.freeCtxLoop, hhd], by simp, ?_⟩
      have : G.filter (fun g => g.c ≠ c) = G := by
        rw [List.filter_eq_self]
        intro g hg
        rw [List.filter_eq_nil_iff] at hG
        simpa using hG g hg
      rw [this]; exact hI
    | cons g rest =>
      have hg : g ∈ G ∧ g.c = c := by
        have : g ∈ G.filter (fun g => g.c = c) := by simp [hG]
        simpa using this
      have hhd : h.ctxHead c = some g.a := by rw [(hI.ctxL c).1]; simp [sub, hG]
      obtain ⟨h', e1, _, hI'⟩ := release_ok hI hg.1
      have hnd : (g :: rest).map GE.a |>.Nodup := by
        rw [← hG]; exact sub_nodup hI.nodup _
      have hrest : (G.filter (fun x => x.a ≠ g.a)).filter (fun x => x.c = c) = rest := by
        have : (G.filter (fun x => x.a ≠ g.a)).filter (fun x => x.c = c) =
            (G.filter (fun x => x.c = c)).filter (fun x => x.a ≠ g.a) := by
          rw [List.filter_filter, List.filter_filter]
          apply List.filter_congr; intro x _; rw [Bool.and_comm]
        rw [this, hG, List.filter_cons_of_neg (by simp), List.filter_eq_self]
        intro x hx
        simp only [List.map_cons, List.nodup_cons] at hnd
        simp only [ne_eq, decide_not, Bool.not_eq_eq_eq_not, Bool.not_true, decide_eq_false_iff_not]
        intro he
        exact hnd.1 (he ▸ List.mem_map.2 ⟨x, hx, rfl⟩)
      obtain ⟨calls, h'', f1, f2, f3⟩ := ih hI' (by rw [hrest]; rw [hG] at hf; simp at hf; omega)
      refine ⟨(none, g.d) :: calls, h'', ?_, ?_, ?_⟩
      · unfold AHeap.freeCtxLoop
        simp [hhd, e1, f1, bind, Except.bind, pure, Except.pure]
      · rw [f2, hrest]; simp
      · have : (G.filter (fun x => x.a ≠ g.a)).filter (fun x => x.c ≠ c) =
            G.filter (fun x => x.c ≠ c) := by
          rw [List.filter_filter]
          apply List.filter_congr
          intro x hx
          by_cases he : x.a = g.a
          · have := GE.eq_of_addr hI.nodup hx hg.1 he
            subst this; simp [hg.2]
          · simp [he]
        rw [this] at f3; exact f3

theorem freeLoop_node (c : Nat) : ∀ (fuel : Nat) {h : AHeap} {G : List GE}, AInv h G →
    (G.filter (fun g => g.n = c)).length ≤ fuel →
    ∃ calls h' , AHeap.freeNodeLoop c fuel h = .ok (calls, h') ∧
      calls = ((G.filter (fun g => g.n = c)).map fun g => (none, g.d)) ∧
      AInv h' (G.filter (fun g => g.n ≠ c)) := by
  intro fuel
  induction fuel with
  | zero =>
    intro h G hI hf
    have hnil : G.filter (fun g => g.n = c) = [] := List.eq_nil_of_length_eq_zero (by omega)
    have hhd : h.nodeHead c = none := by rw [(hI.nodeL c).1]; simp [sub, hnil]
    refine ⟨[], h, by simp [AHeap.freeNodeLoop, hhd], by simp [hnil], ?_⟩
    have : G.filter (fun g => g.n ≠ c) = G := by
      rw [List.filter_eq_self]
      intro g hg
      rw [List.filter_eq_nil_iff] at hnil
      simpa using hnil g hg
    rw [this]; exact hI
  | succ fuel ih =>
    intro h G hI hf
    cases hG : G.filter (fun g => g.n = c) with
    | nil =>
      have hhd : h.nodeHead c = none := by rw [(hI.nodeL c).1]; simp [sub, hG]
      refine ⟨[], h, by simp [AHeap.freeNodeLoop, hhd], by simp, ?_⟩
      have : G.filter (fun g => g.n ≠ c) = G := by
        rw [List.filter_eq_self]
        intro g hg
        rw [List.filter_eq_nil_iff] at hG
        simpa using hG g hg
      rw [this]; exact hI
    | cons g rest =>
      have hg : g ∈ G ∧ g.n = c := by
        have : g ∈ G.filter (fun g => g.n = c) := by simp [hG]
        simpa using this
      have hhd : h.nodeHead c = some g.a := by rw [(hI.nodeL c).1]; simp [sub, hG]
      obtain ⟨h', e1, _, hI'⟩ := release_ok hI hg.1
      have hnd : (g :: rest).map GE.a |>.Nodup := by
        rw [← hG]; exact sub_nodup hI.nodup _
      have hrest : (G.filter (fun x => x.a ≠ g.a)).filter (fun x => x.n = c) = rest := by
        have : (G.filter (fun x => x.a ≠ g.a)).filter (fun x => x.n = c) =
            (G.filter (fun x => x.n = c)).filter (fun x => x.a ≠ g.a) := by
          rw [List.filter_filter, List.filter_filter]
          apply List.filter_congr; intro x _; rw [Bool.and_comm]
        rw [this, hG, List.filter_cons_of_neg (by simp), List.filter_eq_self]
        intro x hx
        simp only [List.map_cons, List.nodup_cons] at hnd
        simp only [ne_eq, decide_not, Bool.not_eq_eq_eq_not, Bool.not_true, decide_eq_false_iff_not]
        intro he
        exact hnd.1 (he ▸ List.mem_map.2 ⟨x, hx, rfl⟩)
      obtain ⟨calls, h'', f1, f2, f3⟩ := ih hI' (by rw [hrest]; rw [hG] at hf; simp at hf; omega)
      refine ⟨(none, g.d) :: calls, h'', ?_, ?_, ?_⟩
      · unfold AHeap.freeNodeLoop
        simp [hhd, e1, f1, bind, Except.bind, pure, Except.pure]
      · rw [f2, hrest]; simp
      · have : (G.filter (fun x => x.a ≠ g.a)).filter (fun x => x.n ≠ c) =
            G.filter (fun x => x.n ≠ c) := by
          rw [List.filter_filter]
          apply List.filter_congr
          intro x hx
          by_cases he : x.a = g.a
          · have := GE.eq_of_addr hI.nodup hx hg.1 he
            subst this; simp [hg.2]
          · simp [he]
        rw [this] at f3; exact f3

theorem filter_len_le {h : AHeap} {G : List GE} (hI : AInv h G) (p : GE → Bool) :
    (G.filter p).length ≤ h.fresh := by
  have h1 : (sub G p).length ≤ (List.range h.fresh).length := by
    apply List.Subperm.length_le
    apply (sub_nodup hI.nodup _).subperm
    intro x hx
    obtain ⟨g, hg, _, rfl⟩ := mem_sub.1 hx
    simp [hI.lt g hg]
  simpa [sub] using h1

theorem ann_step {h : AHeap} {G : List GE} (hI : AInv h G) (op : AnnOp) :
    ∃ h' G', h.step op = .ok ((AnnMap.step (G.map GE.entry) op).1, h') ∧ AInv h' G' ∧
      G'.map GE.entry = (AnnMap.step (G.map GE.entry) op).2 := by
  cases op with
  | get c n =>
    refine ⟨h, G, ?_, hI, rfl⟩
    simp only [AHeap.step, AHeap.get, find_ok hI, AnnMap.step, lookup_entry]
    cases hf : G.find? (fun g => g.c = c ∧ g.n = n) with
    | none => rfl
    | some g =>
      have hg : g ∈ G := List.mem_of_find?_eq_some hf
      simp [hI.chk_ok hg, hI.data g hg, bind, Except.bind, pure, Except.pure]
  | remove c n =>
    simp only [AHeap.step, AHeap.remove, find_ok hI, AnnMap.step, lookup_entry]
    cases hf : G.find? (fun g => g.c = c ∧ g.n = n) with
    | none =>
      refine ⟨h, G, rfl, hI, ?_⟩
      symm
      rw [List.filter_eq_self]
      intro e he
      obtain ⟨g, hg, rfl⟩ := List.mem_map.1 he
      rw [List.find?_eq_none] at hf
      have := hf g hg
      simp [GE.entry] at this ⊢
      grind
    | some g =>
      have hg : g ∈ G := List.mem_of_find?_eq_some hf
      have hcn : g.c = c ∧ g.n = n := by simpa using List.find?_some hf
      obtain ⟨h1, h2, h3, e1, e2, e3, e4, e5, e6, e7⟩ := detach_free hI hg
      refine ⟨h3, _, ?_, e7, ?_⟩
      · simp [bind, Except.bind, pure, Except.pure, hI.node g hg, hI.ctx g hg, hcn.1, hcn.2, e1, e2,
          e3, e4]
      · rw [filter_addr hI hg, hcn.1, hcn.2, List.filter_map]; rfl
  | attach c n d =>
    simp only [AHeap.step, AHeap.attach, find_ok hI, AnnMap.step, lookup_entry]
    cases hf : G.find? (fun g => g.c = c ∧ g.n = n) with
    | none =>
      rw [List.find?_eq_none] at hf
      obtain ⟨h1, h2, e1, e2, e3⟩ := alloc_attach hI c n d (fun g hg => by simpa using hf g hg)
      refine ⟨h2, _, ?_, e3, rfl⟩
      simp [bind, Except.bind, pure, Except.pure, e1, e2]
    | some g =>
      have hg : g ∈ G := List.mem_of_find?_eq_some hf
      have hcn : g.c = c ∧ g.n = n := by simpa using List.find?_some hf
      refine ⟨{ h with data := upd h.data g.a d },
        G.map (fun x => if x.a = g.a then { x with d := d } else x), ?_, ?_, ?_⟩
      · simp [bind, Except.bind, pure, Except.pure, hI.chk_ok hg, hI.data g hg]
      · have ha : ∀ x : GE, (if x.a = g.a then { x with d := d } else x : GE).a = x.a := by
          intro x; split <;> rfl
        have hn : ∀ x : GE, (if x.a = g.a then { x with d := d } else x : GE).n = x.n := by
          intro x; split <;> rfl
        have hc : ∀ x : GE, (if x.a = g.a then { x with d := d } else x : GE).c = x.c := by
          intro x; split <;> rfl
        have hs : ∀ m, sub (G.map (fun x => if x.a = g.a then { x with d := d } else x))
            (fun g => g.n = m) = sub G (fun g => g.n = m) := by
          intro m; simp only [sub, List.filter_map, List.map_map]
          simp [Function.comp_def, ha, hn]
        have hs' : ∀ m, sub (G.map (fun x => if x.a = g.a then { x with d := d } else x))
            (fun g => g.c = m) = sub G (fun g => g.c = m) := by
          intro m; simp only [sub, List.filter_map, List.map_map]
          simp [Function.comp_def, ha, hc]
        refine ⟨?_, ?_, ?_, ?_, ?_, ?_, ?_, ?_, ?_⟩
        · simpa [Function.comp_def, ha] using hI.nodup
        · intro x hx
          obtain ⟨y, hy, rfl⟩ := List.mem_map.1 hx
          rw [ha]; exact hI.lt y hy
        · intro a
          rw [hI.live a]
          constructor
          · rintro ⟨y, hy, rfl⟩; exact ⟨_, List.mem_map.2 ⟨y, hy, rfl⟩, ha y⟩
          · rintro ⟨x, hx, rfl⟩
            obtain ⟨y, hy, rfl⟩ := List.mem_map.1 hx
            exact ⟨y, hy, (ha y).symm⟩
        · intro x hx
          obtain ⟨y, hy, rfl⟩ := List.mem_map.1 hx
          rw [ha, hc]; exact hI.ctx y hy
        · intro x hx
          obtain ⟨y, hy, rfl⟩ := List.mem_map.1 hx
          rw [ha, hn]; exact hI.node y hy
        · intro x hx
          obtain ⟨y, hy, rfl⟩ := List.mem_map.1 hx
          rw [ha]
          simp only [upd]
          split
          · rfl
          · exact hI.data y hy
        · intro x hx x' hx' h1 h2
          obtain ⟨y, hy, rfl⟩ := List.mem_map.1 hx
          obtain ⟨y', hy', rfl⟩ := List.mem_map.1 hx'
          rw [hc, hc] at h1; rw [hn, hn] at h2
          rw [hI.uniq y hy y' hy' h1 h2]
        · intro m; rw [hs]; exact hI.nodeL m
        · intro m; rw [hs']; exact hI.ctxL m
      · simp only [Option.map_some, List.map_map]
        apply List.map_congr_left
        intro x hx
        simp only [Function.comp_def, GE.entry]
        by_cases he : x.a = g.a
        · have := GE.eq_of_addr hI.nodup hx hg he
          subst this; simp [hcn.1, hcn.2]
        · have : ¬ (x.c = c ∧ x.n = n) := by
            rintro ⟨h1, h2⟩
            exact he (by rw [hI.uniq x hx g hg (h1.trans hcn.1.symm) (h2.trans hcn.2.symm)])
          simp [he, this]
  | freeCtx c =>
    obtain ⟨calls, h', e1, e2, e3⟩ := freeLoop_ctx c h.fresh hI (filter_len_le hI _)
    refine ⟨h', _, ?_, e3, ?_⟩
    · simp [AHeap.step, AHeap.freeCtx, e1, e2, bind, Except.bind, pure, Except.pure, AnnMap.step,
        List.filter_map, Function.comp_def, GE.entry]
      rfl
    · simp [AnnMap.step, List.filter_map, Function.comp_def, GE.entry]
      rfl
  | freeNode n =>
    obtain ⟨calls, h', e1, e2, e3⟩ := freeLoop_node n h.fresh hI (filter_len_le hI _)
    refine ⟨h', _, ?_, e3, ?_⟩
    · simp [AHeap.step, AHeap.freeNode, e1, e2, bind, Except.bind, pure, Except.pure, AnnMap.step,
        List.filter_map, Function.comp_def, GE.entry]
      rfl
    · simp [AnnMap.step, List.filter_map, Function.comp_def, GE.entry]
      rfl

theorem ann_run (ops : List AnnOp) : ∀ {h : AHeap} {G : List GE}, AInv h G →
    h.run ops = .ok (AnnMap.run (G.map GE.entry) ops) := by
  induction ops with
  | nil => intros; rfl
  | cons op ops ih =>
    intro h G hI
    obtain ⟨h', G', e1, e2, e3⟩ := ann_step hI op
    simp [AHeap.run, e1, ih e2, e3, bind, Except.bind, pure, Except.pure, AnnMap.run]

theorem ann_init : AInv AHeap.init [] :=
  ⟨by simp, by simp, by simp [AHeap.init], by simp, by simp, by simp, by simp,
   fun n => ⟨by simp [AHeap.init, sub], by intro i a h; simp [sub] at h⟩,
   fun n => ⟨by simp [AHeap.init, sub], by intro i a h; simp [sub] at h⟩⟩

/-- **C05.** Every history of attach, remove, get, context-free and node-free operations, over any
number of contexts and nodes, runs without touching freed or unallocated memory, without endless
list walks and without assertion failures, and shows the caller exactly what a finite map from
(context, node) to values shows; the release handler is called for exactly the values still
attached. -/
theorem annotations_refine_map (ops : List AnnOp) :
    AHeap.init.run ops = .ok (AnnMap.run [] ops) := ann_run ops ann_init

/-- The specification really is a map: a lookup after an attach sees the new value at that key and the
old value at every other key. -/
theorem annMap_attach_lookup (m : AnnMap) (c n d c' n' : Nat) :
    AnnMap.lookup (AnnMap.step m (.attach c n d)).2 c' n' =
      if c' = c ∧ n' = n then some d else AnnMap.lookup m c' n' := by
  simp only [AnnMap.step]
  cases hl : AnnMap.lookup m c n with
  | none =>
    simp only [AnnMap.lookup, List.find?_cons]
    by_cases h : c' = c ∧ n' = n
    · simp [h.1, h.2]
    · have : ¬ (c = c' ∧ n = n') := fun e => h ⟨e.1.symm, e.2.symm⟩
      simp [h, this]
  | some old =>
    simp only []
    induction m with
    | nil => simp [AnnMap.lookup] at hl
    | cons e m ih =>
      by_cases he : e.c = c ∧ e.n = n
      · by_cases h : c' = c ∧ n' = n
        · simp [AnnMap.lookup, he.1, he.2, h.1, h.2]
        · have h1 : ¬ (c = c' ∧ n = n') := fun x => h ⟨x.1.symm, x.2.symm⟩
          simp only [AnnMap.lookup, List.map_cons, he, and_self, if_true, List.find?_cons, h, h1,
            decide_false, if_false]
          congr 1
          clear ih hl
          induction m with
          | nil => rfl
          | cons f m ih2 =>
            simp only [List.map_cons, List.find?_cons]
            by_cases hf : f.c = c ∧ f.n = n
            · simp only [hf, and_self, if_true, h1, decide_false]; exact ih2
            · simp only [hf, if_false]
              split
              · rfl
              · exact ih2
      · have hl' : AnnMap.lookup m c n = some old := by
          simpa [AnnMap.lookup, he] using hl
        have ih := ih hl'
        by_cases h2 : e.c = c' ∧ e.n = n'
        · have : ¬ (c' = c ∧ n' = n) := fun x => he ⟨h2.1.trans x.1, h2.2.trans x.2⟩
          simp [AnnMap.lookup, he, h2, this]
        · simp only [AnnMap.lookup, List.map_cons, he, if_false, List.find?_cons, h2, decide_false]
            at ih ⊢
          exact ih

example : AHeap.init.run [.attach 0 5 10, .attach 1 5 11, .attach 0 6 12, .attach 0 5 13, .get 0 5,
    .remove 1 5, .get 1 5, .freeCtx 0, .get 0 6] =
    .ok [.val none, .val none, .val none, .val (some 10), .val (some 13), .val (some 11),
      .val none, .released [12, 13], .val none] := by
  rw [annotations_refine_map]; rfl

/-- **C05 (release handler, negation).** The release handler is documented to receive the node, but
the record is detached before the call (annotation.c:251-257), so for every attached annotation the
node argument is NULL. -/
theorem release_handler_node_is_null {h : AHeap} {G : List GE} (hI : AInv h G) {g : GE}
    (hg : g ∈ G) : ∃ h', h.release g.a = .ok ((none, g.d), h') := by
  obtain ⟨h', e, _⟩ := release_ok hI hg
  exact ⟨h', e⟩

end Verif
