import Verif.Cypher.Alloc
import Verif.Cypher.Memory
/-!
# C48: constructors and clone functions when allocations fail

A function that makes a node either returns it, and then all that was allocated belongs to the node, or returns NULL,
and then nothing remains allocated (`Tidy`). So do all but three constructors and all but the same three clone functions
(`constructor_tidy_partial`, `clone_tidy_partial`); `cypher_ast_clone` loses an array for each node with children
(`clone_tree_leaks`, `clone_then_free`). With these repaired copying loses nothing (`clone_tree_repaired`).
-/
namespace Verif.Alloc
open Verif Verif.Cypher

/-! ## The tables -/

theorem new_chk (t : AstType) (h : t ≠ .query ∧ t ≠ .call ∧ t ≠ .comparison) :
    (newProg t).all (fun p => chk .start false p && p.all fun c => match c with | .build _ => false | _ => true) = true := by
  revert h; cases t <;> decide

theorem new_chk_repaired (t : AstType) :
    (repaired.new t).all (fun p => chk .start false p && p.all fun c => match c with | .build _ => false | _ => true) =
      true := by
  cases t <;> decide

theorem clone_chk (t : AstType) (h : t ≠ .query ∧ t ≠ .call) : (cloneProg t).all (chk .start false) = true := by
  revert h; cases t <;> decide

theorem clone_chk_repaired (t : AstType) : (repaired.clone t).all (chk .start false) = true := by
  cases t <;> decide

/-- The clone function of a type calls a constructor, that of its own type but for one. -/
theorem clone_builds (t : AstType) : (cloneProg t).all (fun p => p.all fun c =>
    match c with
    | .build u => decide (u = t ∨ (t = .dropRelPropConstraint ∧ u = .dropNodePropConstraint)) && (newProg u).isSome
    | _ => true) = true := by
  cases t <;> decide

theorem clone_builds_repaired (t : AstType) : (repaired.clone t).all (fun p => p.all fun c =>
    match c with | .build u => (repaired.new u).isSome | _ => true) = true := by
  cases t <;> decide

/-- The types that are only supertypes have no functions, all others have both. -/
theorem progs_iff (t : AstType) : ((newProg t).isSome ↔ releaseOf t ≠ none) ∧ ((cloneProg t).isSome ↔ releaseOf t ≠ none) := by
  cases t <;> decide

/-! ## One node -/

section
variable {ask : Nat → Bool} {n : Nat} {t : AstType} {m : Mem}

theorem newNode_good {P : Progs} {p : List Cmd} (hp : P.new t = some p) (hc : (chk .start false p && p.all fun c =>
    match c with | .build _ => false | _ => true) = true) (hm : m.Old) : Good m.live m.tick (newNode P ask n t m) := by
  simp only [Bool.and_eq_true] at hc
  unfold newNode
  rw [hp]
  refine chk_start hc.1 (fun u hu => ?_) hm
  have := List.all_eq_true.1 hc.2 _ hu
  cases this

theorem cloneNode_good {P : Progs} {p : List Cmd} (hp : P.clone t = some p) (hc : chk .start false p = true)
    (hn : ∀ u, .build u ∈ p → ∀ m : Mem, m.Old → Good m.live m.tick (newNode P ask n u m)) (hm : m.Old) :
    Good m.live m.tick (cloneNode P ask n t m) := by
  unfold cloneNode
  rw [hp]
  exact chk_start hc hn hm

/-- All constructors but three leave nothing behind when they fail, and own all that they allocate when they do not,
whichever allocations fail and whatever the checks say. -/
theorem constructor_tidy_partial {p : List Cmd} (hp : newProg t = some p)
    (h : t ≠ .query ∧ t ≠ .call ∧ t ≠ .comparison) (hm : m.Old) :
    ∃ r, newNode code ask n t m = .ok r ∧ Tidy m.live r := by
  have := new_chk t h
  rw [hp] at this
  obtain ⟨r, h1, h2, -⟩ := newNode_good (P := code) (ask := ask) (n := n) hp this hm
  exact ⟨r, h1, h2⟩

/-- The other three leave the array of children behind. -/
theorem constructor_leaks (h : t = .query ∨ t = .call ∨ t = .comparison) (hn : 0 < n) :
    ∃ ask, ∃ m' : Mem, newNode code ask n t m = .ok (none, m') ∧ ∃ c ∈ m'.live, m.tick ≤ c := by
  obtain ⟨k, l⟩ := m
  have h0 : n ≠ 0 := by omega
  rcases h with rfl | rfl | rfl
  · refine ⟨fun i => decide (i ≠ k + 4), ⟨k + 5, [k + 2] ++ l.filter (· ≠ k + 1)⟩, ?_, k + 2, by simp, by simp⟩
    simp [newNode, code, newProg, exec, Frame.reach, Slot.inNode, touch, Mem.add, Mem.next, Frame.fill, Frame.set, h0, fail,
      Frame.free, Alloc.free, Bind.bind, Except.bind, Frame.start]
  · refine ⟨fun i => decide (i ≠ k + 4), ⟨k + 5, [k + 2] ++ l.filter (· ≠ k + 1)⟩, ?_, k + 2, by simp, by simp⟩
    simp [newNode, code, newProg, exec, Frame.reach, Slot.inNode, touch, Mem.add, Mem.next, Frame.fill, Frame.set, h0, fail,
      Frame.free, Alloc.free, Bind.bind, Except.bind, Frame.start]
  · refine ⟨fun i => decide (i ≠ k + 3), ⟨k + 4, [k + 2] ++ l.filter (· ≠ k + 1)⟩, ?_, k + 2, by simp, by simp⟩
    simp [newNode, code, newProg, exec, Frame.reach, Slot.inNode, touch, Mem.add, Mem.next, Frame.fill, Frame.set, h0, fail,
      Frame.free, Alloc.free, Bind.bind, Except.bind, Frame.start]

/-- All clone functions but those three. -/
theorem clone_tidy_partial {p : List Cmd} (hp : cloneProg t = some p)
    (h : t ≠ .query ∧ t ≠ .call ∧ t ≠ .comparison) (hm : m.Old) :
    ∃ r, cloneNode code ask n t m = .ok r ∧ Tidy m.live r := by
  have hc := clone_chk t ⟨h.1, h.2.1⟩
  have hb := clone_builds t
  rw [hp] at hc hb
  obtain ⟨r, h1, h2, -⟩ := cloneNode_good (P := code) (ask := ask) (n := n) hp hc (fun u hu m hm => by
    have := List.all_eq_true.1 hb _ hu
    simp only [Bool.and_eq_true, decide_eq_true_eq] at this
    obtain ⟨q, hq⟩ := Option.isSome_iff_exists.1 this.2
    have hu : u ≠ .query ∧ u ≠ .call ∧ u ≠ .comparison := by
      rcases this.1 with rfl | ⟨-, rfl⟩
      · exact h
      · decide
    have := new_chk u hu
    rw [hq] at this
    exact newNode_good (P := code) hq this hm) hm
  exact ⟨r, h1, h2⟩

/-- The clone functions of a query and of CALL also leave the first array behind when there is no second. -/
theorem clone_function_leaks (h : t = .query ∨ t = .call) :
    ∃ ask, ∃ m' : Mem, cloneNode code ask n t m = .ok (none, m') ∧ ∃ c ∈ m'.live, m.tick ≤ c := by
  obtain ⟨k, l⟩ := m
  rcases h with rfl | rfl <;>
  · refine ⟨fun i => decide (i ≠ k + 2), ⟨k + 3, (k + 1) :: l⟩, ?_, k + 1, by simp, by simp⟩
    simp [cloneNode, code, cloneProg, exec, Frame.reach, Slot.inNode, Mem.add, Mem.next, Frame.fill, Frame.set, fail,
      Bind.bind, Except.bind, Frame.start]

theorem new_repaired {p : List Cmd} (hp : repaired.new t = some p) (hm : m.Old) :
    Good m.live m.tick (newNode repaired ask n t m) := by
  have := new_chk_repaired t
  rw [hp] at this
  exact newNode_good hp this hm

/-- With the repairs there is no exception. -/
theorem clone_repaired {p : List Cmd} (hp : repaired.clone t = some p) (hm : m.Old) :
    Good m.live m.tick (cloneNode repaired ask n t m) := by
  have hc := clone_chk_repaired t
  have hb := clone_builds_repaired t
  rw [hp] at hc hb
  refine cloneNode_good hp hc (fun u hu m hm => ?_) hm
  obtain ⟨q, hq⟩ := Option.isSome_iff_exists.1 (List.all_eq_true.1 hb _ hu)
  exact new_repaired hq hm

end

/-! ## The array of children -/

/-- A node has the array of children if the last assignment to it is `cypher_astnode_init`. -/
def kidsChk : Bool → List Cmd → Bool
  | _, [] => true
  | _, .init _ :: p => kidsChk true p
  | _, .bare :: p => kidsChk false p
  | k, .alloc x _ :: p => kidsChk (k && x != .node && x != .kids) p
  | k, .part x _ :: p => kidsChk (k && x != .node && x != .kids) p
  | k, .ret :: p => k && kidsChk k p
  | k, _ :: p => kidsChk k p

theorem fail_none {fr : Frame} : ∀ {f : List Slot} {m : Mem} {r : Option Made × Mem}, fail fr f m = .ok r → r.1 = none
  | [], _, _, h => by cases h; rfl
  | x :: xs, m, r, h => by
    unfold fail at h
    cases e : fr.free x m with
    | error f => rw [e] at h; cases h
    | ok m' => rw [e] at h; exact fail_none h

def KidsOut (fr : Frame) : Prop := ∀ d, fr.out = some d → d.kids.isSome = true

section
variable {ask : Nat → Bool} {n : Nat} {callee : AstType → Mem → Except Fault (Option Made × Mem)}

theorem fill_kids {fr : Frame} {x : Slot} {p : Ptr} (h1 : x ≠ .node) (h2 : x ≠ .kids) :
    (fr.fill x p).ptr .kids = fr.ptr .kids := by
  rw [Frame.fill, if_neg h1]
  have : Slot.kids ≠ x := fun e => h2 e.symm
  simp [Frame.set, this]

theorem fill_out {fr : Frame} {x : Slot} {p : Ptr} : (fr.fill x p).out = fr.out := by
  unfold Frame.fill; split <;> rfl

theorem kidsChk_sound (hn : n ≠ 0) : ∀ {p : List Cmd} {k : Bool} {fr : Frame} {m : Mem} {r : Option Made × Mem},
    kidsChk k p = true → exec ask n callee p fr m = .ok r → (k = true → ∃ c, fr.ptr .kids = .cell c) → KidsOut fr →
    (∀ t, .build t ∈ p → ∀ m r, callee t m = .ok r → ∀ d, r.1 = some d → d.kids.isSome = true) →
    ∀ d, r.1 = some d → d.kids.isSome = true
  | [], k, fr, m, r, _, h, _, ho, _ => by
    simp only [exec, Except.ok.injEq] at h
    subst h
    exact ho
  | c :: p, k, fr, m, r, hk, h, hp, ho, hc => by
    have hc' : ∀ t, .build t ∈ p → ∀ m r, callee t m = .ok r → ∀ d, r.1 = some d → d.kids.isSome = true := fun t ht =>
      hc t (List.mem_cons_of_mem _ ht)
    have dead : ∀ {fr : Frame} {f : List Slot} {m : Mem}, fail fr f m = .ok r → ∀ d, r.1 = some d → d.kids.isSome = true :=
      fun h d hd => by rw [fail_none h] at hd; cases hd
    have filled : ∀ {x : Slot} {q : Ptr}, (k && x != .node && x != .kids) = true →
        ∃ c, (fr.fill x q).ptr .kids = .cell c := fun {x q} hx => by
      simp only [Bool.and_eq_true, bne_iff_ne] at hx
      rw [fill_kids hx.1.2 hx.2]
      exact hp hx.1.1
    have fillOut : ∀ {x : Slot} {q : Ptr}, KidsOut (fr.fill x q) := fun d hd => ho d (by rw [← hd, fill_out])
    cases c with
    | check f =>
      simp only [kidsChk] at hk
      unfold exec at h
      split at h
      · exact kidsChk_sound hn hk h hp ho hc'
      · exact dead h
    | alloc x f =>
      simp only [kidsChk] at hk
      unfold exec at h
      cases e : fr.reach x m with
      | error f => rw [e] at h; cases h
      | ok u =>
        rw [e] at h
        change (if _ then _ else _) = _ at h
        split at h
        · exact kidsChk_sound hn hk h filled fillOut hc'
        · exact dead h
    | part x f =>
      simp only [kidsChk] at hk
      unfold exec at h
      split at h
      · dsimp only at h
        cases e : fr.reach x m.next with
        | error f => rw [e] at h; cases h
        | ok u =>
          rw [e] at h
          change (if _ then _ else _) = _ at h
          split at h
          · exact kidsChk_sound hn hk h filled fillOut hc'
          · exact dead h
      · refine kidsChk_sound hn hk h (fun hx => ?_) ho hc'
        simp only [Bool.and_eq_true] at hx
        exact hp hx.1.1
    | init f =>
      simp only [kidsChk] at hk
      unfold exec at h
      cases e : fr.reach .kids m with
      | error f => rw [e] at h; cases h
      | ok u =>
        rw [e] at h
        change (if _ then _ else if _ then _ else _) = _ at h
        rw [if_neg hn] at h
        split at h
        · exact kidsChk_sound hn hk h (fun _ => ⟨m.tick, by simp [Frame.set]⟩) ho hc'
        · exact dead h
    | bare =>
      simp only [kidsChk] at hk
      unfold exec at h
      cases e : fr.reach .kids m with
      | error f => rw [e] at h; cases h
      | ok u =>
        rw [e] at h
        exact kidsChk_sound hn hk h (fun hx => by cases hx) ho hc'
    | build t =>
      simp only [kidsChk] at hk
      unfold exec at h
      cases e : callee t m with
      | error f => rw [e] at h; cases h
      | ok x =>
        rw [e] at h
        exact kidsChk_sound hn hk h hp (fun d hd => hc t (by simp) m x e d hd) hc'
    | drop x =>
      simp only [kidsChk] at hk
      unfold exec at h
      cases e : fr.free x m with
      | error f => rw [e] at h; cases h
      | ok x =>
        rw [e] at h
        exact kidsChk_sound hn hk h hp ho hc'
    | ret =>
      simp only [kidsChk, Bool.and_eq_true] at hk
      obtain ⟨c, hkc⟩ := hp hk.1
      unfold exec at h
      cases e : fr.ret m with
      | error f => rw [e] at h; cases h
      | ok fr' =>
        rw [e] at h
        unfold Frame.ret at e
        cases e1 : touch (fr.ptr .node) m with
        | error f => rw [e1] at e; cases e
        | ok u =>
          rw [e1, hkc] at e
          cases e2 : fr.ptr .node with
          | wild => rw [e2] at e; cases e
          | null => rw [e2] at e; cases e
          | cell i =>
            rw [e2] at e
            cases e3 : (fr.ptr .extra).opt with
            | error f => rw [e3] at e; cases e
            | ok x =>
              rw [e3] at e
              simp only [Bind.bind, Except.bind, Ptr.opt, Except.ok.injEq] at e
              subst e
              exact kidsChk_sound hn hk.2 h (fun _ => ⟨c, hkc⟩) (fun d hd => by cases hd; rfl) hc'

end

/-- All types but those of the leaves have the array. -/
theorem kids_table (P : Progs) (hP : P = code ∨ P = repaired) (c : Ctor) (hc : c.terminal.isSome = false) :
    (P.clone c.ty).any (fun p => kidsChk false p && p.all fun x =>
      match x with | .build u => (P.new u).any (kidsChk false) | _ => true) = true := by
  rcases hP with rfl | rfl <;> cases c <;> first | rfl | cases hc

theorem kids_some {P : Progs} (hP : P = code ∨ P = repaired) {c : Ctor} (hc : c.terminal.isSome = false) {ask : Nat → Bool}
    {n : Nat} (hn : n ≠ 0) {m m' : Mem} {d : Made} (h : cloneNode P ask n c.ty m = .ok (some d, m')) :
    d.kids.isSome = true := by
  have hk := kids_table P hP c hc
  unfold cloneNode at h
  cases e : P.clone c.ty with
  | none => rw [e] at h; cases h
  | some p =>
    rw [e] at h hk
    simp only [Option.any_some, Bool.and_eq_true] at hk
    refine kidsChk_sound hn hk.1 h (by simp) (fun d hd => by cases hd) (fun u hu m r hr => ?_) d rfl
    have := List.all_eq_true.1 hk.2 _ hu
    unfold newNode at hr
    simp only at this
    cases e2 : P.new u with
    | none => rw [e2] at this; cases this
    | some q =>
      rw [e2] at hr this
      refine kidsChk_sound hn this hr (by simp) (fun d hd => by cases hd) (fun u hu m r hr => by cases hr)

/-! ## Freeing a tree -/

mutual
/-- A tree of the shape of another one. The array of children is there if it is needed. -/
def Tree.Like : Tree → Node → Prop
  | .mk d ch, .mk _ _ _ _ _ _ _ children => (children ≠ [] → d.kids.isSome = true) ∧ Tree.Likes ch children
def Tree.Likes : List Tree → List Node → Prop
  | [], [] => True
  | t :: ts, n :: ns => t.Like n ∧ Tree.Likes ts ns
  | _, _ => False
end

theorem Likes.nil : ∀ {ts : List Tree} {ns : List Node}, Tree.Likes ts ns → ts ≠ [] → ns ≠ []
  | [], _, _, h => absurd rfl h
  | t :: ts, [], h, _ => by simp [Tree.Likes] at h
  | t :: ts, n :: ns, _, _ => by simp

theorem free_opt {o : Option Nat} {m : Mem} (h : ∀ c, o = some c → c ∈ m.live) :
    ∃ m', free (optPtr o) m = .ok m' ∧ m'.tick = m.tick ∧ ∀ c, c ∈ m'.live ↔ c ∈ m.live ∧ o ≠ some c := by
  cases o with
  | none => exact ⟨m, rfl, rfl, by simp⟩
  | some i =>
    refine ⟨{ m with live := m.live.filter (· ≠ i) }, by simp [free, optPtr, h i rfl], rfl, fun c => ?_⟩
    simp only [List.mem_filter, decide_eq_true_eq, ne_eq, Option.some.injEq]
    exact and_congr_right fun _ => not_congr eq_comm

mutual
theorem treeFree_ok : ∀ {t : Tree} {n : Node} {m : Mem}, t.Like n → t.cells.Nodup → (∀ c ∈ t.cells, c ∈ m.live) →
    ∃ m', treeFree t m = .ok m' ∧ m'.tick = m.tick ∧ ∀ c, c ∈ m'.live ↔ c ∈ m.live ∧ c ∉ t.cells
  | .mk ⟨i, k, e⟩ ch, .mk _ _ _ _ _ _ _ children, m, hl, hn, hm => by
    simp only [Tree.Like] at hl
    simp only [Tree.cells, Made.cells, List.cons_append, List.append_assoc] at hn hm ⊢
    have hi : i ∈ m.live := hm i (by simp)
    obtain ⟨n1, n2⟩ := List.nodup_cons.1 hn
    obtain ⟨n3, n4, n5⟩ := List.nodup_append.1 n2
    obtain ⟨n6, n7, n8⟩ := List.nodup_append.1 n4
    obtain ⟨m1, e1, t1, l1⟩ := free_opt (o := e) (m := m) (fun c hc => hm c (by simp [hc]))
    have hie : e ≠ some i := fun h => n1 (by simp [h])
    obtain ⟨m2, e2, t2, l2⟩ := free_opt (o := some i) (m := m1) (fun c hc => by
      cases hc; exact (l1 i).2 ⟨hi, hie⟩)
    have k5 : ∀ c, k = some c → c ∉ Tree.cellss ch := fun c hc h =>
      n5 c (by simp [hc]) c (by simp [h]) rfl
    have k6 : ∀ c, k = some c → e ≠ some c := fun c hc h => n5 c (by simp [hc]) c (by simp [h]) rfl
    have k7 : ∀ c, k = some c → i ≠ c := fun c hc h => n1 (by simp [hc, h])
    have k8 : ∀ c ∈ Tree.cellss ch, e ≠ some c := fun c hc h => n8 c (by simp [h]) c hc rfl
    have k9 : ∀ c ∈ Tree.cellss ch, i ≠ c := fun c hc h => n1 (by simp [h, hc])
    have hk : ∀ c, k = some c → c ∈ m2.live := fun c hc => (l2 c).2 ⟨(l1 c).2 ⟨hm c (by simp [hc]), k6 c hc⟩, by
      simpa using k7 c hc⟩
    obtain ⟨m3, e3, t3, l3⟩ := treesFree_ok (array := optPtr k) (ts := ch) (ns := children) (m := m2) hl.2 n7
      (fun c hc => (l2 c).2 ⟨(l1 c).2 ⟨hm c (by simp [hc]), k8 c hc⟩, by simpa using k9 c hc⟩)
      (fun hne => by
        obtain ⟨a, ha⟩ := Option.isSome_iff_exists.1 (hl.1 (Likes.nil hl.2 hne))
        exact ⟨a, by rw [ha]; rfl, hk a ha, k5 a ha⟩)
    obtain ⟨m4, e4, t4, l4⟩ := free_opt (o := k) (m := m3) (fun c hc => (l3 c).2 ⟨hk c hc, k5 c hc⟩)
    refine ⟨m4, ?_, by rw [t4, t3, t2, t1], fun c => ?_⟩
    · unfold treeFree
      simp only [touch, hi, if_true]
      show (do let m ← free (optPtr e) m; let m ← free (.cell i) m; let m ← treesFree (optPtr k) ch m; free (optPtr k) m) = _
      rw [e1]
      show (do let m ← free (optPtr (some i)) m1; let m ← treesFree (optPtr k) ch m; free (optPtr k) m) = _
      rw [e2]
      show (do let m ← treesFree (optPtr k) ch m2; free (optPtr k) m) = _
      rw [e3]
      exact e4
    · rw [l4, l3, l2, l1]
      simp only [List.mem_cons, List.mem_append, Option.mem_toList, not_or, ne_eq, Option.some.injEq]
      constructor
      · rintro ⟨⟨⟨⟨a, b⟩, c⟩, d⟩, e⟩
        exact ⟨a, fun h => c h.symm, e, b, d⟩
      · rintro ⟨a, c, e, b, d⟩
        exact ⟨⟨⟨⟨a, b⟩, fun h => c h.symm⟩, d⟩, e⟩
theorem treesFree_ok : ∀ {array : Ptr} {ts : List Tree} {ns : List Node} {m : Mem}, Tree.Likes ts ns →
    (Tree.cellss ts).Nodup → (∀ c ∈ Tree.cellss ts, c ∈ m.live) →
    (ts ≠ [] → ∃ a, array = .cell a ∧ a ∈ m.live ∧ a ∉ Tree.cellss ts) →
    ∃ m', treesFree array ts m = .ok m' ∧ m'.tick = m.tick ∧ ∀ c, c ∈ m'.live ↔ c ∈ m.live ∧ c ∉ Tree.cellss ts
  | _, [], _, m, _, _, _, _ => ⟨m, rfl, rfl, by simp [Tree.cellss]⟩
  | _, t :: ts, [], m, hl, _, _, _ => by simp [Tree.Likes] at hl
  | array, t :: ts, n :: ns, m, hl, hn, hm, ha => by
    simp only [Tree.Likes] at hl
    simp only [Tree.cellss] at hn hm ha ⊢
    obtain ⟨n1, n2, n3⟩ := List.nodup_append.1 hn
    obtain ⟨a, rfl, a1, a2⟩ := ha (by simp)
    simp only [List.mem_append, not_or] at a2
    obtain ⟨m1, e1, t1, l1⟩ := treeFree_ok hl.1 n1 (fun c hc => hm c (by simp [hc]))
    obtain ⟨m2, e2, t2, l2⟩ := treesFree_ok (array := .cell a) (m := m1) hl.2 n2
      (fun c hc => (l1 c).2 ⟨hm c (by simp [hc]), fun h => n3 c h c hc rfl⟩)
      (fun _ => ⟨a, rfl, (l1 a).2 ⟨a1, a2.1⟩, a2.2⟩)
    refine ⟨m2, ?_, by rw [t2, t1], fun c => ?_⟩
    · unfold treesFree
      simp only [touch, a1, if_true]
      show (do let m ← treeFree t m; treesFree (.cell a) ts m) = _
      rw [e1]
      exact e2
    · rw [l2, l1]
      simp only [List.mem_append, not_or]
      exact and_assoc
end

/-! ## Copying a tree -/

/-- If NULL is returned, what is allocated is what was; otherwise that and the tree, which is new. -/
def TidyTree (live : List Nat) (r : Option Tree × Mem) : Prop :=
  match r.1 with
  | none => ∀ c, c ∈ r.2.live ↔ c ∈ live
  | some t => t.cells.Nodup ∧ (∀ c ∈ t.cells, c ∉ live) ∧ ∀ c, c ∈ r.2.live ↔ c ∈ t.cells ∨ c ∈ live

theorem repaired_some (c : Ctor) : (repaired.clone c.ty).isSome = true := by cases c <;> rfl

theorem Likes.take : ∀ {ts : List Tree} {ns : List Node} {k : Nat}, Tree.Likes ts (ns.take k) → ts.length = ns.length →
    Tree.Likes ts ns
  | [], [], _, _, _ => by simp [Tree.Likes]
  | [], n :: ns, _, _, h => by simp at h
  | t :: ts, [], _, _, h => by simp at h
  | t :: ts, n :: ns, 0, h, _ => by simp [Tree.Likes] at h
  | t :: ts, n :: ns, k + 1, h, h2 => by
    simp only [List.take_succ_cons, Tree.Likes] at h ⊢
    exact ⟨h.1, Likes.take h.2 (by simpa using h2)⟩

theorem giveUp_ok {a : Nat} {ts : List Tree} {ns : List Node} {m : Mem} {live : List Nat} (hl : Tree.Likes ts ns)
    (hn : (Tree.cellss ts).Nodup) (ha : a ∉ Tree.cellss ts) (hal : a ∉ live) (hs : ∀ c ∈ Tree.cellss ts, c ∉ live)
    (hm : ∀ c, c ∈ m.live ↔ c ∈ Tree.cellss ts ∨ c = a ∨ c ∈ live) (ho : m.Old) :
    ∃ m', giveUp (.cell a) ts m = .ok (none, m') ∧ m'.tick = m.tick ∧ m'.Old ∧ ∀ c, c ∈ m'.live ↔ c ∈ live := by
  have ham : a ∈ m.live := (hm a).2 (.inr (.inl rfl))
  obtain ⟨m1, e1, t1, l1⟩ := treesFree_ok (array := .cell a) (m := m) hl hn (fun c hc => (hm c).2 (.inl hc))
    (fun _ => ⟨a, rfl, ham, ha⟩)
  obtain ⟨m2, e2, t2, l2⟩ := free_opt (o := some a) (m := m1) (fun c hc => by cases hc; exact (l1 a).2 ⟨ham, ha⟩)
  have hl2 : ∀ c, c ∈ m2.live ↔ c ∈ live := fun c => by
    rw [l2, l1, hm c]
    constructor
    · rintro ⟨⟨h1 | h1 | h1, h2⟩, h3⟩
      · exact absurd h1 h2
      · exact absurd (by rw [h1]) h3
      · exact h1
    · intro h
      exact ⟨⟨.inr (.inr h), fun hc => hs c hc h⟩, fun e => by cases e; exact hal h⟩
  refine ⟨m2, ?_, by rw [t2, t1], fun c hc => ?_, hl2⟩
  · unfold giveUp
    rw [e1]
    show (do let m ← free (optPtr (some a)) m1; .ok (none, m)) = _
    rw [e2]
    rfl
  · have := ho c ((l1 c).1 ((l2 c).1 hc).1).1
    rw [t2, t1]; exact this

section
variable {ask : Nat → Bool}

mutual
theorem cloneTree_ok : ∀ (n : Node) {m : Mem}, WellTyped n → m.Old →
    ∃ r, cloneTree repaired false ask n m = .ok r ∧ TidyTree m.live r ∧ (∀ t, r.1 = some t → t.Like n) ∧ r.2.Old ∧
      m.tick ≤ r.2.tick
  | .mk id c ops args seq text range children, m, hw, hm => by
    obtain ⟨p, hp⟩ := Option.isSome_iff_exists.1 (repaired_some c)
    have hterm : c.terminal.isSome → children = [] := by cases hw; assumption
    have hch : ∀ x ∈ children, WellTyped x := by cases hw; assumption
    unfold cloneTree
    by_cases h0 : children.length = 0
    · rw [if_pos h0]
      obtain ⟨r, e, h1, h2, h3⟩ := clone_repaired (ask := ask) (n := 0) hp hm
      rw [e]
      refine ⟨(r.1.map (.mk · []), r.2), rfl, ?_, ?_, h2, h3⟩
      · unfold Tidy at h1
        unfold TidyTree
        cases er : r.1 with
        | none => rw [er] at h1; exact h1
        | some d =>
          rw [er] at h1
          simpa [Tree.cells, Tree.cellss] using h1
      · intro t ht
        cases er : r.1 with
        | none => rw [er] at ht; cases ht
        | some d =>
          rw [er] at ht
          cases ht
          have : children = [] := List.length_eq_zero_iff.1 h0
          subst this
          simp [Tree.Like, Tree.Likes]
    · rw [if_neg h0]
      have hnt : c.terminal.isSome = false := by
        cases e : c.terminal.isSome with
        | false => rfl
        | true => exact absurd (by rw [hterm e]; rfl) h0
      split
      · have hma : m.add.Old := fun c hc => by
          simp only [Mem.add, List.mem_cons] at hc ⊢
          rcases hc with rfl | hc
          · omega
          · have := hm c hc; omega
        obtain ⟨ts, all, m1, e1, l1, l2, l3, l4, l6, l7⟩ := cloneTrees_ok children hch hma
        have a1 : ∀ c ∈ Tree.cellss ts, c ≠ m.tick ∧ c ∉ m.live := fun c hc => by
          have := l2 c hc
          simpa [Mem.add] using this
        have l3' : ∀ c, c ∈ m1.live ↔ c ∈ Tree.cellss ts ∨ c = m.tick ∨ c ∈ m.live := fun c => by
          rw [l3 c]; simp [Mem.add]
        have al : m.tick ∉ m.live := fun h => by have := hm _ h; omega
        have at1 : m.tick ∉ Tree.cellss ts := fun h => (a1 _ h).1 rfl
        have hle : m.tick ≤ m1.tick := by
          have : m.tick + 1 ≤ m1.tick := l7.1
          omega
        dsimp only
        rw [e1]
        show ∃ r, (if all then _ else _) = Except.ok r ∧ _
        cases all with
        | false =>
          obtain ⟨m2, e2, t2, o2, k2⟩ := giveUp_ok l4 l1 at1 al (fun c hc => (a1 c hc).2) l3' l6
          exact ⟨(none, m2), e2, k2, by simp, o2, by rw [t2]; exact hle⟩
        | true =>
          rw [if_pos rfl]
          have hlikes := Likes.take l4 (l7.2 rfl)
          obtain ⟨r, e2, h1, h2, h3⟩ := clone_repaired (ask := ask) (n := children.length) hp l6
          obtain ⟨o, m2⟩ := r
          show ∃ r, (do let (d, m) ← cloneNode repaired ask children.length c.ty m1; _) = Except.ok r ∧ _
          rw [e2]
          cases o with
          | none =>
            obtain ⟨m3, e3, t3, o3, k3⟩ := giveUp_ok (m := m2) hlikes l1 at1 al (fun c hc => (a1 c hc).2)
              (fun c => by rw [← l3' c]; exact h1 c) h2
            exact ⟨(none, m3), e3, k3, by simp, o3, by rw [t3]; exact Nat.le_trans hle h3⟩
          | some d =>
            have hk := kids_some (.inr rfl) hnt h0 e2
            simp only [Tidy] at h1
            obtain ⟨d1, d2, d3⟩ := h1
            have hta : m.tick ∈ m2.live := (d3 _).2 (.inr ((l3' _).2 (.inr (.inl rfl))))
            obtain ⟨m3, e3, t3, k3⟩ := free_opt (o := some m.tick) (m := m2) (fun c hc => by cases hc; exact hta)
            refine ⟨(some (.mk d ts), m3), ?_, ?_, ?_, fun c hc => ?_, ?_⟩
            · show (do let m ← free (optPtr (some m.tick)) m2; .ok (some (Tree.mk d (if d.kids.isSome then ts else [])), m)) = _
              rw [e3, hk]
              rfl
            · have ds : ∀ c ∈ d.cells, c ∉ Tree.cellss ts ∧ c ≠ m.tick ∧ c ∉ m.live := fun c hc => by
                have := d2 c hc
                rw [l3' c] at this
                simpa only [not_or] using this
              refine ⟨?_, fun c hc => ?_, fun c => ?_⟩
              · rw [Tree.cells]
                exact List.nodup_append.2 ⟨d1, l1, fun a ha b hb e => (ds a ha).1 (e ▸ hb)⟩
              · rw [Tree.cells, List.mem_append] at hc
                rcases hc with hc | hc
                · exact (ds c hc).2.2
                · exact (a1 c hc).2
              · show c ∈ m3.live ↔ _
                rw [k3, d3, l3', Tree.cells, List.mem_append]
                constructor
                · rintro ⟨h | h | h | h, h'⟩
                  · exact .inl (.inl h)
                  · exact .inl (.inr h)
                  · exact absurd (by rw [h]) h'
                  · exact .inr h
                · rintro ((h | h) | h)
                  · exact ⟨.inl h, fun e => (ds c h).2.1 (by cases e; rfl)⟩
                  · exact ⟨.inr (.inl h), fun e => (a1 c h).1 (by cases e; rfl)⟩
                  · exact ⟨.inr (.inr (.inr h)), fun e => by cases e; exact al h⟩
            · intro t ht
              cases ht
              exact ⟨fun _ => hk, hlikes⟩
            · have := h2 c ((k3 c).1 hc).1
              show c < m3.tick
              rw [t3]; exact this
            · show m.tick ≤ m3.tick
              rw [t3]; exact Nat.le_trans hle h3
      · refine ⟨(none, m.next), rfl, fun c => Iff.rfl, by simp, fun c hc => ?_, Nat.le_succ _⟩
        have := hm c hc
        simp only [Mem.next]; omega
theorem cloneTrees_ok : ∀ (xs : List Node) {m : Mem}, (∀ x ∈ xs, WellTyped x) → m.Old →
    ∃ ts all m', cloneTrees repaired false ask xs m = .ok ((ts, all), m') ∧ (Tree.cellss ts).Nodup ∧
      (∀ c ∈ Tree.cellss ts, c ∉ m.live) ∧ (∀ c, c ∈ m'.live ↔ c ∈ Tree.cellss ts ∨ c ∈ m.live) ∧
      Tree.Likes ts (xs.take ts.length) ∧ m'.Old ∧ m.tick ≤ m'.tick ∧ (all = true → ts.length = xs.length)
  | [], m, _, hm => ⟨[], true, m, rfl, by simp [Tree.cellss], by simp [Tree.cellss], by simp [Tree.cellss],
      by simp [Tree.Likes], hm, Nat.le_refl _, fun _ => rfl⟩
  | x :: xs, m, hw, hm => by
    obtain ⟨⟨o, m1⟩, e1, h1, h2, h3, h4⟩ := cloneTree_ok x (hw x (by simp)) hm
    unfold cloneTrees
    rw [e1]
    cases o with
    | none =>
      exact ⟨[], false, m1, rfl, by simp [Tree.cellss], by simp [Tree.cellss], fun c => by simpa [Tree.cellss] using h1 c,
        by simp [Tree.Likes], h3, h4, by simp⟩
    | some t =>
      simp only [TidyTree] at h1
      obtain ⟨t1, t2, t3⟩ := h1
      obtain ⟨ts, all, m2, e2, l1, l2, l3, l4, l6, l7, l8⟩ := cloneTrees_ok xs (fun y hy => hw y (by simp [hy])) h3
      refine ⟨t :: ts, all, m2, ?_, ?_, fun c hc => ?_, fun c => ?_, ?_, l6, Nat.le_trans h4 l7, fun h => ?_⟩
      · show (do let ((ts, all), m) ← cloneTrees repaired false ask xs m1; .ok ((t :: ts, all), m)) = _
        rw [e2]
        rfl
      · rw [Tree.cellss]
        exact List.nodup_append.2 ⟨t1, l1, fun a ha b hb e => l2 b hb ((t3 b).2 (.inl (e ▸ ha)))⟩
      · rw [Tree.cellss, List.mem_append] at hc
        rcases hc with hc | hc
        · exact t2 c hc
        · exact fun h => l2 c hc ((t3 c).2 (.inr h))
      · rw [l3, t3, Tree.cellss, List.mem_append]
        constructor
        · rintro (h | h | h)
          · exact .inl (.inr h)
          · exact .inl (.inl h)
          · exact .inr h
        · rintro ((h | h) | h)
          · exact .inr (.inl h)
          · exact .inl h
          · exact .inr (.inr h)
      · rw [List.length_cons, List.take_succ_cons]
        exact ⟨h2 t rfl, l4⟩
      · simpa using l8 h
end

end

/-! ## What the code leaves behind -/

/-- Programs that differ only in what they free when they fail. -/
inductive Same : List Cmd → List Cmd → Prop where
  | nil : Same [] []
  | cons (c) {p q} : Same p q → Same (c :: p) (c :: q)
  | alloc (x f g) {p q} : Same p q → Same (.alloc x f :: p) (.alloc x g :: q)
  | part (x f g) {p q} : Same p q → Same (.part x f :: p) (.part x g :: q)

theorem Same.refl : ∀ p, Same p p
  | [] => .nil
  | c :: p => .cons c (Same.refl p)

/-- Nothing is made. -/
def quiet : List Cmd → Bool
  | [] => true
  | .bare :: p | .drop _ :: p => quiet p
  | _ => false

/-- After a call nothing is made. -/
def oneMake : List Cmd → Bool
  | [] => true
  | .build _ :: p => quiet p && oneMake p
  | _ :: p => oneMake p

section
variable {ask : Nat → Bool} {n : Nat} {cP cQ : AstType → Mem → Except Fault (Option Made × Mem)}

theorem quiet_none : ∀ {p : List Cmd} {fr : Frame} {m : Mem} {r : Option Made × Mem}, quiet p = true → fr.out = none →
    exec ask n cP p fr m = .ok r → r.1 = none
  | [], fr, m, r, _, ho, h => by simp only [exec, Except.ok.injEq] at h; subst h; exact ho
  | c :: p, fr, m, r, hq, ho, h => by
    cases c with
    | bare =>
      simp only [quiet] at hq
      unfold exec at h
      cases e : fr.reach .kids m with
      | error f => rw [e] at h; cases h
      | ok u => rw [e] at h; exact quiet_none (fr := fr.set .kids .null) hq ho h
    | drop x =>
      simp only [quiet] at hq
      unfold exec at h
      cases e : fr.free x m with
      | error f => rw [e] at h; cases h
      | ok u => rw [e] at h; exact quiet_none hq ho h
    | _ => simp [quiet] at hq

/-- What makes a node does not depend on what would have been freed. -/
theorem exec_same (hc : ∀ {t m d m'}, cP t m = .ok (some d, m') → cQ t m = .ok (some d, m')) {p q : List Cmd}
    (hs : Same p q) : ∀ {fr : Frame} {m m' : Mem} {d : Made}, oneMake p = true →
    exec ask n cP p fr m = .ok (some d, m') → exec ask n cQ q fr m = .ok (some d, m') := by
  have dead : ∀ {fr : Frame} {f : List Slot} {m m' : Mem} {d : Made}, fail fr f m = .ok (some d, m') → False :=
    fun h => by cases fail_none h
  induction hs with
  | nil => intro fr m m' d _ h; exact h
  | alloc x f g hs ih =>
    intro fr m m' d ho h
    simp only [oneMake] at ho
    unfold exec at h ⊢
    cases e : fr.reach x m with
    | error f => rw [e] at h; cases h
    | ok u =>
      rw [e] at h
      change (if _ then _ else _) = _ at h
      show (if _ then _ else _) = _
      split at h
      · rw [if_pos ‹_›]; exact ih ho h
      · exact (dead h).elim
  | part x f g hs ih =>
    intro fr m m' d ho h
    simp only [oneMake] at ho
    unfold exec at h ⊢
    split at h
    · rw [if_pos ‹_›]
      dsimp only at h ⊢
      cases e : fr.reach x m.next with
      | error f => rw [e] at h; cases h
      | ok u =>
        rw [e] at h
        change (if _ then _ else _) = _ at h
        show (if _ then _ else _) = _
        split at h
        · rw [if_pos ‹_›]; exact ih ho h
        · exact (dead h).elim
    · rw [if_neg ‹_›]; exact ih ho h
  | cons c hs ih =>
    intro fr m m' d ho h
    cases c with
    | check f =>
      simp only [oneMake] at ho
      unfold exec at h ⊢
      split at h
      · rw [if_pos ‹_›]; exact ih ho h
      · exact (dead h).elim
    | alloc x f =>
      simp only [oneMake] at ho
      unfold exec at h ⊢
      cases e : fr.reach x m with
      | error f => rw [e] at h; cases h
      | ok u =>
        rw [e] at h
        change (if _ then _ else _) = _ at h
        show (if _ then _ else _) = _
        split at h
        · rw [if_pos ‹_›]; exact ih ho h
        · exact (dead h).elim
    | part x f =>
      simp only [oneMake] at ho
      unfold exec at h ⊢
      split at h
      · rw [if_pos ‹_›]
        dsimp only at h ⊢
        cases e : fr.reach x m.next with
        | error f => rw [e] at h; cases h
        | ok u =>
          rw [e] at h
          change (if _ then _ else _) = _ at h
          show (if _ then _ else _) = _
          split at h
          · rw [if_pos ‹_›]; exact ih ho h
          · exact (dead h).elim
      · rw [if_neg ‹_›]; exact ih ho h
    | init f =>
      simp only [oneMake] at ho
      unfold exec at h ⊢
      cases e : fr.reach .kids m with
      | error f => rw [e] at h; cases h
      | ok u =>
        rw [e] at h
        change (if _ then _ else if _ then _ else _) = _ at h
        show (if _ then _ else if _ then _ else _) = _
        split at h
        · rw [if_pos ‹_›]; exact ih ho h
        · rw [if_neg ‹_›]
          split at h
          · rw [if_pos ‹_›]; exact ih ho h
          · exact (dead h).elim
    | bare =>
      simp only [oneMake] at ho
      unfold exec at h ⊢
      cases e : fr.reach .kids m with
      | error f => rw [e] at h; cases h
      | ok u => rw [e] at h; exact ih ho h
    | build t =>
      simp only [oneMake, Bool.and_eq_true] at ho
      unfold exec at h ⊢
      cases e : cP t m with
      | error f => rw [e] at h; cases h
      | ok x =>
        rw [e] at h
        obtain ⟨o, m1⟩ := x
        cases o with
        | none => cases quiet_none ho.1 rfl h
        | some d1 => rw [hc e]; exact ih ho.2 h
    | drop x =>
      simp only [oneMake] at ho
      unfold exec at h ⊢
      cases e : fr.free x m with
      | error f => rw [e] at h; cases h
      | ok u => rw [e] at h; exact ih ho h
    | ret =>
      simp only [oneMake] at ho
      unfold exec at h ⊢
      cases e : fr.ret m with
      | error f => rw [e] at h; cases h
      | ok u => rw [e] at h; exact ih ho h

theorem new_same (t : AstType) {p : List Cmd} (h : newProg t = some p) : ∃ q, repaired.new t = some q ∧ Same p q := by
  by_cases h1 : t = .query
  · subst h1; cases h; exact ⟨_, rfl, .cons _ (.cons _ (.cons _ (.part _ _ _ (.refl _))))⟩
  by_cases h2 : t = .call
  · subst h2; cases h; exact ⟨_, rfl, .cons _ (.cons _ (.cons _ (.part _ _ _ (.refl _))))⟩
  by_cases h3 : t = .comparison
  · subst h3; cases h; exact ⟨_, rfl, .cons _ (.cons _ (.cons _ (.alloc _ _ _ (.refl _))))⟩
  · refine ⟨p, ?_, .refl p⟩
    rw [← h]
    cases t <;> first | rfl | contradiction

theorem clone_same (t : AstType) {p : List Cmd} (h : cloneProg t = some p) :
    ∃ q, repaired.clone t = some q ∧ Same p q := by
  by_cases h1 : t = .query
  · subst h1; cases h; exact ⟨_, rfl, .cons _ (.cons _ (.alloc _ _ _ (.refl _)))⟩
  by_cases h2 : t = .call
  · subst h2; cases h; exact ⟨_, rfl, .cons _ (.cons _ (.alloc _ _ _ (.refl _)))⟩
  · refine ⟨p, ?_, .refl p⟩
    rw [← h]
    cases t <;> first | rfl | contradiction

theorem oneMake_table (t : AstType) : (cloneProg t).all oneMake = true ∧ (newProg t).all oneMake = true := by
  cases t <;> decide

theorem newNode_same {t : AstType} {m m' : Mem} {d : Made} (h : newNode code ask n t m = .ok (some d, m')) :
    newNode repaired ask n t m = .ok (some d, m') := by
  unfold newNode at h ⊢
  cases e : code.new t with
  | none => rw [e] at h; cases h
  | some p =>
    rw [e] at h
    obtain ⟨q, hq, hs⟩ := new_same t e
    rw [hq]
    have := (oneMake_table t).2
    rw [show newProg t = some p from e] at this
    exact exec_same (fun h => by cases h) hs this h

theorem cloneNode_same {t : AstType} {m m' : Mem} {d : Made} (h : cloneNode code ask n t m = .ok (some d, m')) :
    cloneNode repaired ask n t m = .ok (some d, m') := by
  unfold cloneNode at h ⊢
  cases e : code.clone t with
  | none => rw [e] at h; cases h
  | some p =>
    rw [e] at h
    obtain ⟨q, hq, hs⟩ := clone_same t e
    rw [hq]
    have := (oneMake_table t).1
    rw [show cloneProg t = some p from e] at this
    exact exec_same newNode_same hs this h

end

mutual
/-- The number of nodes that have children. -/
def inner : Node → Nat
  | .mk _ _ _ _ _ _ _ children => (if children.length = 0 then 0 else 1) + inners children
def inners : List Node → Nat
  | [] => 0
  | n :: ns => inner n + inners ns
end

/-- What is allocated after a copy was made: what was, the copy, and `lost`. -/
structure Leaves (live lost cells : List Nat) (m' : Mem) : Prop where
  nodup : (lost ++ cells).Nodup
  new : ∀ c ∈ lost ++ cells, c ∉ live
  live : ∀ c, c ∈ m'.live ↔ c ∈ lost ∨ c ∈ cells ∨ c ∈ live

section
variable {ask : Nat → Bool}

mutual
theorem cloneTree_leaves : ∀ (n : Node) {m m' : Mem} {t : Tree}, WellTyped n → m.Old →
    cloneTree code true ask n m = .ok (some t, m') →
    ∃ lost, Leaves m.live lost t.cells m' ∧ lost.length = inner n ∧ t.Like n ∧ m'.Old ∧ m.tick ≤ m'.tick
  | .mk id c ops args seq text range children, m, m', t, hw, hm, h => by
    obtain ⟨p, hp⟩ := Option.isSome_iff_exists.1 (repaired_some c)
    have hterm : c.terminal.isSome → children = [] := by cases hw; assumption
    have hch : ∀ x ∈ children, WellTyped x := by cases hw; assumption
    unfold cloneTree at h
    by_cases h0 : children.length = 0
    · rw [if_pos h0] at h
      cases e : cloneNode code ask 0 c.ty m with
      | error f => rw [e] at h; cases h
      | ok r =>
        rw [e] at h
        obtain ⟨o, m1⟩ := r
        simp only [Bind.bind, Except.bind, Except.ok.injEq, Prod.mk.injEq] at h
        obtain ⟨h1, rfl⟩ := h
        cases o with
        | none => cases h1
        | some d =>
          cases h1
          obtain ⟨r, e2, g1, g2, g3⟩ := clone_repaired (ask := ask) (n := 0) hp hm
          rw [cloneNode_same e] at e2
          cases e2
          simp only [Tidy] at g1
          have : children = [] := List.length_eq_zero_iff.1 h0
          subst this
          refine ⟨[], ⟨by simpa [Tree.cells, Tree.cellss] using g1.1, by simpa [Tree.cells, Tree.cellss] using g1.2.1,
            by simpa [Tree.cells, Tree.cellss] using g1.2.2⟩, by simp [inner, inners], by simp [Tree.Like, Tree.Likes], g2, g3⟩
    · rw [if_neg h0] at h
      have hnt : c.terminal.isSome = false := by
        cases e : c.terminal.isSome with
        | false => rfl
        | true => exact absurd (by rw [hterm e]; rfl) h0
      have gu : ∀ {a : Ptr} {ts : List Tree} {m1 : Mem}, giveUp a ts m1 = .ok (some t, m') → False := fun {a ts m1} hg => by
        unfold giveUp at hg
        cases e : treesFree a ts m1 with
        | error f => rw [e] at hg; cases hg
        | ok m2 =>
          rw [e] at hg
          simp only [Bind.bind, Except.bind] at hg
          cases e2 : free a m2 with
          | error f => rw [e2] at hg; cases hg
          | ok m3 => rw [e2] at hg; cases hg
      split at h
      · have hma : m.add.Old := fun c hc => by
          simp only [Mem.add, List.mem_cons] at hc ⊢
          rcases hc with rfl | hc
          · omega
          · have := hm c hc; omega
        dsimp only at h
        cases e1 : cloneTrees code true ask children m.add with
        | error f => rw [e1] at h; cases h
        | ok x =>
          obtain ⟨⟨ts, all⟩, m1⟩ := x
          rw [e1] at h
          simp only [Bind.bind, Except.bind] at h
          cases all with
          | false => exact (gu h).elim
          | true =>
            rw [if_pos rfl] at h
            obtain ⟨lost, ⟨k1, k2, k3⟩, k4, k5, k6, k7⟩ := cloneTrees_leaves children hch hma e1
            cases e2 : cloneNode code ask children.length c.ty m1 with
            | error f => rw [e2] at h; cases h
            | ok x =>
              obtain ⟨o, m2⟩ := x
              rw [e2] at h
              cases o with
              | none => exact (gu h).elim
              | some d =>
                have hk := kids_some (.inl rfl) hnt h0 e2
                simp only [hk, if_true, Except.ok.injEq, Prod.mk.injEq, Option.some.injEq] at h
                obtain ⟨rfl, rfl⟩ := h
                obtain ⟨r, e3, g1, g2, g3⟩ := clone_repaired (ask := ask) (n := children.length) hp k6
                rw [cloneNode_same e2] at e3
                cases e3
                simp only [Tidy] at g1
                obtain ⟨d1, d2, d3⟩ := g1
                have al : m.tick ∉ m.live := fun h => by have := hm _ h; omega
                have k2' : ∀ c ∈ lost ++ Tree.cellss ts, c ≠ m.tick ∧ c ∉ m.live := fun c hc => by
                  simpa [Mem.add] using k2 c hc
                have k3' : ∀ c, c ∈ m1.live ↔ c ∈ lost ++ Tree.cellss ts ∨ c = m.tick ∨ c ∈ m.live := fun c => by
                  rw [k3 c]; simp [Mem.add, or_assoc]
                have d2' : ∀ c ∈ d.cells, c ∉ lost ++ Tree.cellss ts ∧ c ≠ m.tick ∧ c ∉ m.live := fun c hc => by
                  have := d2 c hc
                  rw [k3' c] at this
                  simpa only [not_or] using this
                have hle : m.tick + 1 ≤ m1.tick := k7
                refine ⟨m.tick :: lost, ⟨?_, fun c hc => ?_, fun c => ?_⟩, ?_, ⟨fun _ => hk, k5⟩, g2, by
                  have : m1.tick ≤ m2.tick := g3
                  omega⟩
                · rw [Tree.cells, List.cons_append]
                  refine List.nodup_cons.2 ⟨fun hc => ?_, ?_⟩
                  · simp only [List.mem_append] at hc
                    rcases hc with hc | hc | hc
                    · exact (k2' _ (by simp [hc])).1 rfl
                    · exact (d2' _ hc).2.1 rfl
                    · exact (k2' _ (by simp [hc])).1 rfl
                  · obtain ⟨a1, a2, a3⟩ := List.nodup_append.1 k1
                    refine List.nodup_append.2 ⟨a1, List.nodup_append.2 ⟨d1, a2, fun a ha b hb e => ?_⟩, fun a ha b hb e => ?_⟩
                    · exact (d2' a ha).1 (by simp [e, hb])
                    · rcases List.mem_append.1 hb with hb | hb
                      · exact (d2' b hb).1 (by simp [← e, ha])
                      · exact a3 a ha b hb e
                · rw [Tree.cells, List.cons_append] at hc
                  simp only [List.mem_cons, List.mem_append] at hc
                  rcases hc with rfl | hc | hc | hc
                  · exact al
                  · exact (k2' c (by simp [hc])).2
                  · exact (d2' c hc).2.2
                  · exact (k2' c (by simp [hc])).2
                · rw [d3, k3', Tree.cells]
                  simp only [List.mem_cons, List.mem_append]
                  constructor
                  · rintro (h | (h | h) | h | h)
                    · exact .inr (.inl (.inl h))
                    · exact .inl (.inr h)
                    · exact .inr (.inl (.inr h))
                    · exact .inl (.inl h)
                    · exact .inr (.inr h)
                  · rintro ((h | h) | (h | h) | h)
                    · exact .inr (.inr (.inl h))
                    · exact .inr (.inl (.inl h))
                    · exact .inl h
                    · exact .inr (.inl (.inr h))
                    · exact .inr (.inr (.inr h))
                · rw [List.length_cons, k4, inner, if_neg h0, Nat.add_comm]
      · cases h
theorem cloneTrees_leaves : ∀ (xs : List Node) {m m' : Mem} {ts : List Tree}, (∀ x ∈ xs, WellTyped x) → m.Old →
    cloneTrees code true ask xs m = .ok ((ts, true), m') →
    ∃ lost, Leaves m.live lost (Tree.cellss ts) m' ∧ lost.length = inners xs ∧ Tree.Likes ts xs ∧ m'.Old ∧ m.tick ≤ m'.tick
  | [], m, m', ts, _, hm, h => by
    simp only [cloneTrees, Except.ok.injEq, Prod.mk.injEq] at h
    obtain ⟨⟨rfl, -⟩, rfl⟩ := h
    exact ⟨[], ⟨by simp [Tree.cellss], by simp [Tree.cellss], by simp [Tree.cellss]⟩, rfl, by simp [Tree.Likes], hm,
      Nat.le_refl _⟩
  | x :: xs, m, m', ts, hw, hm, h => by
    unfold cloneTrees at h
    cases e1 : cloneTree code true ask x m with
    | error f => rw [e1] at h; cases h
    | ok r =>
      obtain ⟨o, m1⟩ := r
      rw [e1] at h
      simp only [Bind.bind, Except.bind] at h
      cases o with
      | none => simp at h
      | some t =>
        obtain ⟨lost1, ⟨a1, a2, a3⟩, a4, a5, a6, a7⟩ := cloneTree_leaves x (hw x (by simp)) hm e1
        simp only at h
        cases e2 : cloneTrees code true ask xs m1 with
        | error f => rw [e2] at h; cases h
        | ok r =>
          obtain ⟨⟨us, all⟩, m2⟩ := r
          rw [e2] at h
          simp only [Except.ok.injEq, Prod.mk.injEq] at h
          obtain ⟨⟨rfl, rfl⟩, rfl⟩ := h
          obtain ⟨lost2, ⟨b1, b2, b3⟩, b4, b5, b6, b7⟩ := cloneTrees_leaves xs (fun y hy => hw y (by simp [hy])) a6 e2
          have b2' : ∀ c ∈ lost2 ++ Tree.cellss us, c ∉ lost1 ∧ c ∉ t.cells ∧ c ∉ m.live := fun c hc => by
            have := b2 c hc
            rw [a3 c] at this
            simpa only [not_or] using this
          obtain ⟨p1, p2, p3⟩ := List.nodup_append.1 a1
          obtain ⟨q1, q2, q3⟩ := List.nodup_append.1 b1
          refine ⟨lost1 ++ lost2, ⟨?_, fun c hc => ?_, fun c => ?_⟩, ?_, ⟨a5, b5⟩, b6, Nat.le_trans a7 b7⟩
          · rw [Tree.cellss]
            refine List.nodup_append.2 ⟨List.nodup_append.2 ⟨p1, q1, fun a ha b hb e => ?_⟩,
              List.nodup_append.2 ⟨p2, q2, fun a ha b hb e => ?_⟩, fun a ha b hb e => ?_⟩
            · exact (b2' b (by simp [hb])).1 (e ▸ ha)
            · exact (b2' b (by simp [hb])).2.1 (e ▸ ha)
            · subst e
              rcases List.mem_append.1 ha with ha | ha <;> rcases List.mem_append.1 hb with hb | hb
              · exact p3 a ha a hb rfl
              · exact (b2' a (by simp [hb])).1 ha
              · exact (b2' a (by simp [ha])).2.1 hb
              · exact q3 a ha a hb rfl
          · rw [Tree.cellss] at hc
            simp only [List.mem_append] at hc
            rcases hc with (hc | hc) | hc | hc
            · exact a2 c (by simp [hc])
            · exact (b2' c (by simp [hc])).2.2
            · exact a2 c (by simp [hc])
            · exact (b2' c (by simp [hc])).2.2
          · rw [b3, a3, Tree.cellss]
            simp only [List.mem_append]
            constructor
            · rintro (h | h | h | h | h)
              · exact .inl (.inr h)
              · exact .inr (.inl (.inr h))
              · exact .inl (.inl h)
              · exact .inr (.inl (.inl h))
              · exact .inr (.inr h)
            · rintro ((h | h) | (h | h) | h)
              · exact .inr (.inr (.inl h))
              · exact .inl h
              · exact .inr (.inr (.inr (.inl h)))
              · exact .inr (.inl h)
              · exact .inr (.inr (.inr (.inr h)))
          · rw [List.length_append, a4, b4, inners]
end

end

/-! ## The property -/

/-- With the repairs, copying any tree either makes a copy that owns all that was allocated, or returns NULL and leaves
nothing allocated, whichever allocations fail. -/
theorem clone_tree_repaired {n : Node} (hw : WellTyped n) (ask : Nat → Bool) {m : Mem} (hm : m.Old) :
    ∃ r, cloneTree repaired false ask n m = .ok r ∧ TidyTree m.live r ∧ ∀ t, r.1 = some t → t.Like n := by
  obtain ⟨r, h1, h2, h3, -⟩ := cloneTree_ok (ask := ask) n hw hm
  exact ⟨r, h1, h2, h3⟩

/-- The code loses an allocation for each node with children, every time a tree is copied. -/
theorem clone_tree_leaks {n : Node} (hw : WellTyped n) {ask : Nat → Bool} {m m' : Mem} {t : Tree} (hm : m.Old)
    (h : cloneTree code true ask n m = .ok (some t, m')) :
    ∃ lost, Leaves m.live lost t.cells m' ∧ lost.length = inner n ∧ t.Like n := by
  obtain ⟨lost, h1, h2, h3, -⟩ := cloneTree_leaves n hw hm h
  exact ⟨lost, h1, h2, h3⟩

/-- That is what the copy does not free. -/
theorem clone_then_free {n : Node} (hw : WellTyped n) {ask : Nat → Bool} {m m' : Mem} {t : Tree} (hm : m.Old)
    (h : cloneTree code true ask n m = .ok (some t, m')) :
    ∃ m2, treeFree t m' = .ok m2 ∧ ∃ lost : List Nat, lost.Nodup ∧ lost.length = inner n ∧ (∀ c ∈ lost, c ∉ m.live) ∧
      ∀ c, c ∈ m2.live ↔ c ∈ lost ∨ c ∈ m.live := by
  obtain ⟨lost, ⟨h1, h2, h3⟩, h4, h5⟩ := clone_tree_leaks hw hm h
  obtain ⟨n1, n2, n3⟩ := List.nodup_append.1 h1
  obtain ⟨m2, e, -, l⟩ := treeFree_ok (m := m') h5 n2 (fun c hc => (h3 c).2 (.inr (.inl hc)))
  refine ⟨m2, e, lost, n1, h4, fun c hc => h2 c (by simp [hc]), fun c => ?_⟩
  rw [l, h3]
  constructor
  · rintro ⟨h | h | h, h'⟩
    · exact .inl h
    · exact absurd h h'
    · exact .inr h
  · rintro (h | h)
    · exact ⟨.inl h, fun hc => n3 c h c hc rfl⟩
    · exact ⟨.inr (.inr h), fun hc => h2 c (by simp [hc]) h⟩

/-! ## Examples -/

/-- `[x, [y]]` -/
def sample : Node :=
  let r : Range := ⟨⟨1, 1, 0⟩, ⟨1, 1, 0⟩⟩
  let x := Node.mk 0 .strbufIdentifier [] [] [] [120] r []
  let y := Node.mk 1 .strbufIdentifier [] [] [] [121] r []
  let l := Node.mk 2 .collectionLiteral [] [] [y.ref] [] r [y]
  .mk 3 .collectionLiteral [] [] [x.ref, l.ref] [] r [x, l]

/-- Six allocations for the copy, and two lost ones. -/
example : inner sample = 2 ∧
    (match cloneTree code true (fun _ => true) sample ⟨0, []⟩ with
      | .ok (some t, m) => (t.cells.length, m.live.length, match treeFree t m with | .ok m => m.live.length | _ => 99)
      | _ => (0, 0, 0)) = (6, 8, 2) := by decide +kernel

/-- Whichever question is answered by no, NULL is returned. The code then has lost an allocation if the copy of `[y]`
was already made; with the repairs nothing is lost. -/
example : ((List.range 16).map fun k =>
      match cloneTree code true (fun i => i != k) sample ⟨0, []⟩ with
      | .ok (none, m) => some m.live.length
      | _ => none) = (List.replicate 11 (some 0) ++ List.replicate 5 (some 1) : List (Option Nat)) ∧
    ((List.range 16).map fun k =>
      match cloneTree repaired false (fun i => i != k) sample ⟨0, []⟩ with
      | .ok (none, m) => some m.live.length
      | _ => none) = List.replicate 16 (some 0) := by decide +kernel

/-- CALL without memory for the arguments. -/
example : newNode code (fun i => i != 4) 2 .call ⟨0, []⟩ = .ok (none, ⟨5, [2]⟩) ∧
    newNode repaired (fun i => i != 4) 2 .call ⟨0, []⟩ = .ok (none, ⟨5, []⟩) := by decide

end Verif.Alloc
