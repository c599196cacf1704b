import Verif.Cypher.AbsSem
/-!
# The abstract machine describes the machine: actions
-/
namespace Verif.Cypher
open Verif.Peg

/-! ### Moving nodes -/

/-- Nodes that were somewhere are where the function says. -/
def Moves (F : Loc → Bool → Loc × Bool) (D : List Delta) (P : Option Block) (D' : List Delta)
    (P' : Option Block) : Prop :=
  ∀ l f r, InLoc D P l f r → InLoc D' P' (F l f).1 (F l f).2 r

section moves
variable {F : Loc → Bool → Loc × Bool} {D D' : List Delta} {P P' : Option Block}

theorem ValOk.move (hm : Moves F D P D' P') {a : AVal} {v : Option Ref} (h : ValOk D P a v) :
    ValOk D' P' (a.reloc F) v := by
  cases v with
  | none => exact h
  | some r => exact ⟨h.1, hm _ _ _ h.2⟩

theorem SelfOk.move (hm : Moves F D P D' P') {a : ASelf} {v0 v : Option Ref} (h : SelfOk D P v0 a v) :
    SelfOk D' P' v0 (a.reloc F) v := by
  cases a with
  | keep => exact h
  | unk => trivial
  | val a => exact ValOk.move hm h

theorem VarsOk.move (hm : Moves F D P D' P') : ∀ {as : List (Option AVal)}
    {xs : List (Option (Option Ref))}, VarsOk D P as xs →
    VarsOk D' P' (as.map (Option.map (AVal.reloc F))) xs
  | [], [], _ => trivial
  | [], _ :: _, h => h
  | _ :: _, [], h => h
  | a :: as, x :: xs, h => by
    refine ⟨?_, VarsOk.move hm h.2⟩
    cases a with
    | none => trivial
    | some a =>
      obtain ⟨v, hv, h1⟩ := h.1
      exact ⟨v, hv, h1.move hm⟩

theorem FrameOk.move (hm : Moves F D P D' P') {F0 fs : List (List (Option (Option Ref)))}
    {as : List (Option AVal)} (h : FrameOk D P F0 as fs) :
    FrameOk D' P' F0 (as.map (Option.map (AVal.reloc F))) fs := by
  rcases h with ⟨h1, h2⟩ | ⟨h1, fr, h2, h3⟩
  · exact .inl ⟨by simp [h1], h2⟩
  · exact .inr ⟨by simp [h1], fr, h2, h3.move hm⟩
end moves

/-- Nodes that were somewhere still are. -/
def Stays (D : List Delta) (P : Option Block) (D' : List Delta) (P' : Option Block) : Prop :=
  ∀ l f r, InLoc D P l f r → InLoc D' P' l f r

section stays
variable {D D' : List Delta} {P P' : Option Block}

theorem ValOk.stay (hm : Stays D P D' P') {a : AVal} {v : Option Ref} (h : ValOk D P a v) :
    ValOk D' P' a v := by
  cases v with
  | none => exact h
  | some r => exact ⟨h.1, hm _ _ _ h.2⟩

theorem SelfOk.stay (hm : Stays D P D' P') {a : ASelf} {v0 v : Option Ref} (h : SelfOk D P v0 a v) :
    SelfOk D' P' v0 a v := by
  cases a with
  | keep => exact h
  | unk => trivial
  | val a => exact ValOk.stay hm h

theorem VarsOk.stay (hm : Stays D P D' P') : ∀ {as : List (Option AVal)}
    {xs : List (Option (Option Ref))}, VarsOk D P as xs → VarsOk D' P' as xs
  | [], [], _ => trivial
  | [], _ :: _, h => h
  | _ :: _, [], h => h
  | a :: as, x :: xs, h => by
    refine ⟨?_, VarsOk.stay hm h.2⟩
    cases a with
    | none => trivial
    | some a =>
      obtain ⟨v, hv, h1⟩ := h.1
      exact ⟨v, hv, h1.stay hm⟩

theorem FrameOk.stay (hm : Stays D P D' P') {F0 fs : List (List (Option (Option Ref)))}
    {as : List (Option AVal)} (h : FrameOk D P F0 as fs) : FrameOk D' P' F0 as fs := by
  rcases h with ⟨h1, h2⟩ | ⟨h1, fr, h2, h3⟩
  · exact .inl ⟨h1, h2⟩
  · exact .inr ⟨h1, fr, h2, h3.stay hm⟩
end stays

theorem moves_push {D : List Delta} {P : Option Block} (x : Delta) :
    Moves onPush D P (x :: D) none := by
  intro l f r h
  cases l with
  | «at» j => obtain ⟨d, h1, h2⟩ := h; exact ⟨d, by simpa using h1, h2⟩
  | prev => trivial
  | unknown => trivial

theorem moves_pop {d : Delta} {D : List Delta} {P : Option Block} {b : Block} (hb : b.children = d.1) :
    Moves onPop (d :: D) P D (some b) := by
  intro l f r h
  cases l with
  | «at» j =>
    obtain ⟨x, h1, h2⟩ := h
    cases j with
    | zero =>
      simp at h1
      subst h1
      exact ⟨b, rfl, by rw [hb]; exact h2⟩
    | succ j => exact ⟨x, by simpa using h1, h2⟩
  | prev => trivial
  | unknown => trivial

theorem moves_replace {d x : Delta} {D : List Delta} {P : Option Block} {b : Block}
    (hb : b.children = d.1) : Moves onReplace (d :: D) P (x :: D) (some b) := by
  intro l f r h
  cases l with
  | «at» j =>
    obtain ⟨y, h1, h2⟩ := h
    cases j with
    | zero =>
      simp at h1
      subst h1
      exact ⟨b, rfl, by rw [hb]; exact h2⟩
    | succ j => exact ⟨y, by simpa using h1, h2⟩
  | prev => trivial
  | unknown => trivial

theorem InList.left {c c' : List Node} {f : Bool} {r : Ref} (h : InList c f r) : InList (c ++ c') f r := by
  obtain ⟨⟨n, h1, h2⟩, h3⟩ := h
  refine ⟨⟨n, by simp [h1], h2⟩, fun hf => ?_⟩
  obtain ⟨k, h4, h5⟩ := h3 hf
  exact ⟨k, by rw [List.head?_append, h4]; rfl, h5⟩

theorem InList.right {c c' : List Node} {f : Bool} {r : Ref} (h : InList c' f r) :
    InList (c ++ c') false r := by
  obtain ⟨⟨n, h1, h2⟩, -⟩ := h
  exact ⟨⟨n, by simp [h1], h2⟩, fun hf => by cases hf⟩

theorem moves_merge {d e : Delta} {s : List Ref} {D : List Delta} {P P' : Option Block} :
    Moves onMerge (d :: e :: D) P ((e.1 ++ d.1, s) :: D) P' := by
  intro l f r h
  cases l with
  | «at» j =>
    obtain ⟨y, h1, h2⟩ := h
    cases j with
    | zero =>
      simp at h1
      subst h1
      exact ⟨_, rfl, h2.right⟩
    | succ j =>
      cases j with
      | zero =>
        simp at h1
        subst h1
        exact ⟨_, rfl, h2.left⟩
      | succ j => exact ⟨y, by simpa using h1, h2⟩
  | prev => trivial
  | unknown => trivial

theorem moves_drop {d : Delta} {c : List Node} {s : List Ref} {D : List Delta} {P P' : Option Block} :
    Moves onDrop (d :: D) P ((d.1 ++ c, s) :: D) P' := by
  intro l f r h
  cases l with
  | «at» j =>
    obtain ⟨y, h1, h2⟩ := h
    cases j with
    | zero =>
      simp at h1
      subst h1
      exact ⟨_, rfl, h2.left⟩
    | succ j => exact ⟨y, by simpa using h1, h2⟩
  | prev => trivial
  | unknown => trivial

theorem stays_seq {d : Delta} {s : List Ref} {D : List Delta} {P : Option Block} :
    Stays (d :: D) P ((d.1, s) :: D) P := by
  intro l f r h
  cases l with
  | «at» j =>
    obtain ⟨y, h1, h2⟩ := h
    cases j with
    | zero =>
      simp at h1
      subst h1
      exact ⟨_, rfl, h2⟩
    | succ j => exact ⟨y, by simpa using h1, h2⟩
  | prev => exact h
  | unknown => trivial

/-! ### Results -/

theorem ResOk.push {mask : Nat} {v0 v : Option Ref} {d x : Delta} {D : List Delta}
    (h : ResOk mask v0 v (d :: D)) : ResOk mask v0 v (x :: d :: D) := by
  rcases h with h | h | ⟨r, y, h1, h2, h3, h4⟩
  · exact .inl h
  · exact .inr (.inl h)
  · exact .inr (.inr ⟨r, y, h1, h2, by rw [List.getLast?_cons_cons]; exact h3, h4⟩)

theorem ResOk.pop {mask : Nat} {v0 v : Option Ref} {d x : Delta} {D : List Delta}
    (h : ResOk mask v0 v (x :: d :: D)) : ResOk mask v0 v (d :: D) := by
  rcases h with h | h | ⟨r, y, h1, h2, h3, h4⟩
  · exact .inl h
  · exact .inr (.inl h)
  · exact .inr (.inr ⟨r, y, h1, h2, by rw [List.getLast?_cons_cons] at h3; exact h3, h4⟩)

theorem ResOk.update {mask : Nat} {v0 v : Option Ref} {d : Delta} {c : List Node} {s : List Ref}
    {D : List Delta} (h : ResOk mask v0 v (d :: D)) : ResOk mask v0 v ((d.1 ++ c, s) :: D) := by
  rcases h with h | h | ⟨r, y, h1, h2, h3, h4⟩
  · exact .inl h
  · exact .inr (.inl h)
  · refine .inr (.inr ?_)
    cases D with
    | nil =>
      simp at h3
      subst h3
      obtain ⟨n, h5, h6⟩ := h4
      exact ⟨r, _, h1, h2, rfl, n, by simp [h5], h6⟩
    | cons e D =>
      exact ⟨r, y, h1, h2, by rw [List.getLast?_cons_cons] at h3 ⊢; exact h3, h4⟩

theorem ResOk.mono {m m' : Nat} {v0 v : Option Ref} {D : List Delta} (h : ResOk m v0 v D)
    (hm : ∀ r, HasTy m r → HasTy m' r) : ResOk m' v0 v D := by
  rcases h with h | h | ⟨r, y, h1, h2, h3⟩
  · exact .inl h
  · exact .inr (.inl h)
  · exact .inr (.inr ⟨r, y, h1, hm r h2, h3⟩)

/-! ### Sequences -/

theorem SeqOk.isEmpty {a : SeqA} {s : List Ref} (h : SeqOk a s) (he : a.isEmpty = true) : s = [] := by
  simp only [SeqA.isEmpty, Bool.and_eq_true, beq_iff_eq] at he
  obtain ⟨s1, s2, rfl, h1, h2, -⟩ := h.parts
  cases s1 with
  | cons r _ => exact absurd (h1 r (by simp)) (by rw [he.1]; exact HasTy.zero)
  | nil =>
    cases s2 with
    | cons r _ => exact absurd (h2 r (by simp)) (by rw [he.2]; exact HasTy.zero)
    | nil => rfl

theorem SeqOk.empty : SeqOk .empty [] :=
  ⟨⟨[], [], rfl, by simp, by simp, by simp [SeqA.empty]⟩, trivial, by simp [SeqA.empty], by simp [SeqA.empty]⟩

theorem SeqOk.single {m : Nat} {r : Ref} (h : HasTy m r) : SeqOk (.single m) [r] :=
  ⟨⟨[r], [], rfl, by simpa [SeqA.single] using h, by simp, by simp [SeqA.single]⟩, ⟨h, trivial⟩,
    by simp [SeqA.single], by simp [SeqA.single]⟩

theorem Turns.imp {e o e' o' : Nat} (he : ∀ r, HasTy e r → HasTy e' r)
    (ho : ∀ r, HasTy o r → HasTy o' r) : ∀ {s : List Ref}, Turns e o s → Turns e' o' s := by
  intro s
  induction s generalizing e o e' o' with
  | nil => intro _; trivial
  | cons r rs ih => intro h; exact ⟨he _ h.1, ih ho he h.2⟩

theorem Turns.append {e o : Nat} : ∀ {s t : List Ref}, Turns e o s →
    (s.length % 2 = 0 → Turns e o t) → (s.length % 2 = 1 → Turns o e t) → Turns e o (s ++ t) := by
  intro s
  induction s generalizing e o with
  | nil => intro t _ h _; exact h rfl
  | cons r rs ih =>
    intro t h h0 h1
    refine ⟨h.1, ih h.2 (fun hl => h1 ?_) (fun hl => h0 ?_)⟩ <;> simp only [List.length_cons] <;> omega

theorem SeqOk.app {a d : SeqA} {s t : List Ref} (h : SeqOk a s) (h' : SeqOk d t) :
    SeqOk (a.app d) (s ++ t) := by
  obtain ⟨s1, s2, e, g1, g2, g3⟩ := h.parts
  obtain ⟨t1, t2, e', k1, k2, k3⟩ := h'.parts
  refine ⟨?_, ?_, ?_, ?_⟩
  · simp only [SeqA.app, SeqA.parts]
    split
    · rename_i he
      have := h'.isEmpty he
      subst this
      exact ⟨s1, s2, by simp [e], g1, g2, g3⟩
    · split
      · rename_i he
        have := h.isEmpty he
        subst this
        exact ⟨t1, t2, by simp [e'], k1, k2, k3⟩
      · split
        · rename_i hc
          have h2 : s2 = [] := by
            cases s2 with
            | nil => rfl
            | cons r _ => exact absurd (g2 r (by simp)) (by rw [hc.1]; exact HasTy.zero)
          subst h2
          refine ⟨s1 ++ t1, t2, by simp [e, e'], ?_, k2, k3⟩
          intro r hr
          rcases List.mem_append.1 hr with hr | hr
          · exact g1 r hr
          · exact (k1 r hr).mono hc.2
        · refine ⟨s1, s2 ++ t, by simp [e], g1, ?_, ?_⟩
          · intro r hr
            rcases List.mem_append.1 hr with hr | hr
            · exact (g2 r hr).orl.orl
            · rw [e'] at hr
              rcases List.mem_append.1 hr with hr | hr
              · exact (k1 r hr).orr.orl
              · exact (k2 r hr).orr
          · simp only [Bool.or_eq_true, decide_eq_true_eq]
            rintro (hn | hn) hnil
            · exact g3 hn (List.append_eq_nil_iff.1 hnil).1
            · have := (List.append_eq_nil_iff.1 hnil).2
              subst this
              have := h'.min
              simp at this; omega
  · have hp := h.par
    simp only [SeqA.app, SeqA.turns]
    cases hpar : a.par with
    | none =>
      exact (h.turns.imp (fun _ h => h.orl.orl) (fun _ h => h.orl.orl)).append
        (fun _ => h'.turns.imp (fun _ h => h.orr.orl) (fun _ h => h.orr))
        (fun _ => h'.turns.imp (fun _ h => h.orr.orl) (fun _ h => h.orr))
    | some b =>
      have hb := hp b hpar
      cases b with
      | false =>
        simp only [decide_eq_false_iff_not] at hb
        exact (h.turns.imp (fun _ h => h.orl) (fun _ h => h.orl)).append
          (fun _ => h'.turns.imp (fun _ h => h.orr) (fun _ h => h.orr)) (fun h => absurd h hb)
      | true =>
        simp only [decide_eq_true_eq] at hb
        exact (h.turns.imp (fun _ h => h.orl) (fun _ h => h.orl)).append (fun h => by omega)
          (fun _ => h'.turns.imp (fun _ h => h.orr) (fun _ h => h.orr))
  · intro b hb
    simp only [SeqA.app] at hb
    split at hb
    · rename_i x y hx hy
      have h1 := h.par x hx
      have h2 := h'.par y hy
      have hb := Option.some.inj hb
      subst hb
      rw [← h1, ← h2, List.length_append]
      rcases Nat.mod_two_eq_zero_or_one s.length with e1 | e1 <;>
        rcases Nat.mod_two_eq_zero_or_one t.length with e2 | e2 <;>
        simp [Nat.add_mod, e1, e2]
    · cases hb
  · simp only [SeqA.app, List.length_append]
    have h1 := h.min
    have h2 := h'.min
    have : Nat.min 2 (a.min + d.min) ≤ a.min + d.min := Nat.min_le_right _ _
    omega

theorem BlkOk.fresh : BlkOk .fresh [] [] :=
  ⟨fun _ => rfl, by simp [ABlk.fresh], SeqOk.empty, by simp [ABlk.fresh], by simp, by simp⟩

/-- What is added to a block. -/
theorem BlkOk.append {a d : ABlk} {c c' : List Node} {s s' : List Ref} (h : BlkOk a c s)
    (h' : BlkOk d c' s') :
    BlkOk ⟨a.emp && d.emp, a.sur + d.sur, a.seq.app d.seq, a.hd⟩ (c ++ c') (s ++ s') := by
  refine ⟨?_, ?_, h.seq.app h'.seq, ?_, ?_, ?_⟩
  · simp only [Bool.and_eq_true]
    rintro ⟨h1, h2⟩
    rw [h.emp h1, h'.emp h2]; rfl
  · have := h.sur
    have := h'.sur
    simp only [List.length_append]; omega
  · intro hh
    obtain ⟨n, r, h1, h2, h3⟩ := h.hd hh
    exact ⟨n, r, by rw [List.head?_append, h1]; rfl, by rw [List.head?_append, h2]; rfl, h3⟩
  · intro r hr
    rcases List.mem_append.1 hr with hr | hr
    · obtain ⟨n, h1, h2⟩ := h.mem r hr; exact ⟨n, by simp [h1], h2⟩
    · obtain ⟨n, h1, h2⟩ := h'.mem r hr; exact ⟨n, by simp [h1], h2⟩
  · intro n hn
    rcases List.mem_append.1 hn with hn | hn
    · exact h.wt n hn
    · exact h'.wt n hn

/-! ### The stack of blocks -/

section stk
variable {off p : Nat} {b0 : Block} {rest : List Block}

theorem Stk.top {a : ABlk} {as : List ABlk} {D : List Delta} {B : List Block}
    (h : Stk off p b0 rest (a :: as) D B) :
    ∃ d ds b bs, D = d :: ds ∧ B = b :: bs ∧ BlkOk a d.1 d.2 := by
  cases as with
  | nil => obtain ⟨d, h1, h2, h3⟩ := h; exact ⟨d, [], _, _, h1, h3, h2⟩
  | cons a' as => obtain ⟨d, ds, b, bs, h1, h2, h3, _⟩ := h; exact ⟨d, ds, b, bs, h1, h2, h3⟩

/-- Nodes and elements of the sequence are added to the innermost block. -/
theorem Stk.update {a a' : ABlk} {as : List ABlk} {d : Delta} {ds : List Delta} {b : Block}
    {bs : List Block} (h : Stk off p b0 rest (a :: as) (d :: ds) (b :: bs)) {c : List Node}
    {s : List Ref} (hb : BlkOk a' (d.1 ++ c) (d.2 ++ s)) :
    Stk off p b0 rest (a' :: as) ((d.1 ++ c, d.2 ++ s) :: ds)
      ({ b with children := b.children ++ c, seq := b.seq ++ s } :: bs) := by
  cases as with
  | nil =>
    obtain ⟨d', h1, h2, h3⟩ := h
    cases h1
    cases h3
    exact ⟨_, rfl, hb, by simp⟩
  | cons x as =>
    obtain ⟨d', ds', b', bs', h1, h2, h3, h4, h5, h6, h7⟩ := h
    cases h1
    cases h2
    exact ⟨_, _, _, _, rfl, rfl, hb, by simp [h4], by simp [h5], h6, h7⟩

theorem Stk.push {a : ABlk} {as : List ABlk} {D : List Delta} {B : List Block}
    (h : Stk off p b0 rest (a :: as) D B) {b : Block} (hc : b.children = []) (hs : b.seq = [])
    (ho : OpenOk off p b) : Stk off p b0 rest (.fresh :: a :: as) (([], []) :: D) (b :: B) :=
  ⟨_, _, _, _, rfl, rfl, .fresh, hc, hs, ho, h⟩
end stk

theorem APrev.isClean_ok {p : Nat} {P0 P : Option Block} {a : APrev} (h : PrevOk p P0 a P) (hc : Clean P0)
    (ha : a.isClean = true) : Clean P := by
  cases a with
  | no => rw [show P = none from h]; intro b hb; cases hb
  | keep =>
    rcases h with h | h
    · rw [h]; exact hc
    · rw [h]; intro b hb; cases hb
  | clean => exact h
  | txt => obtain ⟨b, h1, h2, _⟩ := h; rw [h1]; intro b hb; cases hb; exact h2
  | blk a => obtain ⟨b, h1, h2, _⟩ := h; rw [h1]; intro b hb; cases hb; exact h2.emp ha

/-- Positions can be computed. -/
def EnvOk (env : Env) : Prop := 0 ∈ env.lines

theorem position_ok {env : Env} (he : EnvOk env) (p : Nat) :
    ∃ x, Mach.position env p = .ok x ∧ x.offset = env.off.offset + p := by
  obtain ⟨x, hx⟩ := inputPosition_ok (off := env.off) (p := p) he
  refine ⟨x, by simp [Mach.position, hx], ?_⟩
  unfold inputPosition at hx
  split at hx
  · cases hx
  · cases hx; simp; omega

/-! ### Block actions -/

section acts
variable {env : Env} {m0 m : Mach} {b0 : Block} {rest : List Block} {A A' : Abs} {p : Nat}
  {D : List Delta} {xs : List Op} {md : Mode}

theorem newDif_ok {k : Nat} (h : ∀ k, A.ops = some k → xs.length = k) (hn : newDif A.ops = some k) :
    0 + 8 = xs.length + k := by
  unfold newDif at hn
  split at hn
  · rename_i j hj
    have := h j hj
    split at hn
    · cases hn; omega
    · cases hn
  · cases hn

theorem blockStart_sound (he : EnvOk env) (h : Gam env m0 b0 rest A p m D xs)
    (ha : A.blockStart = some A') : Safe md (Mach.blockStart env p m) (G env m0 A' p) := by
  unfold Abs.blockStart at ha
  split at ha
  · rename_i hc
    cases ha
    obtain ⟨x, hx, hxo⟩ := position_ok he p
    have hcl := APrev.isClean_ok h.prev h.clean hc
    have hst := h.blks
    cases hbl : A.blks with
    | nil => rw [hbl] at hst; exact hst.elim
    | cons a as =>
    rw [hbl] at hst
    obtain ⟨d, ds, b, bs, hD, hB, _⟩ := hst.top
    have hrun : Mach.blockStart env p m = .ok { m with blocks := ⟨p, p, x, x, [], []⟩ :: m.blocks, prev := none } := by
      unfold Mach.blockStart
      simp only [hx, bind, Except.bind]
      cases hp : m.prev with
      | none => rfl
      | some q => simp [hcl q hp]
    rw [hrun]
    refine ⟨b0, rest, ([], []) :: D, xs, h.entry, h.clean, ?_, h.vars.move (moves_push _),
      h.self.move (moves_push _), rfl, h.stack, h.ops, ?_, ?_, ?_, h.fin, h.errs⟩
    · exact hst.push rfl rfl ⟨Nat.le_refl _, by simp [hxo]⟩
    · intro k hk y hy
      cases hy
      exact newDif_ok h.ops hk
    · intro k hk; cases hk
    · have := h.res
      rw [hD] at this ⊢
      exact this.push
  · cases ha

/-- What closing a block gives. -/
theorem blockPop_ok (he : EnvOk env) (h : Gam env m0 b0 rest A p m D xs) {a a' : ABlk} {as : List ABlk}
    (hc : A.prev.isClean = true) (hb : A.blks = a :: a' :: as) :
    ∃ d ds b bs, D = d :: ds ∧ b.children = d.1 ∧ b.seq = d.2 ∧ BlkOk a d.1 d.2 ∧ TextOk p b ∧
      b.stop = p ∧ b.rstart.offset ≤ env.off.offset + p ∧
      Stk env.off.offset p b0 rest (a' :: as) ds bs ∧ Mach.blockPop env p m = .ok (b, bs) := by
  obtain ⟨x, hx, hxo⟩ := position_ok he p
  have hcl := APrev.isClean_ok h.prev h.clean hc
  have hst := h.blks
  rw [hb] at hst
  obtain ⟨d, ds, b, bs, h1, h2, h3, h4, h5, h6, h7⟩ := hst
  refine ⟨d, ds, { b with stop := p, rstop := x }, bs, h1, h4, h5, h3, ⟨h6.1, Nat.le_refl _⟩, rfl, h6.2, h7, ?_⟩
  obtain ⟨e, es, c, cs, g1, g2, _⟩ := h7.top
  unfold Mach.blockPop
  simp only [hx, bind, Except.bind, h2, g2]
  have hord : b.start ≤ p ∧ b.rstart.offset ≤ x.offset := ⟨h6.1, by rw [hxo]; exact h6.2⟩
  simp only [hord, not_true, and_true, if_false]
  cases hp : m.prev with
  | none => rfl
  | some q => simp [hcl q hp]

theorem blockEnd_sound (he : EnvOk env) (h : Gam env m0 b0 rest A p m D xs)
    (ha : A.blockEnd = some A') : Safe md (Mach.blockEnd env p m) (G env m0 A' p) := by
  unfold Abs.blockEnd at ha
  split at ha
  · rename_i a a' as hc hbl
    cases ha
    obtain ⟨d, ds, b, bs, h1, h2, h3, h4, h5, h6, h7, h8, h9⟩ := blockPop_ok he h hc hbl
    have hrun : Mach.blockEnd env p m = .ok { m with blocks := bs, prev := some b } := by
      unfold Mach.blockEnd
      rw [h9]; rfl
    rw [hrun]
    subst h1
    obtain ⟨e, es, c, cs, g1, g2, _⟩ := h8.top
    refine ⟨b0, rest, ds, xs, h.entry, h.clean, h8, h.vars.move (moves_pop h2), h.self.move (moves_pop h2),
      ⟨b, rfl, by rw [h2, h3]; exact h4, h5⟩, h.stack, h.ops, ?_, ?_, ?_, h.fin, h.errs⟩
    · intro k hk; cases hk
    · intro k hk q hq
      cases hq
      have := h.dif k hk _ rfl
      rw [h3]; exact this
    · have := h.res
      rw [g1] at this ⊢
      exact this.pop
  · cases ha

theorem blockReplace_sound (he : EnvOk env) (h : Gam env m0 b0 rest A p m D xs)
    (ha : A.blockReplace = some A') : Safe md (Mach.blockReplace env p m) (G env m0 A' p) := by
  unfold Abs.blockReplace at ha
  split at ha
  · rename_i a a' as hc hbl
    cases ha
    obtain ⟨d, ds, b, bs, h1, h2, h3, h4, h5, h6, h7, h8, h9⟩ := blockPop_ok he h hc hbl
    have hrun : Mach.blockReplace env p m = .ok { m with
        blocks := ⟨p, p, b.rstart, b.rstart, [], []⟩ :: bs, prev := some b } := by
      unfold Mach.blockReplace
      rw [h9]; rfl
    rw [hrun]
    subst h1
    obtain ⟨e, es, c, cs, g1, g2, _⟩ := h8.top
    refine ⟨b0, rest, ([], []) :: ds, xs, h.entry, h.clean, h8.push rfl rfl ⟨Nat.le_refl _, h7⟩,
      h.vars.move (moves_replace h2), h.self.move (moves_replace h2),
      ⟨b, rfl, by rw [h2, h3]; exact h4, h5⟩, h.stack, h.ops, ?_, ?_, ?_, h.fin, h.errs⟩
    · intro k hk y hy
      cases hy
      exact newDif_ok h.ops hk
    · intro k hk q hq
      cases hq
      have := h.dif k hk _ rfl
      rw [h3]; exact this
    · have := h.res
      rw [g1] at this ⊢
      exact this.pop.push
  · cases ha

theorem blockMerge_sound (he : EnvOk env) (h : Gam env m0 b0 rest A p m D xs)
    (ha : A.blockMerge = some A') : Safe md (Mach.blockMerge env p m) (G env m0 A' p) := by
  unfold Abs.blockMerge at ha
  split at ha
  · rename_i a a' as hc hbl
    cases ha
    obtain ⟨d, ds, b, bs, h1, h2, h3, h4, h5, h6, h7, h8, h9⟩ := blockPop_ok he h hc hbl
    subst h1
    obtain ⟨e, es, c, cs, g1, g2, g3⟩ := h8.top
    subst g1
    subst g2
    have hrun : Mach.blockMerge env p m = .ok { m with
        blocks := { c with children := c.children ++ d.1, seq := c.seq ++ [] } :: cs
        prev := some { b with children := [] } } := by
      unfold Mach.blockMerge
      rw [h9]
      simp only [bind, Except.bind, h2]
      split
      · rename_i hd
        have hb : { b with children := [] } = b := by cases b; simp_all
        simp [hd, hb]
      · simp
    rw [hrun]
    have hm : Moves onMerge (d :: e :: es) m.prev ((e.1 ++ d.1, e.2 ++ []) :: es)
        (some { b with children := [] }) := moves_merge
    refine ⟨b0, rest, (e.1 ++ d.1, e.2 ++ []) :: es, xs, h.entry, h.clean, ?_, h.vars.move hm,
      h.self.move hm, ⟨_, rfl, rfl, h5⟩, h.stack, h.ops, ?_, ?_, ?_, h.fin, h.errs⟩
    · refine h8.update ⟨?_, ?_, ?_, ?_, ?_, ?_⟩
      · simp only [Bool.and_eq_true]
        rintro ⟨k1, k2⟩
        rw [h4.emp k1, g3.emp k2]; rfl
      · have := h4.sur
        have := g3.sur
        simp only [List.length_append, List.append_nil]; omega
      · rw [List.append_nil]; exact g3.seq
      · intro hh
        obtain ⟨n, r, k1, k2, k3⟩ := g3.hd hh
        exact ⟨n, r, by rw [List.head?_append, k1]; rfl, by rw [List.append_nil]; exact k2, k3⟩
      · intro r hr
        rw [List.append_nil] at hr
        obtain ⟨n, k1, k2⟩ := g3.mem r hr
        exact ⟨n, by simp [k1], k2⟩
      · intro n hn
        rcases List.mem_append.1 hn with hn | hn
        · exact g3.wt n hn
        · exact h4.wt n hn
    · intro k hk; cases hk
    · intro k hk; cases hk
    · exact h.res.pop.update
  · cases ha

/-! ### Variables -/

theorem VarsOk.get {P : Option Block} : ∀ {as : List (Option AVal)} {fr : List (Option (Option Ref))}
    (i : Nat) {a : AVal}, VarsOk D P as fr → as[i]? = some (some a) →
    ∃ v, fr[i]? = some (some v) ∧ ValOk D P a v
  | [], _, _, _, _, h => by simp at h
  | _ :: _, [], _, _, h, _ => h.elim
  | x :: as, y :: fr, 0, a, h, hi => by
    simp at hi
    subst hi
    obtain ⟨v, h1, h2⟩ := h.1
    exact ⟨v, by simp [h1], h2⟩
  | x :: as, y :: fr, i + 1, a, h, hi => by
    obtain ⟨v, h1, h2⟩ := VarsOk.get i h.2 (by simpa using hi)
    exact ⟨v, by simpa using h1, h2⟩

theorem VarsOk.set {P : Option Block} : ∀ {as : List (Option AVal)} {fr : List (Option (Option Ref))}
    (i : Nat) {a : Option AVal} {v : Option Ref}, VarsOk D P as fr → VarOk D P a (some v) →
    VarsOk D P (as.set i a) (fr.set i (some v))
  | [], [], _, _, _, _, _ => by simp [VarsOk]
  | [], _ :: _, _, _, _, h, _ => h.elim
  | _ :: _, [], _, _, _, h, _ => h.elim
  | x :: as, y :: fr, 0, a, v, h, hv => ⟨hv, h.2⟩
  | x :: as, y :: fr, i + 1, a, v, h, hv => ⟨h.1, VarsOk.set i h.2 hv⟩

theorem VarsOk.length {P : Option Block} : ∀ {as : List (Option AVal)} {fr : List (Option (Option Ref))},
    VarsOk D P as fr → as.length = fr.length
  | [], [], _ => rfl
  | [], _ :: _, h => h.elim
  | _ :: _, [], h => h.elim
  | _ :: as, _ :: fr, h => by simp [VarsOk.length h.2]

theorem getVar_sound (h : Gam env m0 b0 rest A p m D xs) {i : Nat} {a : AVal}
    (ha : A.getVar i = some a) : ∃ v, m.getVar i = .ok v ∧ ValOk D m.prev a v := by
  unfold Abs.getVar at ha
  split at ha
  · rename_i x hx
    cases ha
    rcases h.vars with ⟨h1, _⟩ | ⟨h1, fr, h2, h3⟩
    · rw [h1] at hx; simp at hx
    · obtain ⟨v, h4, h5⟩ := h3.get i hx
      exact ⟨v, by simp [Mach.getVar, h2, h4], h5⟩
  · cases ha

theorem setVar_sound (h : Gam env m0 b0 rest A p m D xs) {i : Nat} {a : Option AVal} {v : Option Ref}
    (ha : A.setVar i a = some A') (hv : VarOk D m.prev a (some v)) :
    ∃ m', m.setVar i v = .ok m' ∧ Gam env m0 b0 rest A' p m' D xs := by
  unfold Abs.setVar at ha
  split at ha
  · rename_i hi
    cases ha
    rcases h.vars with ⟨h1, _⟩ | ⟨h1, fr, h2, h3⟩
    · rw [h1] at hi; simp at hi
    · refine ⟨{ m with frames := fr.set i (some v) :: m0.frames }, ?_, ?_⟩
      · simp [Mach.setVar, h2, ← h3.length, hi]
      · exact ⟨h.entry, h.clean, h.blks, .inr ⟨by simpa using h1, _, rfl, h3.set i hv⟩, h.self, h.prev,
          h.stack, h.ops, h.dif, h.pdif, h.res, h.fin, h.errs⟩
  · cases ha

theorem assign_sound (h : Gam env m0 b0 rest A p m D xs) {d : Dst} {a : AVal} {v : Option Ref}
    (ha : A.assign d a = some A') (hv : ValOk D m.prev a v) :
    ∃ m', m.assign d v = .ok m' ∧ Gam env m0 b0 rest A' p m' D xs := by
  cases d with
  | self =>
    cases ha
    exact ⟨_, rfl, h.entry, h.clean, h.blks, h.vars, hv, h.prev, h.stack, h.ops, h.dif, h.pdif, h.res,
      h.fin, h.errs⟩
  | var i => exact setVar_sound h ha ⟨v, rfl, hv⟩
  | discard => cases ha; exact ⟨m, rfl, h⟩

/-- Values one by one. -/
def ValsOk (D : List Delta) (P : Option Block) : List AVal → List (Option Ref) → Prop
  | [], [] => True
  | a :: as, v :: vs => ValOk D P a v ∧ ValsOk D P as vs
  | _, _ => False

theorem getArgs_sound (h : Gam env m0 b0 rest A p m D xs) : ∀ {is : List (Option Nat)} {as : List AVal},
    A.getArgs is = some as → ∃ vs, m.getArgs is = .ok vs ∧ ValsOk D m.prev as vs
  | [], _, ha => by cases ha; exact ⟨[], rfl, trivial⟩
  | none :: is, as, ha => by
    simp only [Abs.getArgs] at ha
    cases hg : A.getArgs is with
    | none => rw [hg] at ha; cases ha
    | some as' =>
      rw [hg] at ha
      cases ha
      obtain ⟨vs, h1, h2⟩ := getArgs_sound h hg
      refine ⟨none :: vs, ?_, rfl, h2⟩
      simp only [Mach.getArgs, h1]; rfl
  | some i :: is, as, ha => by
    simp only [Abs.getArgs] at ha
    split at ha
    · rename_i a as' hi hg
      cases ha
      obtain ⟨v, h3, h4⟩ := getVar_sound h hi
      obtain ⟨vs, h1, h2⟩ := getArgs_sound h hg
      refine ⟨v :: vs, ?_, h4, h2⟩
      simp only [Mach.getArgs, h1, h3]; rfl
    · cases ha

/-! ### Sequences of nodes -/

theorem seqAdd_sound (h : Gam env m0 b0 rest A p m D xs) {a : AVal} {v : Option Ref}
    (ha : A.seqAdd a = some A') (hv : ValOk D m.prev a v) :
    ∃ m' D', m.seqAdd v = .ok m' ∧ Gam env m0 b0 rest A' p m' D' xs := by
  unfold Abs.seqAdd at ha
  split at ha
  · cases ha
  · rename_i b bs hbl
    split at ha
    · rename_i hc
      simp only [Bool.and_eq_true, Bool.not_eq_true', beq_iff_eq, decide_eq_true_eq] at hc
      obtain ⟨⟨hn, hl⟩, hs⟩ := hc
      cases ha
      cases v with
      | none => rw [show a.nul = true from hv] at hn; cases hn
      | some r =>
      have hst := h.blks
      rw [hbl] at hst
      obtain ⟨d, ds, q, qs, h1, h2, h3⟩ := hst.top
      subst h1
      rw [h2] at hst
      have hloc := hv.2
      rw [hl] at hloc
      obtain ⟨d', hd', ⟨⟨n, hn1, hn2⟩, hf⟩⟩ := hloc
      simp at hd'
      subst hd'
      have hb : BlkOk ⟨b.emp, b.sur - 1, b.seq.app (.single a.mask), b.hd || (a.fst && b.seq.isEmpty)⟩
          (d.1 ++ []) (d.2 ++ [r]) := by
        rw [List.append_nil]
        refine ⟨h3.emp, ?_, h3.seq.app (.single hv.1), ?_, ?_, h3.wt⟩
        · have := h3.sur
          simp only [List.length_append, List.length_singleton]; omega
        · simp only [Bool.or_eq_true, Bool.and_eq_true]
          rintro (hh | ⟨hh1, hh2⟩)
          · obtain ⟨n, r', k1, k2, k3⟩ := h3.hd hh
            exact ⟨n, r', k1, by rw [List.head?_append, k2]; rfl, k3⟩
          · obtain ⟨n, k1, k2⟩ := hf hh1
            exact ⟨n, r, k1, by rw [h3.seq.isEmpty hh2]; rfl, k2⟩
        · intro r' hr'
          rcases List.mem_append.1 hr' with hr' | hr'
          · exact h3.mem r' hr'
          · simp at hr'; subst hr'; exact ⟨n, hn1, hn2⟩
      have hup := hst.update hb
      rw [List.append_nil, List.append_nil] at hup
      refine ⟨{ m with blocks := { q with seq := q.seq ++ [r] } :: qs }, (d.1, d.2 ++ [r]) :: ds,
        by simp [Mach.seqAdd, h2], h.entry, h.clean, hup, h.vars.stay stays_seq, h.self.stay stays_seq,
        h.prev, h.stack, h.ops, ?_, h.pdif, ?_, h.fin, h.errs⟩
      · intro k hk y hy
        cases hy
        simp only [Option.map_eq_some_iff] at hk
        obtain ⟨j, hj, rfl⟩ := hk
        have := h.dif j hj _ rfl
        simp only [List.length_append, List.length_singleton]; omega
      · have := h.res.update (c := []) (s := d.2 ++ [r])
        rw [List.append_nil] at this
        exact this
    · cases ha

theorem seqAdds_sound : ∀ {is : List Nat} {A : Abs} {m : Mach} {D : List Delta},
    Gam env m0 b0 rest A p m D xs → A.seqAdds is = some A' →
    ∃ m' D', m.seqAdds is = .ok m' ∧ Gam env m0 b0 rest A' p m' D' xs
  | [], A, m, D, h, ha => by cases ha; exact ⟨m, D, rfl, h⟩
  | i :: is, A, m, D, h, ha => by
    simp only [Abs.seqAdds] at ha
    split at ha
    · rename_i a hi
      split at ha
      · rename_i B hB
        obtain ⟨v, h1, h2⟩ := getVar_sound h hi
        obtain ⟨m1, D1, h3, h4⟩ := seqAdd_sound h hB h2
        obtain ⟨m2, D2, h5, h6⟩ := seqAdds_sound h4 ha
        refine ⟨m2, D2, ?_, h6⟩
        simp only [Mach.seqAdds, h1, h3, bind, Except.bind]
        exact h5
      · cases ha
    · cases ha

/-! ### New nodes -/

theorem addNode_sound (h : Gam env m0 b0 rest A p m D xs) {ty : AstType} {a : AVal}
    (ha : A.addNode ty = some (A', a)) {n : Node} (hn : WellTyped n) (ht : n.ty = ty) :
    ∃ m' D', Mach.addChild { m with prev := none } n = .ok m' ∧ Gam env m0 b0 rest A' p m' D' xs ∧
      ValOk D' m'.prev a (some n.ref) := by
  unfold Abs.addNode at ha
  split at ha
  · cases ha
  · rename_i b bs hbl
    cases ha
    have hst := h.blks
    rw [hbl] at hst
    obtain ⟨d, ds, q, qs, h1, h2, h3⟩ := hst.top
    subst h1
    rw [h2] at hst
    have hb : BlkOk { b with emp := false, sur := b.sur + 1 } (d.1 ++ [n]) (d.2 ++ []) := by
      rw [List.append_nil]
      refine ⟨by simp, ?_, h3.seq, ?_, ?_, ?_⟩
      · have := h3.sur
        simp only [List.length_append, List.length_singleton]; omega
      · intro hh
        obtain ⟨k, r, k1, k2, k3⟩ := h3.hd hh
        exact ⟨k, r, by rw [List.head?_append, k1]; rfl, k2, k3⟩
      · intro r hr
        obtain ⟨k, k1, k2⟩ := h3.mem r hr
        exact ⟨k, by simp [k1], k2⟩
      · intro k hk
        rcases List.mem_append.1 hk with hk | hk
        · exact h3.wt k hk
        · simp at hk; subst hk; exact hn
    have hup := hst.update hb
    rw [List.append_nil, List.append_nil] at hup
    have hm : Moves onDrop (d :: ds) m.prev ((d.1 ++ [n], d.2) :: ds) none := moves_drop
    refine ⟨{ m with prev := none, blocks := { q with children := q.children ++ [n] } :: qs, next := m.next + 1 },
      (d.1 ++ [n], d.2) :: ds, by simp [Mach.addChild, h2], ⟨h.entry, h.clean, hup, h.vars.move hm,
      h.self.move hm, rfl, h.stack, h.ops, ?_, ?_, h.res.update, h.fin, h.errs⟩, ?_⟩
    · intro k hk y hy
      cases hy
      exact h.dif k hk d rfl
    · intro k hk; cases hk
    · refine ⟨?_, _, rfl, ⟨n, by simp, rfl⟩, fun hf => ?_⟩
      · have : n.ref.ty = ty := ht
        rw [← this]
        exact HasTy.bit n.id n.ref.ty
      · rw [h3.emp hf]; exact ⟨n, rfl, rfl⟩

theorem blockText_ok {b : Block} (h : TextOk p b) (hp : p ≤ env.buf.length) :
    ∃ t, Mach.blockText env b = .ok t := by
  refine ⟨env.buf.extract b.start b.stop, ?_⟩
  unfold Mach.blockText
  have : b.start ≤ b.stop ∧ b.stop ≤ env.buf.length := ⟨h.1, by have := h.2; omega⟩
  rw [if_pos this]

theorem terminal_typed (c : Ctor) (hc : c.terminal.isSome = true) (id : Nat) (text : List UInt8)
    (range : Range) : WellTyped (.mk id c [] [] [] text range []) := by
  have hw : c.wants = ([], .none) ∧ c.OpsFit [] [] ∧ c.checks.2.check [] [] = .pass := by
    cases c <;> first | exact ⟨rfl, rfl, rfl⟩ | cases hc
  refine .mk ?_ ?_ hw.2.1 (fun _ => rfl) hw.2.2 (by simp)
  · rw [hw.1]; trivial
  · rw [hw.1]; exact ⟨rfl, by simp⟩

theorem terminal_sound (hp : p ≤ env.buf.length) (h : Gam env m0 b0 rest A p m D xs) {c : Ctor} {k : Terminal}
    (hc : c.terminal = some k) {a : AVal} (ha : A.terminal md c = some (A', a)) :
    Safe md (Mach.terminal env c k m) fun x => ∃ D', Gam env m0 b0 rest A' p x.1 D' xs ∧
      ValOk D' x.1.prev a (some x.2) := by
  have key : ∃ b, m.prev = some b ∧ TextOk p b ∧ (b.children = [] ∨ md.lax = true) ∧
      A.addNode c.ty = some (A', a) := by
    unfold Abs.terminal at ha
    split at ha
    · rename_i hpv
      have := h.prev
      rw [hpv] at this
      obtain ⟨b, h1, h2, h3⟩ := this
      exact ⟨b, h1, h3, .inl h2, ha⟩
    · rename_i x hpv
      have := h.prev
      rw [hpv] at this
      obtain ⟨b, h1, h2, h3⟩ := this
      split at ha
      · rename_i hx
        rw [Bool.or_eq_true] at hx
        refine ⟨b, h1, h3, ?_, ha⟩
        rcases hx with hx | hx
        · exact .inl (h2.emp hx)
        · exact .inr hx
      · cases ha
    · cases ha
  obtain ⟨b, h1, h2, h3, h4⟩ := key
  have htext : ∃ t, Mach.terminalText env k m b = .ok t := by
    obtain ⟨t, ht⟩ := blockText_ok h2 hp
    cases k with
    | plain => exact ⟨_, rfl⟩
    | strbuf => exact ⟨_, rfl⟩
    | block => exact ⟨t, ht⟩
    | trimmed => exact ⟨Mach.trim t, by simp only [Mach.terminalText, ht]⟩
  obtain ⟨t, ht⟩ := htext
  unfold Mach.terminal
  simp only [h1, bind, Except.bind]
  rw [ht]
  simp only
  by_cases hch : b.children = []
  · obtain ⟨m', D', e1, e2, e3⟩ := addNode_sound h h4
      (terminal_typed c (by rw [hc]; rfl) m.next t ⟨b.rstart, b.rstop⟩) rfl
    simp only [hch, ne_eq, not_true, if_false]
    rw [e1]
    exact ⟨D', e2, e3⟩
  · simp only [ne_eq, hch, not_false_iff, if_true]
    rcases h3 with h3 | h3
    · exact absurd h3 hch
    · exact ⟨h3, rfl⟩

end acts
end Verif.Cypher
