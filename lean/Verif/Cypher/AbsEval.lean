import Verif.Cypher.AbsBuild
/-!
# The abstract machine describes the machine: rules and expressions

Whatever the input, the thunks recorded by a successful match run without failing, and lead to a state
described by the table of `AbsTable.lean`.
-/
namespace Verif.Cypher
open Verif.Peg

variable {σ : Type}

/-! ### Calls -/

def enterT (n : Nat) : List (Peg.Thunk Act) := if n = 0 then [] else [.push n]
def leaveT (n : Nat) : List (Peg.Thunk Act) := if n = 0 then [] else [.pop n]
def setT : Option Nat → List (Peg.Thunk Act)
  | none => []
  | some i => [.set i]

theorem leave_thunks {γ : Type} (n : Nat) (v : Option Nat) (s : St Act γ) :
    (s.leave n v).thunks = setT v ++ (leaveT n ++ s.thunks) := by
  unfold St.leave leaveT setT
  cases v <;> by_cases h : n = 0 <;> simp [h]

theorem enter_thunks {γ : Type} (n : Nat) (s : St Act γ) :
    (s.enter n).thunks = enterT n ++ s.thunks := by
  unfold St.enter enterT
  by_cases h : n = 0 <;> simp [h]

theorem VarsOk.none {D : List Delta} {P : Option Block} : ∀ n : Nat,
    VarsOk D P (List.replicate n none) (List.replicate n none)
  | 0 => trivial
  | n + 1 => ⟨trivial, VarsOk.none n⟩

section call
variable {env : Env} {m0 m : Mach} {b0 : Block} {rest : List Block} {A A' : Abs} {p q : Nat}
  {D : List Delta} {xs : List Op} {md : Mode}

theorem enter_sound {b : Block} {bs : List Block} (hb : m.blocks = b :: bs) (hc : Clean m.prev)
    (herr : ErrsOk env m.errs) (n : Nat) :
    ∃ m1, Mach.exec env (enterT n) m = .ok m1 ∧ G env m (.init n) p m1 := by
  have base : ∀ m1 : Mach, m1 = { m with frames := m1.frames } →
      FrameOk [([], [])] m.prev m.frames (List.replicate n none) m1.frames → G env m (.init n) p m1 := by
    intro m1 h1 h2
    rw [h1]
    refine ⟨b, bs, [([], [])], [], hb, hc, ⟨_, rfl, .fresh, ?_⟩, h2, rfl, .inl rfl, rfl, ?_, ?_, ?_, .inl rfl,
      by simp [Abs.init], herr⟩
    · simp [hb]
    · intro k hk; cases hk; rfl
    · intro k hk y hy; cases hk; cases hy; rfl
    · intro k hk; cases hk
  by_cases hn : n = 0
  · subst hn
    exact ⟨m, rfl, base m rfl (.inl ⟨rfl, rfl⟩)⟩
  · refine ⟨{ m with frames := List.replicate n none :: m.frames }, by simp [enterT, hn, Mach.exec, Mach.step, bind, Except.bind], ?_⟩
    exact base _ rfl (.inr ⟨by simpa using hn, _, rfl, VarsOk.none n⟩)

theorem callSelf_ok {m2 : Mach} {d d' : Delta} {ds : List Delta} {P : Option Block} {self : ASelf}
    {a : ABlk} {s : Sum} {v0 : Option Ref} {P' : Option Block} {s' : List Ref}
    (hb : BlkOk a d.1 d.2) (h : SelfOk (d :: ds) P v0 self m.self)
    (h' : SelfOk [d'] P' m.self s.self m2.self) :
    SelfOk ((d.1 ++ d'.1, s') :: ds) P' v0 (callSelf (self.reloc onDrop) a.emp s.self) m2.self := by
  cases hs : s.self with
  | keep =>
    rw [hs] at h'
    have h' : m2.self = m.self := h'
    rw [h']
    exact h.move moves_drop
  | unk => trivial
  | val x =>
    rw [hs] at h'
    have h' : ValOk [d'] P' x m2.self := h'
    revert h'
    cases m2.self with
    | none =>
      intro h'
      simp only [callSelf, SelfOk, ValOk]
      split <;> exact h'
    | some r =>
      intro h'
      simp only [callSelf, SelfOk]
      split
      · rename_i hl
        refine ⟨h'.1, ?_⟩
        have hloc := h'.2
        rw [hl] at hloc
        obtain ⟨y, hy, ⟨n, hn1, hn2⟩, hf⟩ := hloc
        simp at hy
        subst hy
        simp only [hl]
        refine ⟨_, rfl, ⟨n, by simp [hn1], hn2⟩, ?_⟩
        intro hx
        simp only [Bool.and_eq_true] at hx
        obtain ⟨k, hk1, hk2⟩ := hf hx.1
        exact ⟨k, by rw [hb.emp hx.2]; exact hk1, hk2⟩
      · exact ⟨h'.1, trivial⟩

theorem callPrev_ok {P0 P P' : Option Block} {a a' : APrev} (h : PrevOk p P0 a P) (hc0 : Clean P0)
    (ha : a.isClean = true) (h' : PrevOk q P a' P') (ha' : a'.isClean = true) :
    PrevOk q P0 (callPrev a a') P' := by
  have hc := APrev.isClean_ok h hc0 ha
  have hc' := APrev.isClean_ok h' hc ha'
  cases a' with
  | no => exact h'
  | keep =>
    cases a with
    | no =>
      have h : P = none := h
      subst h
      exact h'.elim id id
    | keep =>
      rcases h' with h' | h'
      · rw [h']; exact h
      · exact .inr h'
    | clean => exact hc'
    | txt => exact hc'
    | blk _ => exact hc'
  | clean => exact hc'
  | txt => exact hc'
  | blk _ => exact hc'

theorem call_sound (hpq : p ≤ q) (h : Gam env m0 b0 rest A p m D xs) {s : Sum} (ha : A.call s = some A') {n : Nat}
    {ts : List (Peg.Thunk Act)}
    (hts : ∀ m1, G env m (.init n) p m1 → Safe md (Mach.exec env ts m1) (G env m (s.toAbs n) q)) :
    Safe md (Mach.exec env (leaveT n ++ (ts ++ enterT n)) m) (G env m0 A' q) := by
  unfold Abs.call at ha
  split at ha
  · cases ha
  · rename_i a as hbl
    split at ha
    · rename_i hcond
      simp only [Bool.and_eq_true, Bool.or_eq_true, beq_iff_eq] at hcond
      obtain ⟨⟨hc1, hc2⟩, hc3⟩ := hcond
      have ha := Option.some.inj ha
      have hst := h.blks
      rw [hbl] at hst
      obtain ⟨d, ds, b, bs, hD, hB, hbo⟩ := hst.top
      subst hD
      have hcl := APrev.isClean_ok h.prev h.clean hc1
      obtain ⟨m1, e1, e2⟩ := enter_sound (p := p) hB hcl h.errs n
      rw [exec_append, exec_append, e1]
      refine (hts m1 e2).bind fun m2 h2 => ?_
      obtain ⟨b', bs', D', xs', h2⟩ := h2
      have hent := h2.entry
      rw [hB] at hent
      cases hent
      obtain ⟨d', hd', hbo', hbl'⟩ := h2.blks
      subst hd'
      have hup := (hB ▸ hst).update (hbo.append hbo')
      -- the state after the frame is gone
      have main : G env m0 A' q { m2 with frames := m.frames } := by
        rw [← ha]
        refine ⟨b0, rest, (d.1 ++ d'.1, d.2 ++ d'.2) :: ds, xs' ++ xs, h.entry, h.clean, ?_,
          (h.vars.move (moves_drop (c := d'.1) (s := d.2 ++ d'.2) (P' := m2.prev))), ?_, ?_, ?_, ?_, ?_, ?_, ?_,
          h2.fin, h2.errs⟩
        · show Stk _ _ _ _ _ _ m2.blocks
          rw [hbl']
          exact hup.later hpq
        · exact callSelf_ok (m := m) hbo h.self h2.self
        · exact callPrev_ok h.prev h.clean hc1 h2.prev hc3
        · simp [h2.stack, h.stack]
        · intro k hk
          simp only at hk
          split at hk
          · rename_i i j hi hj
            cases hk
            have := h.ops i hi
            have := h2.ops j hj
            rw [List.length_append]; omega
          · cases hk
        · intro k hk y hy
          cases hy
          simp only [callDif] at hk
          split at hk
          · rename_i i j hi hj
            split at hk
            · rename_i hcd
              simp only [Bool.and_eq_true, decide_eq_true_eq] at hcd
              cases hk
              have := h.dif i hi _ rfl
              have := h2.ops j hj
              have he : d'.2 = [] := hbo'.seq.isEmpty hcd.1
              simp only [List.length_append, he, List.length_nil]; omega
            · cases hk
          · cases hk
        · intro k hk; cases hk
        · have hr2 := h2.res
          rcases hr2 with hr2 | hr2 | ⟨r, x, k1, k2, k3, k4⟩
          · have := (h.res.update (c := d'.1) (s := d.2 ++ d'.2)).mono
              (m' := A.res ||| s.res) (fun _ hx => hx.orl)
            rw [← hr2] at this
            exact this
          · exact .inr (.inl hr2)
          · simp at k3
            subst k3
            obtain ⟨k, k5, k6⟩ := k4
            rcases hc2 with hc2 | hc2
            · have : HasTy s.res r := k2
              rw [hc2] at this
              exact this.zero.elim
            · subst hc2
              have hds : ds = [] := by
                obtain ⟨_, e, _⟩ := hst
                cases e; rfl
              subst hds
              exact .inr (.inr ⟨r, _, k1, k2.orr, rfl, k, by simp [k5], k6⟩)
      rcases h2.vars with ⟨v1, v2⟩ | ⟨v1, fr, v2, _⟩
      · have hn : n = 0 := by simpa [Sum.toAbs] using v1
        subst hn
        have : m2 = { m2 with frames := m.frames } := by rw [← v2]
        show G env m0 A' q m2
        rw [this]
        exact main
      · have hn : n ≠ 0 := by simpa [Sum.toAbs] using v1
        have : Mach.exec env (leaveT n) m2 = .ok { m2 with frames := m.frames } := by
          simp [leaveT, hn, Mach.exec, Mach.step, bind, Except.bind, v2]
        rw [this]
        exact main
    · cases ha

theorem setSelf_sound {v : Option Nat} (h : G env m0 A p m) (ha : A.setSelf v = some A') :
    Safe md (Mach.exec env (setT v) m) (G env m0 A' p) := by
  cases v with
  | none => cases ha; exact h
  | some i =>
    obtain ⟨b0, rest, D, xs, h⟩ := h
    have hv : VarOk D m.prev (match A.self with
        | .val a => some a
        | _ => none) (some m.self) := by
      have := h.self
      split
      · rename_i a hs
        rw [hs] at this
        exact ⟨m.self, rfl, this⟩
      · trivial
    obtain ⟨m', h1, h2⟩ := setVar_sound h ha hv
    have : Mach.exec env (setT (some i)) m = .ok m' := h1
    rw [this]
    exact ⟨b0, rest, D, xs, h2⟩

end call

/-! ### Iteration and choice -/

/-- One description implies another. -/
def Imp (A B : Abs) : Prop := ∀ env m0 p m, G env m0 A p m → G env m0 B p m

theorem starLoop_fix {f : Abs → Option (Option Abs)} : ∀ (n : Nat) {A : Abs} {o : Option Abs},
    starLoop f n A = some o → ∃ J, o = some J ∧ Imp A J ∧ (∀ k, starLoop f (k + 1) J = some (some J)) ∧
      (f J = some none ∨ ∃ B, f J = some (some B) ∧ Imp B J)
  | 0, _, _, h => by cases h
  | n + 1, A, o, h => by
    simp only [starLoop] at h
    split at h
    · cases h
    · rename_i hf
      cases h
      exact ⟨A, rfl, fun _ _ _ _ h => h, fun k => by simp only [starLoop, hf], .inl hf⟩
    · rename_i B hf
      split at h
      · cases h
      · rename_i J hj
        obtain ⟨l1, l2⟩ := join_left hj
        split at h
        · rename_i he
          cases h
          subst he
          exact ⟨J, rfl, fun _ _ _ _ h => h, fun k => by simp only [starLoop, hf, hj, if_true],
            .inr ⟨B, hf, fun _ _ _ _ h => h.le l2⟩⟩
        · obtain ⟨K, h1, h2, h3⟩ := starLoop_fix n h
          exact ⟨K, h1, fun env m0 p m h => h2 _ _ _ _ (h.le l1), h3⟩

theorem altJoin_left {x : Option Abs} {y : Option (Option Abs)} {A : Abs} {o : Option Abs}
    (h : altJoin (some x) y = some o) (hx : x = some A) : ∃ J, o = some J ∧ Imp A J := by
  subst hx
  cases y with
  | none => cases h
  | some y =>
    cases y with
    | none => cases h; exact ⟨A, rfl, fun _ _ _ _ h => h⟩
    | some B =>
      simp only [altJoin, Option.map_eq_some_iff] at h
      obtain ⟨J, hj, rfl⟩ := h
      exact ⟨J, rfl, fun _ _ _ _ h => h.le (join_left hj).1⟩

theorem altJoin_right {x : Option (Option Abs)} {y : Option Abs} {B : Abs} {o : Option Abs}
    (h : altJoin x (some y) = some o) (hy : y = some B) : ∃ J, o = some J ∧ Imp B J := by
  subst hy
  cases x with
  | none => cases h
  | some x =>
    cases x with
    | none => cases h; exact ⟨B, rfl, fun _ _ _ _ h => h⟩
    | some A =>
      simp only [altJoin, Option.map_eq_some_iff] at h
      obtain ⟨J, hj, rfl⟩ := h
      exact ⟨J, rfl, fun _ _ _ _ h => h.le (join_left hj).2⟩

theorem altJoin_some {x y : Option (Option Abs)} {o : Option Abs} (h : altJoin x y = some o) :
    (∃ x', x = some x') ∧ ∃ y', y = some y' := by
  cases x with
  | none => cases h
  | some x => cases y with
    | none => cases x <;> cases h
    | some y => exact ⟨⟨x, rfl⟩, y, rfl⟩

/-! ### Predicates -/

theorem pred_thunks {S : Source σ} {x : Pred} {p : Nat} {g g' : Reader σ × CState} {b : Bool}
    {ts : List (Peg.Thunk Act)} (h : (chost S).pred x p g = .ok (b, g', ts)) :
    ts = match x.act with
      | some a => [.act a p]
      | none => [] := by
  have h := (chost_pred h).1
  cases x <;> simp only [cpred] at h <;> (repeat' split at h) <;>
    simp only [Except.ok.injEq, Prod.mk.injEq, reduceCtorEq] at h <;> exact h.2.2.symm

theorem inlined_body {r : Rule} {a : Act} (h : inlined r = some a) :
    (grammar r).nvars = 0 ∧ ∃ x, (grammar r).body = .pred x ∧ x.act = some a := by
  cases r <;> first
    | (cases h; done)
    | (cases h; exact ⟨rfl, _, rfl, rfl⟩)

/-! ### Soundness -/

/-- From `A` the thunks lead to `A'`. -/
def Runs (md : Mode) (A A' : Abs) (p q : Nat) (ts : List (Peg.Thunk Act)) : Prop :=
  ∀ env m0 m, EnvOk env → q ≤ env.buf.length → G env m0 A p m →
    Safe md (Mach.exec env ts m) (G env m0 A' q)

theorem Runs.trans {md : Mode} {A B C : Abs} {p q r : Nat} {ts us : List (Peg.Thunk Act)}
    (h1 : Runs md A B p q ts) (h2 : Runs md B C q r us) (hqr : q ≤ r) : Runs md A C p r (us ++ ts) := by
  intro env m0 m he hr hg
  rw [exec_append]
  exact (h1 env m0 m he (by omega) hg).bind fun m' h' => h2 env m0 m' he hr h'

theorem Runs.imp {md : Mode} {A B C : Abs} {p q : Nat} {ts : List (Peg.Thunk Act)}
    (h : Runs md A B p q ts) (hi : Imp B C) : Runs md A C p q ts :=
  fun env m0 m he hr hg => (h env m0 m he hr hg).imp fun _ h => hi _ _ _ _ h

theorem Runs.nil {md : Mode} {A : Abs} {p q : Nat} (hpq : p ≤ q) : Runs md A A p q [] :=
  fun _ _ _ _ _ hg => hg.later hpq

theorem Runs.act {md : Mode} {A A' : Abs} {a : Act} (h : A.act md a = some A') (p : Nat) :
    Runs md A A' p p [.act a p] := by
  intro env m0 m he hp hg
  obtain ⟨b0, rest, D, xs, hg⟩ := hg
  exact act_sound he hp hg h

/-- The thunks of a successful match. -/
def Recorded (md : Mode) (T : Rule → Option Sum) (e : E) (s s' : St Act (Reader σ × CState)) : Prop :=
  ∀ A oA, tr md T e A = some oA → ∃ A', oA = some A' ∧
    ∃ ts, s'.thunks = ts ++ s.thunks ∧ Runs md A A' s.pos s'.pos ts

theorem tr_sound {S : Source σ} {w : List UInt8} {I : Nat → Reader σ × CState → Prop}
    (hr : ReadsAs (chost S) w I) {md : Mode} {T : Rule → Option Sum} (hT : ∀ r, sumOk md T r = true)
    (hdead : ∀ l ∈ md.dead, ∀ p, w.extract p (p + l.length) ≠ l) {e : E}
    {s : St Act (Reader σ × CState)} {res : Res Act (Reader σ × CState)}
    (h : Eval grammar (chost S) e s res) : I s.pos s.g → ∀ s', res = .ok s' → Recorded md T e s s' := by
  induction h with
  | eps =>
    intro hi s' hs A oA hA
    cases hs; cases hA
    exact ⟨A, rfl, [], rfl, .nil (Nat.le_refl _)⟩
  | one_end => intro _ _ hs; cases hs
  | one_no => intro _ _ hs; cases hs
  | one_ok =>
    intro hi s' hs A oA hA
    cases hs; cases hA
    exact ⟨A, rfl, [], rfl, .nil (Nat.le_succ _)⟩
  | @str_ok l s p g' hm =>
    intro hi s' hs A oA hA
    cases hs
    obtain ⟨-, h2, -⟩ := matchStr_inv hr l s.pos s.g (Nat.le_refl _) hi hm
    obtain ⟨h2, h3⟩ := h2 rfl
    simp only [tr] at hA
    split at hA
    · rename_i hd
      exact absurd h3 (hdead l hd _)
    · cases hA
      exact ⟨A, rfl, [], rfl, .nil (by simp only; omega)⟩
  | str_no => intro _ _ hs; cases hs
  | @nt_ok r var s s1 hb ih =>
    intro hi s' hs A oA hA
    cases hs
    have hgood := hb.good hr (by simpa using hi)
    simp only [Res.Good, St.enter_pos] at hgood
    simp only [tr] at hA
    cases hin : inlined r with
    | some a =>
      simp only [hin, Option.map_eq_some_iff, Option.bind_eq_some_iff] at hA
      obtain ⟨A2, ⟨A1, h1, h2⟩, rfl⟩ := hA
      obtain ⟨hn, x, hx, hxa⟩ := inlined_body hin
      rw [hx] at hb
      cases hb with
      | pred_ok hp =>
        have hts := pred_thunks hp
        rw [hxa] at hts
        simp only at hts
        subst hts
        refine ⟨A2, rfl, setT var ++ [.act a s.pos], ?_, ?_⟩
        · rw [leave_thunks, hn]
          simp only [leaveT, enter_thunks, enterT, if_true, List.nil_append, St.enter_pos, List.append_assoc]
        · simp only [St.leave_pos, St.enter_pos]
          exact (Runs.act h1 s.pos).trans (fun env m0 m he hp hg => setSelf_sound hg h2) (Nat.le_refl _)
    | none =>
      simp only [hin] at hA
      have hok := hT r
      simp only [sumOk, hin, Option.isSome_none, Bool.false_or] at hok
      cases hTr : T r with
      | none =>
        exfalso
        rw [hTr] at hok
        split at hok
        · rename_i htr _
          obtain ⟨A', he, _⟩ := ih (by simpa using hi) s1 rfl _ _ htr
          cases he
        · rename_i htr hs; cases hs
        · cases hok
      | some sm =>
        simp only [hTr, Option.map_eq_some_iff, Option.bind_eq_some_iff] at hA
        obtain ⟨A2, ⟨A1, h1, h2⟩, rfl⟩ := hA
        rw [hTr] at hok
        split at hok
        · rename_i hs; cases hs
        · rename_i B sm' htr hs
          cases hs
          obtain ⟨B', he, ts, hts, hruns⟩ := ih (by simpa using hi) s1 rfl _ _ htr
          cases he
          rw [enter_thunks] at hts
          refine ⟨A2, rfl, setT var ++ (leaveT (grammar r).nvars ++ (ts ++ enterT (grammar r).nvars)), ?_, ?_⟩
          · rw [leave_thunks, hts]
            simp only [List.append_assoc]
          · simp only [St.leave_pos]
            have hcall : Runs md A A1 s.pos s1.pos
                (leaveT (grammar r).nvars ++ (ts ++ enterT (grammar r).nvars)) := by
              intro env m0 m he hq hg
              obtain ⟨b0, rest, D, xs, hg⟩ := hg
              refine call_sound hgood.1 hg h1 fun m1 hm1 => ?_
              have := hruns env m m1 he hq (by simpa using hm1)
              exact this.imp fun _ h => h.le hok
            exact hcall.trans (fun env m0 m he hp hg => setSelf_sound hg h2) (Nat.le_refl _)
        · cases hok
  | nt_no => intro _ _ hs; cases hs
  | nt_fault => intro _ _ hs; cases hs
  | @seq_ok a b s s1 r ha hb iha ihb =>
    intro hi s' hs A oA hA
    subst hs
    have g1 := ha.good hr hi
    have g2 := hb.good hr g1.2
    simp only [tr] at hA
    cases ht : tr md T a A with
    | none => rw [ht] at hA; cases hA
    | some o =>
      obtain ⟨B, rfl, ts, h1, h2⟩ := iha hi s1 rfl A o ht
      rw [ht] at hA
      obtain ⟨C, rfl, us, h3, h4⟩ := ihb g1.2 s' rfl B oA hA
      exact ⟨C, rfl, us ++ ts, by rw [h3, h1, List.append_assoc], h2.trans h4 g2.1⟩
  | seq_no => intro _ _ hs; cases hs
  | seq_fault => intro _ _ hs; cases hs
  | @alt_ok a b s s1 ha iha =>
    intro hi s' hs A oA hA
    cases hs
    simp only [tr] at hA
    obtain ⟨⟨x, hx⟩, y, hy⟩ := altJoin_some hA
    obtain ⟨B, rfl, ts, h1, h2⟩ := iha hi s1 rfl A x hx
    rw [hx] at hA
    obtain ⟨J, rfl, h3⟩ := altJoin_left hA rfl
    exact ⟨J, rfl, ts, h1, h2.imp h3⟩
  | @alt_no a b s s1 r ha hb iha ihb =>
    intro hi s' hs A oA hA
    have g1 := ha.good hr hi
    simp only [tr] at hA
    obtain ⟨⟨x, hx⟩, y, hy⟩ := altJoin_some hA
    obtain ⟨B, rfl, ts, h1, h2⟩ := ihb (hr.down g1.2 g1.1) s' hs A y hy
    rw [hy] at hA
    obtain ⟨J, rfl, h3⟩ := altJoin_right hA rfl
    exact ⟨J, rfl, ts, h1, h2.imp h3⟩
  | alt_fault => intro _ _ hs; cases hs
  | @star_more a s s1 r ha hb iha ihb =>
    intro hi s' hs A oA hA
    subst hs
    have g1 := ha.good hr hi
    have g2 := hb.good hr g1.2
    simp only [tr] at hA
    obtain ⟨J, rfl, h1, h2, h3⟩ := starLoop_fix 6 hA
    rcases h3 with h3 | ⟨B, h3, h4⟩
    · obtain ⟨B, hB, _⟩ := iha hi s1 rfl J _ h3
      cases hB
    · obtain ⟨B', hB, ts, h5, h6⟩ := iha hi s1 rfl J _ h3
      cases hB
      obtain ⟨J', hJ, us, h7, h8⟩ := ihb g1.2 s' rfl J (some J) (h2 5)
      cases hJ
      refine ⟨J, rfl, us ++ ts, by rw [h7, h5, List.append_assoc], ?_⟩
      exact fun env m0 m he hp hg => ((h6.imp h4).trans h8 g2.1) env m0 m he hp (h1 _ _ _ _ hg)
  | @star_end a s s1 ha iha =>
    intro hi s' hs A oA hA
    cases hs
    simp only [tr] at hA
    obtain ⟨J, rfl, h1, -⟩ := starLoop_fix 6 hA
    exact ⟨J, rfl, [], rfl, fun env m0 m _ _ hg => h1 _ _ _ _ hg⟩
  | star_fault => intro _ _ hs; cases hs
  | peek_ok =>
    intro hi s' hs A oA hA
    cases hs; cases hA
    exact ⟨A, rfl, [], rfl, .nil (Nat.le_refl _)⟩
  | peek_no => intro _ _ hs; cases hs
  | peek_fault => intro _ _ hs; cases hs
  | npeek_ok => intro _ _ hs; cases hs
  | npeek_no =>
    intro hi s' hs A oA hA
    cases hs; cases hA
    exact ⟨A, rfl, [], rfl, .nil (Nat.le_refl _)⟩
  | npeek_fault => intro _ _ hs; cases hs
  | @pred_ok x s g' ts hp =>
    intro hi s' hs A oA hA
    cases hs
    have hts := pred_thunks hp
    simp only [tr] at hA
    cases hx : x.act with
    | none =>
      rw [hx] at hA hts
      cases hA
      simp only at hts
      subst hts
      exact ⟨A, rfl, [], rfl, .nil (Nat.le_refl _)⟩
    | some a =>
      rw [hx] at hA hts
      simp only [Option.map_eq_some_iff] at hA
      obtain ⟨A1, h1, rfl⟩ := hA
      simp only at hts
      subst hts
      exact ⟨A1, rfl, [.act a s.pos], rfl, .act h1 s.pos⟩
  | pred_no => intro _ _ hs; cases hs
  | pred_fault => intro _ _ hs; cases hs
  | @act a s =>
    intro hi s' hs A oA hA
    cases hs
    simp only [tr, Option.map_eq_some_iff] at hA
    obtain ⟨A1, h1, rfl⟩ := hA
    exact ⟨A1, rfl, [.act a s.pos], rfl, .act h1 s.pos⟩
  | onfail_ok ha iha =>
    intro hi s' hs A oA hA
    simp only [tr] at hA
    exact iha hi s' hs A oA hA
  | onfail_no => intro _ _ hs; cases hs
  | onfail_no_fault => intro _ _ hs; cases hs
  | onfail_fault => intro _ _ hs; cases hs

end Verif.Cypher
