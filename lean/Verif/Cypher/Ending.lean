import Verif.Cypher.Match
import Verif.Cypher.AbsEval
/-!
# How a segment ends

Static analyses of the grammar: the order of the recorded thunks; where the end of the input is
noticed; which byte is matched last; and what cannot happen when nothing is left to read.
-/
namespace Verif.Cypher
open Verif.Peg

variable {σ : Type}

/-! ## Positions of thunks -/

/-- The positions of the actions (latest first) lie between `lo` and `hi` and do not decrease in the
order in which they were recorded. -/
def Mono (lo : Nat) : Nat → List (Peg.Thunk Act) → Prop
  | hi, [] => lo ≤ hi
  | hi, .act _ p :: ts => p ≤ hi ∧ Mono lo p ts
  | hi, _ :: ts => Mono lo hi ts

theorem Mono.later {lo hi hi' : Nat} (h : hi ≤ hi') : ∀ {ts : List (Peg.Thunk Act)}, Mono lo hi ts →
    Mono lo hi' ts
  | [], hm => Nat.le_trans hm h
  | .act _ _ :: _, hm => ⟨Nat.le_trans hm.1 h, hm.2⟩
  | .push _ :: ts, hm => Mono.later (ts := ts) h hm
  | .pop _ :: ts, hm => Mono.later (ts := ts) h hm
  | .set _ :: ts, hm => Mono.later (ts := ts) h hm

theorem Mono.le {lo : Nat} : ∀ {ts : List (Peg.Thunk Act)} {hi : Nat}, Mono lo hi ts → lo ≤ hi
  | [], _, hm => hm
  | .act _ _ :: ts, _, hm => Nat.le_trans (Mono.le (ts := ts) hm.2) hm.1
  | .push _ :: ts, _, hm => Mono.le (ts := ts) hm
  | .pop _ :: ts, _, hm => Mono.le (ts := ts) hm
  | .set _ :: ts, _, hm => Mono.le (ts := ts) hm

theorem Mono.append {lo mid : Nat} {ts : List (Peg.Thunk Act)} (h : Mono lo mid ts) :
    ∀ {us : List (Peg.Thunk Act)} {hi : Nat}, Mono mid hi us → Mono lo hi (us ++ ts)
  | [], _, hm => h.later hm
  | .act _ _ :: us, _, hm => ⟨hm.1, Mono.append (us := us) h hm.2⟩
  | .push _ :: us, _, hm => Mono.append (us := us) h hm
  | .pop _ :: us, _, hm => Mono.append (us := us) h hm
  | .set _ :: us, _, hm => Mono.append (us := us) h hm

theorem Mono.mem {lo : Nat} {a : Act} {p : Nat} : ∀ {ts : List (Peg.Thunk Act)} {hi : Nat},
    Mono lo hi ts → .act a p ∈ ts → lo ≤ p ∧ p ≤ hi
  | .act b q :: ts, hi, hm, hmem => by
    rcases List.mem_cons.1 hmem with h | h
    · cases h; exact ⟨Mono.le hm.2, hm.1⟩
    · have := Mono.mem (ts := ts) hm.2 h
      exact ⟨this.1, Nat.le_trans this.2 hm.1⟩
  | .push _ :: ts, _, hm, hmem => by
    rcases List.mem_cons.1 hmem with h | h
    · cases h
    · exact Mono.mem (ts := ts) hm h
  | .pop _ :: ts, _, hm, hmem => by
    rcases List.mem_cons.1 hmem with h | h
    · cases h
    · exact Mono.mem (ts := ts) hm h
  | .set _ :: ts, _, hm, hmem => by
    rcases List.mem_cons.1 hmem with h | h
    · cases h
    · exact Mono.mem (ts := ts) hm h

/-- What a successful match recorded: `ts`, on top of what was there. -/
theorem thunks_mono {S : Source σ} {w : List UInt8} {I : Nat → Reader σ × CState → Prop}
    (hr : ReadsAs (chost S) w I) {e : E} {s : St Act (Reader σ × CState)}
    {res : Res Act (Reader σ × CState)} (h : Eval grammar (chost S) e s res) :
    I s.pos s.g → ∀ s', res = .ok s' → ∃ ts, s'.thunks = ts ++ s.thunks ∧ Mono s.pos s'.pos ts := by
  have enterM : ∀ n p, Mono p p (enterT n) := by
    intro n p; unfold enterT; split <;> exact Nat.le_refl _
  have leaveM : ∀ n p, Mono p p (leaveT n) := by
    intro n p; unfold leaveT; split <;> exact Nat.le_refl _
  have setM : ∀ v p, Mono p p (setT v) := by
    intro v p; cases v <;> exact Nat.le_refl _
  induction h with
  | eps => rintro _ s' ⟨⟩; exact ⟨[], rfl, Nat.le_refl _⟩
  | one_ok => rintro _ s' ⟨⟩; exact ⟨[], rfl, Nat.le_succ _⟩
  | @str_ok l s p g' hm =>
    rintro hi s' ⟨⟩
    obtain ⟨-, h2, -⟩ := matchStr_inv hr l s.pos s.g (Nat.le_refl _) hi hm
    exact ⟨[], rfl, by show s.pos ≤ p; rw [(h2 rfl).1]; omega⟩
  | @nt_ok r var s s1 _ ih =>
    rintro hi s' ⟨⟩
    obtain ⟨ts, h1, h2⟩ := ih (by simpa using hi) s1 rfl
    rw [enter_thunks] at h1
    rw [St.enter_pos] at h2
    refine ⟨setT var ++ (leaveT (grammar r).nvars ++ (ts ++ enterT (grammar r).nvars)), ?_, ?_⟩
    · rw [leave_thunks, h1]; simp
    · rw [St.leave_pos]
      exact (((enterM _ _).append h2).append (leaveM _ _)).append (setM _ _)
  | @seq_ok a b s s1 r h0 _ ih1 ih2 =>
    intro hi s' hs'
    have hg := h0.good hr hi
    obtain ⟨ts, h1, h2⟩ := ih1 hi s1 rfl
    obtain ⟨us, h3, h4⟩ := ih2 hg.2 s' hs'
    exact ⟨us ++ ts, by rw [h3, h1, List.append_assoc], h2.append h4⟩
  | alt_ok _ ih => exact ih
  | alt_no h0 _ _ ih2 =>
    intro hi
    have hg := h0.good hr hi
    exact ih2 (hr.down hg.2 hg.1)
  | @star_more a s s1 r h0 _ ih1 ih2 =>
    intro hi s' hs'
    have hg := h0.good hr hi
    obtain ⟨ts, h1, h2⟩ := ih1 hi s1 rfl
    obtain ⟨us, h3, h4⟩ := ih2 hg.2 s' hs'
    exact ⟨us ++ ts, by rw [h3, h1, List.append_assoc], h2.append h4⟩
  | star_end => rintro _ s' ⟨⟩; exact ⟨[], rfl, Nat.le_refl _⟩
  | peek_ok => rintro _ s' ⟨⟩; exact ⟨[], rfl, Nat.le_refl _⟩
  | npeek_no => rintro _ s' ⟨⟩; exact ⟨[], rfl, Nat.le_refl _⟩
  | @pred_ok x s g' ts hp =>
    rintro _ s' ⟨⟩
    refine ⟨ts, rfl, ?_⟩
    rw [pred_thunks hp]
    split
    · exact ⟨Nat.le_refl _, Nat.le_refl s.pos⟩
    · exact Nat.le_refl _
  | act => rintro _ s' ⟨⟩; exact ⟨[_], rfl, Nat.le_refl _, Nat.le_refl _⟩
  | onfail_ok _ ih => exact ih
  | _ => intro _ s' hs'; cases hs'

/-! ## The end of the input -/

/-- No `eof` action outside of rules. -/
def noEof : E → Bool
  | .act a => a != .eof
  | .seq a b => noEof a && noEof b
  | .alt a b => noEof a && noEof b
  | .star a => noEof a
  | .peek a => noEof a
  | .npeek a => noEof a
  | .onfail a _ => noEof a
  | _ => true

theorem noEof_all : ∀ r, r ≠ .r_EOF → noEof (grammar r).body = true := by
  have h : ∀ r ∈ Rule.all, r ≠ .r_EOF → noEof (grammar r).body = true := by decide +kernel
  exact fun r => h r (Rule.mem_all r)

theorem EOF_ok {S : Source σ} {w : List UInt8} {I : Nat → Reader σ × CState → Prop}
    (hr : ReadsAs (chost S) w I) {s s' : St Act (Reader σ × CState)}
    (h : Eval grammar (chost S) (grammar .r_EOF).body s (.ok s')) (hi : I s.pos s.g) :
    s.pos = w.length ∧ s'.pos = s.pos ∧ s'.thunks = .act .eof s.pos :: s.thunks := by
  change Eval grammar (chost S) r_EOF s (.ok s') at h
  unfold r_EOF at h
  cases h with
  | seq_ok h1 h2 =>
  cases h1 with
  | npeek_no h1 =>
  cases h2 with
  | act =>
  refine ⟨?_, rfl, rfl⟩
  unfold Expr.dot at h1
  cases h1 with
  | one_end hp =>
    have hv := hr.val hi
    rw [hp] at hv
    have := hr.bound hi
    by_contra hne
    rw [List.getElem?_eq_getElem (by omega)] at hv
    simp at hv
  | one_no hp hm => rw [any_mem] at hm; cases hm

/-- The end of the input is noticed only there. -/
theorem eof_at_end {S : Source σ} {w : List UInt8} {I : Nat → Reader σ × CState → Prop}
    (hr : ReadsAs (chost S) w I) {e : E} {s : St Act (Reader σ × CState)}
    {res : Res Act (Reader σ × CState)} (h : Eval grammar (chost S) e s res) :
    noEof e = true → I s.pos s.g → ∀ s', res = .ok s' →
      ∀ p, .act .eof p ∈ s'.thunks → .act .eof p ∈ s.thunks ∨ p = w.length := by
  induction h with
  | eps => rintro _ _ s' ⟨⟩ p hp; exact .inl hp
  | one_ok => rintro _ _ s' ⟨⟩ p hp; exact .inl hp
  | str_ok => rintro _ _ s' ⟨⟩ p hp; exact .inl hp
  | @nt_ok r var s s1 h0 ih =>
    rintro _ hi s' ⟨⟩ p hp
    rw [leave_thunks] at hp
    have hp' : .act .eof p ∈ s1.thunks := by
      rcases List.mem_append.1 hp with h | h
      · cases var <;> simp [setT] at h
      rcases List.mem_append.1 h with h | h
      · unfold leaveT at h; split at h <;> simp at h
      · exact h
    by_cases hr' : r = .r_EOF
    · subst hr'
      obtain ⟨h1, -, h3⟩ := EOF_ok hr h0 (by simpa using hi)
      rw [h3, St.enter_pos] at hp'
      rw [St.enter_pos] at h1
      rcases List.mem_cons.1 hp' with h | h
      · right; cases h; exact h1
      · left; exact h
    · rcases ih (noEof_all r hr') (by simpa using hi) s1 rfl p hp' with h | h
      · left
        rw [enter_thunks] at h
        rcases List.mem_append.1 h with h | h
        · unfold enterT at h; split at h <;> simp at h
        · exact h
      · exact .inr h
  | @seq_ok a b s s1 r h0 _ ih1 ih2 =>
    intro hn hi s' hs' p hp
    simp only [noEof, Bool.and_eq_true] at hn
    have hg := h0.good hr hi
    rcases ih2 hn.2 hg.2 s' hs' p hp with h | h
    · exact ih1 hn.1 hi s1 rfl p h
    · exact .inr h
  | alt_ok _ ih =>
    intro hn
    simp only [noEof, Bool.and_eq_true] at hn
    exact ih hn.1
  | alt_no h0 _ _ ih2 =>
    intro hn hi
    simp only [noEof, Bool.and_eq_true] at hn
    have hg := h0.good hr hi
    exact ih2 hn.2 (hr.down hg.2 hg.1)
  | @star_more a s s1 r h0 _ ih1 ih2 =>
    intro hn hi s' hs' p hp
    have hg := h0.good hr hi
    rcases ih2 hn hg.2 s' hs' p hp with h | h
    · exact ih1 hn hi s1 rfl p h
    · exact .inr h
  | star_end => rintro _ _ s' ⟨⟩ p hp; exact .inl hp
  | peek_ok => rintro _ _ s' ⟨⟩ p hp; exact .inl hp
  | npeek_no => rintro _ _ s' ⟨⟩ p hp; exact .inl hp
  | @pred_ok x s g' ts hx =>
    rintro _ _ s' ⟨⟩ p hp
    rcases List.mem_append.1 hp with h | h
    · rw [pred_thunks hx] at h
      exfalso
      cases x <;> simp [Pred.act] at h
    · exact .inl h
  | @act a s =>
    rintro hn _ s' ⟨⟩ p hp
    rcases List.mem_cons.1 hp with h | h
    · cases h; simp [noEof] at hn
    · exact .inl h
  | onfail_ok _ ih => exact ih
  | _ => intro _ _ s' hs'; cases hs'

/-! ## What actions leave alone -/

/-- The fields that only `eof`, `result` and `finished` change. -/
structure Same (m m' : Mach) : Prop where
  eof : m'.eof = m.eof
  result : m'.result = m.result
  consumed : m'.consumed = m.consumed
  errs : m'.errs = m.errs

theorem Same.refl (m : Mach) : Same m m := ⟨rfl, rfl, rfl, rfl⟩
theorem Same.trans {a b c : Mach} (h : Same a b) (h' : Same b c) : Same a c :=
  ⟨h'.eof.trans h.eof, h'.result.trans h.result, h'.consumed.trans h.consumed, h'.errs.trans h.errs⟩

theorem bind_ok {α β : Type} {x : Except Crash α} {f : α → Except Crash β} {b : β}
    (h : (x >>= f) = .ok b) : ∃ a, x = .ok a ∧ f a = .ok b := by
  cases x with
  | error => cases h
  | ok a => exact ⟨a, rfl, h⟩

theorem setVar_same {m m' : Mach} {i : Nat} {v : Option Ref} (h : m.setVar i v = .ok m') : Same m m' := by
  unfold Mach.setVar at h
  split at h
  · cases h
  · split at h
    · cases h; exact ⟨rfl, rfl, rfl, rfl⟩
    · cases h

theorem assign_same {m m' : Mach} {d : Dst} {v : Option Ref} (h : m.assign d v = .ok m') : Same m m' := by
  cases d with
  | self => cases h; exact ⟨rfl, rfl, rfl, rfl⟩
  | var i => exact setVar_same h
  | discard => cases h; exact .refl _

theorem addChild_same {m m' : Mach} {n : Node} (h : m.addChild n = .ok m') : Same m m' := by
  unfold Mach.addChild at h
  split at h
  · cases h
  · cases h; exact ⟨rfl, rfl, rfl, rfl⟩

theorem build_same {env : Env} {c : Ctor} {args : List (Option Ref)} {m : Mach} {x : Mach × Ref}
    (h : Mach.build env c args m = .ok x) : Same m x.1 := by
  unfold Mach.build at h
  split at h
  · unfold Mach.terminal at h
    split at h
    · cases h
    · obtain ⟨t, -, h⟩ := bind_ok h
      simp only at h
      split at h
      · cases h
      · obtain ⟨m1, h1, h⟩ := bind_ok h
        cases h
        have := addChild_same h1
        exact ⟨this.eof, this.result, this.consumed, this.errs⟩
  · unfold Mach.branch at h
    split at h
    · cases h
    · obtain ⟨os, -, h⟩ := bind_ok h
      simp only at h
      split at h
      · cases h
      · split at h
        · cases h
        · cases h
        · obtain ⟨m1, h1, h⟩ := bind_ok h
          cases h
          have := addChild_same h1
          exact ⟨this.eof, this.result, this.consumed, this.errs⟩

theorem seqAdds_same {m' : Mach} : ∀ {is : List Nat} {m : Mach}, m.seqAdds is = .ok m' → Same m m'
  | [], m, h => by cases h; exact .refl _
  | i :: is, m, h => by
    unfold Mach.seqAdds at h
    obtain ⟨v, -, h⟩ := bind_ok h
    obtain ⟨m1, h1, h⟩ := bind_ok h
    have h2 : Same m m1 := by
      unfold Mach.seqAdd at h1
      split at h1
      · cases h1
      · split at h1
        · cases h1
        · cases h1; exact ⟨rfl, rfl, rfl, rfl⟩
    exact h2.trans (seqAdds_same h)

theorem act_same {env : Env} {a : Act} {p : Nat} {m m' : Mach} (h : Mach.act env a p m = .ok m')
    (h1 : a ≠ .eof) (h2 : ∀ v, a ≠ .result v) (h3 : a ≠ .finished) : Same m m' := by
  cases a with
  | eof => exact absurd rfl h1
  | result v => exact absurd rfl (h2 v)
  | finished => exact absurd rfl h3
  | blockStart =>
    simp only [Mach.act, Mach.blockStart] at h
    obtain ⟨pos, -, h⟩ := bind_ok h
    split at h
    · split at h
      · cases h
      · cases h; exact ⟨rfl, rfl, rfl, rfl⟩
    · cases h; exact ⟨rfl, rfl, rfl, rfl⟩
  | blockEnd =>
    simp only [Mach.act, Mach.blockEnd] at h
    obtain ⟨pos, -, h⟩ := bind_ok h
    cases h; exact ⟨rfl, rfl, rfl, rfl⟩
  | blockReplace =>
    simp only [Mach.act, Mach.blockReplace] at h
    obtain ⟨pos, -, h⟩ := bind_ok h
    cases h; exact ⟨rfl, rfl, rfl, rfl⟩
  | blockMerge =>
    simp only [Mach.act, Mach.blockMerge] at h
    obtain ⟨pos, -, h⟩ := bind_ok h
    split at h
    · cases h; exact ⟨rfl, rfl, rfl, rfl⟩
    · split at h
      · cases h
      · cases h; exact ⟨rfl, rfl, rfl, rfl⟩
  | seqAdd vs => exact seqAdds_same h
  | copy i =>
    simp only [Mach.act] at h
    obtain ⟨v, -, h⟩ := bind_ok h
    cases h; exact ⟨rfl, rfl, rfl, rfl⟩
  | null => cases h; exact ⟨rfl, rfl, rfl, rfl⟩
  | build d c args =>
    simp only [Mach.act] at h
    obtain ⟨vs, -, h⟩ := bind_ok h
    obtain ⟨x, h1, h⟩ := bind_ok h
    exact (build_same h1).trans (assign_same h)
  | aliasUnless e i =>
    simp only [Mach.act] at h
    obtain ⟨v, -, h⟩ := bind_ok h
    split at h
    · split at h
      · cases h; exact .refl _
      · obtain ⟨x, h1, h⟩ := bind_ok h
        exact (build_same h1).trans (setVar_same h)
    · obtain ⟨x, h1, h⟩ := bind_ok h
      exact (build_same h1).trans (setVar_same h)
  | sbReset => cases h; exact ⟨rfl, rfl, rfl, rfl⟩
  | sbAppend c => cases h; exact ⟨rfl, rfl, rfl, rfl⟩
  | sbAppendBlock =>
    simp only [Mach.act] at h
    split at h
    · cases h
    · obtain ⟨t, -, h⟩ := bind_ok h
      cases h; exact ⟨rfl, rfl, rfl, rfl⟩
  | opPush o => cases h; exact ⟨rfl, rfl, rfl, rfl⟩

theorem step_same {env : Env} {t : Peg.Thunk Act} {m m' : Mach} (h : Mach.step env t m = .ok m')
    (h1 : ∀ p, t ≠ .act .eof p) (h2 : ∀ v p, t ≠ .act (.result v) p) (h3 : ∀ p, t ≠ .act .finished p) :
    Same m m' := by
  cases t with
  | push n => cases h; exact ⟨rfl, rfl, rfl, rfl⟩
  | pop n =>
    simp only [Mach.step] at h
    split at h
    · cases h
    · cases h; exact ⟨rfl, rfl, rfl, rfl⟩
  | set i => exact setVar_same h
  | act a p =>
    exact act_same h (fun e => h1 p (e ▸ rfl)) (fun v e => h2 v p (e ▸ rfl)) (fun e => h3 p (e ▸ rfl))

theorem finished_inv {env : Env} {p : Nat} {m m' : Mach} (h : Mach.act env .finished p m = .ok m') :
    ∃ es, Mach.contexts env m.errs.reverse = .ok es ∧ m' = { m with consumed := env.pos, errs := es.reverse } := by
  simp only [Mach.act] at h
  obtain ⟨es, h1, h⟩ := bind_ok h
  cases h; exact ⟨es, h1, rfl⟩

theorem result_inv {env : Env} {v : Option Nat} {p : Nat} {m m' : Mach}
    (h : Mach.act env (.result v) p m = .ok m') : ∃ r, m' = { m with result := r } ∧ (v = none → r = none) := by
  cases v with
  | none => cases h; exact ⟨none, rfl, fun _ => rfl⟩
  | some i =>
    simp only [Mach.act] at h
    obtain ⟨r, -, h⟩ := bind_ok h
    cases h; exact ⟨r, rfl, fun h => by cases h⟩

theorem thunk_cases (t : Peg.Thunk Act) : (∃ p, t = .act .eof p) ∨ (∃ v p, t = .act (.result v) p) ∨
    (∃ p, t = .act .finished p) ∨ ((∀ p, t ≠ .act .eof p) ∧ (∀ v p, t ≠ .act (.result v) p) ∧
      (∀ p, t ≠ .act .finished p)) := by
  cases t with
  | act a p =>
    cases a with
    | eof => exact .inl ⟨p, rfl⟩
    | result v => exact .inr (.inl ⟨v, p, rfl⟩)
    | finished => exact .inr (.inr (.inl ⟨p, rfl⟩))
    | _ => exact .inr (.inr (.inr ⟨by simp, by simp, by simp⟩))
  | _ => exact .inr (.inr (.inr ⟨by simp, by simp, by simp⟩))

/-- `eof` is set by its action and never unset. -/
theorem exec_eof {env : Env} {m0 : Mach} : ∀ {ts : List (Peg.Thunk Act)} {m : Mach},
    Mach.exec env ts m0 = .ok m → (m.eof = true ↔ m0.eof = true ∨ ∃ p, .act .eof p ∈ ts)
  | [], m, h => by cases h; simp
  | t :: ts, m, h => by
    unfold Mach.exec at h
    obtain ⟨m1, h1, h⟩ := bind_ok h
    have ih := exec_eof h1
    rcases thunk_cases t with ⟨p, rfl⟩ | ⟨v, p, rfl⟩ | ⟨p, rfl⟩ | ⟨g1, g2, g3⟩
    · cases h
      simp only [true_iff]
      exact .inr ⟨p, List.mem_cons_self⟩
    · obtain ⟨r, rfl, -⟩ := result_inv h
      simp [ih]
    · obtain ⟨es, -, rfl⟩ := finished_inv (p := p) h
      simp [ih]
    · rw [(step_same h g1 g2 g3).eof, ih]
      constructor
      · rintro (h | ⟨p, h⟩)
        · exact .inl h
        · exact .inr ⟨p, List.mem_cons_of_mem _ h⟩
      · rintro (h | ⟨p, h⟩)
        · exact .inl h
        · rcases List.mem_cons.1 h with h | h
          · exact absurd h.symm (g1 p)
          · exact .inr ⟨p, h⟩

/-- Without an action that sets a result there is none. -/
theorem exec_no_result {env : Env} {m0 : Mach} (h0 : m0.result = none) :
    ∀ {ts : List (Peg.Thunk Act)} {m : Mach}, Mach.exec env ts m0 = .ok m →
    (∀ i p, .act (.result (some i)) p ∉ ts) → m.result = none
  | [], m, h, _ => by cases h; exact h0
  | t :: ts, m, h, hn => by
    unfold Mach.exec at h
    obtain ⟨m1, h1, h⟩ := bind_ok h
    have ih := exec_no_result h0 h1 (fun i p hm => hn i p (List.mem_cons_of_mem _ hm))
    rcases thunk_cases t with ⟨p, rfl⟩ | ⟨v, p, rfl⟩ | ⟨p, rfl⟩ | ⟨g1, g2, g3⟩
    · cases h; exact ih
    · obtain ⟨r, rfl, hr⟩ := result_inv h
      cases v with
      | none => exact hr rfl
      | some i => exact absurd List.mem_cons_self (hn i p)
    · obtain ⟨es, -, rfl⟩ := finished_inv (p := p) h
      exact ih
    · rw [(step_same h g1 g2 g3).result, ih]

/-- The errors stay the same but for contexts, which are lines of the buffer. -/
def Filled (env : Env) : List PErr → List PErr → Prop
  | [], [] => True
  | e :: es, f :: fs => (f.position = e.position ∧ f.msg = e.msg ∧ f.context.isSome = true ∧
      env.off.offset ≤ e.position.offset ∧
      lineContext env.buf (e.position.offset - env.off.offset) 80 = .ok f.context) ∧ Filled env es fs
  | _, _ => False

theorem Filled.append {env : Env} : ∀ {as bs as' bs' : List PErr}, Filled env as bs →
    Filled env as' bs' → Filled env (as ++ as') (bs ++ bs')
  | [], [], _, _, _, h => h
  | [], _ :: _, _, _, h, _ => h.elim
  | _ :: _, [], _, _, h, _ => h.elim
  | _ :: _, _ :: _, _, _, h, h' => ⟨h.1, h.2.append h'⟩

theorem Filled.reverse {env : Env} : ∀ {as bs : List PErr}, Filled env as bs →
    Filled env as.reverse bs.reverse
  | [], [], _ => trivial
  | [], _ :: _, h => h.elim
  | _ :: _, [], h => h.elim
  | _ :: _, _ :: _, h => by
    rw [List.reverse_cons, List.reverse_cons]
    exact h.2.reverse.append ⟨h.1, trivial⟩

theorem contexts_filled {env : Env} : ∀ {es fs : List PErr}, (∀ e ∈ es, e.context = none) →
    Mach.contexts env es = .ok fs → Filled env es fs
  | [], fs, _, h => by cases h; trivial
  | e :: es, fs, hn, h => by
    unfold Mach.contexts at h
    rw [if_neg (by rw [hn e List.mem_cons_self]; simp)] at h
    split at h
    · cases h
    · rename_i hle
      split at h
      · rename_i c hc
        obtain ⟨fs', h1, h⟩ := bind_ok h
        cases h
        exact ⟨⟨rfl, rfl, rfl, Nat.le_of_not_lt hle, hc⟩,
          contexts_filled (fun e he => hn e (List.mem_cons_of_mem _ he)) h1⟩
      · cases h

theorem contexts_done {env : Env} {es fs : List PErr} (hn : ∀ e ∈ es, e.context.isSome = true)
    (h : Mach.contexts env es = .ok fs) : fs = es := by
  cases es with
  | nil => cases h; rfl
  | cons e es =>
    unfold Mach.contexts at h
    rw [if_pos (hn e List.mem_cons_self)] at h
    cases h; rfl

theorem Filled.all {env : Env} : ∀ {as bs : List PErr}, Filled env as bs →
    ∀ f ∈ bs, f.context.isSome = true
  | [], [], _, f, hf => by cases hf
  | [], _ :: _, h, _, _ => h.elim
  | _ :: _, [], h, _, _ => h.elim
  | _ :: as, _ :: bs, h, f, hf => by
    rcases List.mem_cons.1 hf with e | e
    · subst e; exact h.1.2.2.1
    · exact Filled.all (as := as) h.2 f e

/-- After `finished` has run the errors have their contexts. -/
theorem exec_errs {env : Env} {m0 : Mach} (hn : ∀ e ∈ m0.errs, e.context = none) :
    ∀ {ts : List (Peg.Thunk Act)} {m : Mach}, Mach.exec env ts m0 = .ok m →
      (m.errs = m0.errs ∧ ∀ p, .act .finished p ∉ ts) ∨ (m.consumed = env.pos ∧ Filled env m0.errs m.errs)
  | [], m, h => by cases h; exact .inl ⟨rfl, by simp⟩
  | t :: ts, m, h => by
    unfold Mach.exec at h
    obtain ⟨m1, h1, h⟩ := bind_ok h
    have ih := exec_errs hn h1
    rcases thunk_cases t with ⟨p, rfl⟩ | ⟨v, p, rfl⟩ | ⟨p, rfl⟩ | ⟨g1, g2, g3⟩
    · cases h
      refine ih.imp (fun h => ⟨h.1, fun q hq => ?_⟩) id
      rcases List.mem_cons.1 hq with e | e
      · cases e
      · exact h.2 q e
    · obtain ⟨r, rfl, -⟩ := result_inv h
      refine ih.imp (fun h => ⟨h.1, fun q hq => ?_⟩) id
      rcases List.mem_cons.1 hq with e | e
      · cases e
      · exact h.2 q e
    · obtain ⟨es, h2, rfl⟩ := finished_inv (p := p) h
      right
      refine ⟨rfl, ?_⟩
      rcases ih with ⟨he, -⟩ | ⟨-, hf⟩
      · rw [he] at h2
        have := (contexts_filled (by simpa using hn) h2).reverse
        rwa [List.reverse_reverse] at this
      · have : es = m1.errs.reverse := contexts_done (by simpa using hf.all) h2
        rw [this, List.reverse_reverse]
        exact hf
    · have hs := step_same h g1 g2 g3
      rw [hs.errs, hs.consumed]
      refine ih.imp (fun h => ⟨h.1, fun q hq => ?_⟩) id
      rcases List.mem_cons.1 hq with e | e
      · exact g3 q e.symm
      · exact h.2 q e

/-! ## Actions that are always recorded -/

def must (T : Rule → Bool) (a : Act) : E → Bool
  | .act b => b == a
  | .seq x y => must T a x || must T a y
  | .alt x y => must T a x && must T a y
  | .onfail x _ => must T a x
  | .nt r _ => T r
  | _ => false

theorem must_sound {S : Source σ} {w : List UInt8} {I : Nat → Reader σ × CState → Prop}
    (hr : ReadsAs (chost S) w I) {T : Rule → Bool} {a : Act}
    (hT : ∀ r, T r = true → must T a (grammar r).body = true) {e : E} {s : St Act (Reader σ × CState)}
    {res : Res Act (Reader σ × CState)} (h : Eval grammar (chost S) e s res) :
    I s.pos s.g → must T a e = true → ∀ s', res = .ok s' → ∃ p, .act a p ∈ s'.thunks := by
  induction h with
  | @nt_ok r var s s1 h0 ih =>
    rintro hi hm s' ⟨⟩
    obtain ⟨p, hp⟩ := ih (by simpa using hi) (hT r hm) s1 rfl
    refine ⟨p, ?_⟩
    rw [leave_thunks]
    exact List.mem_append_right _ (List.mem_append_right _ hp)
  | @seq_ok x y s s1 r h0 hy ih1 ih2 =>
    intro hi hm s' hs'
    have hg := h0.good hr hi
    simp only [must, Bool.or_eq_true] at hm
    rcases hm with hm | hm
    · obtain ⟨p, hp⟩ := ih1 hi hm s1 rfl
      obtain ⟨ts, h1, -⟩ := thunks_mono hr hy hg.2 s' hs'
      exact ⟨p, by rw [h1]; exact List.mem_append_right _ hp⟩
    · exact ih2 hg.2 hm s' hs'
  | alt_ok _ ih =>
    intro hi hm
    simp only [must, Bool.and_eq_true] at hm
    exact ih hi hm.1
  | alt_no h0 _ _ ih2 =>
    intro hi hm
    simp only [must, Bool.and_eq_true] at hm
    have hg := h0.good hr hi
    exact ih2 (hr.down hg.2 hg.1) hm.2
  | @act b s =>
    rintro _ hm s' ⟨⟩
    simp only [must, beq_iff_eq] at hm
    subst hm
    exact ⟨s.pos, List.mem_cons_self⟩
  | onfail_ok _ ih => exact ih
  | _ => intro _ hm s' hs'; first | (cases hs'; done) | (simp [must] at hm; done)

def finT : Rule → Bool
  | .r_directive | .r__directive | .r_statement | .r__statement => true
  | _ => false

theorem finT_ok : ∀ r, finT r = true → must finT .finished (grammar r).body = true := by
  have h : ∀ r ∈ Rule.all, finT r = true → must finT .finished (grammar r).body = true := by
    decide +kernel
  exact fun r => h r (Rule.mem_all r)

/-! ## The last byte -/

/-- How a successful match may end, unless the end of the input was noticed: the possible last bytes,
and whether possibly nothing was matched. -/
structure Last where
  mask : Nat
  null : Bool
  deriving DecidableEq, Repr

def Last.le (a b : Last) : Bool := subset a.mask b.mask && (!a.null || b.null)

def lastOf (T : Rule → Last) : E → Last
  | .one m => ⟨m.mask, false⟩
  | .str l => match l.getLast? with
    | none => ⟨0, true⟩
    | some c => ⟨2 ^ c.toNat, false⟩
  | .seq a b => bif (lastOf T b).null then ⟨(lastOf T a).mask ||| (lastOf T b).mask, (lastOf T a).null⟩
      else ⟨(lastOf T b).mask, false⟩
  | .alt a b => ⟨(lastOf T a).mask ||| (lastOf T b).mask, (lastOf T a).null || (lastOf T b).null⟩
  | .star a => ⟨(lastOf T a).mask, true⟩
  | .onfail a _ => lastOf T a
  | .nt r _ => T r
  | .act a => ⟨0, a != .eof⟩
  | _ => ⟨0, true⟩

/-- What `Last` says. -/
def Ends (w : List UInt8) (a : Last) (s s' : St Act (Reader σ × CState)) : Prop :=
  (∃ p, .act .eof p ∈ s'.thunks) ∨ (a.null = true ∧ s'.pos = s.pos) ∨
    (s.pos < s'.pos ∧ ∃ c, w[s'.pos - 1]? = some c ∧ a.mask.testBit c.toNat = true)

theorem Ends.weaken {w : List UInt8} {a b : Last} {s s' : St Act (Reader σ × CState)} (h : Ends w a s s')
    (hm : ∀ i, a.mask.testBit i = true → b.mask.testBit i = true) (hn : a.null = true → b.null = true) :
    Ends w b s s' := by
  rcases h with h | ⟨h1, h2⟩ | ⟨h1, c, h2, h3⟩
  · exact .inl h
  · exact .inr (.inl ⟨hn h1, h2⟩)
  · exact .inr (.inr ⟨h1, c, h2, hm _ h3⟩)

theorem Ends.le {w : List UInt8} {a b : Last} {s s' : St Act (Reader σ × CState)} (h : Ends w a s s')
    (hle : a.le b = true) : Ends w b s s' := by
  simp only [Last.le, Bool.and_eq_true, Bool.or_eq_true, Bool.not_eq_true'] at hle
  refine h.weaken (fun i hi => subset_spec hle.1 hi) fun hn => ?_
  rcases hle.2 with h | h
  · rw [h] at hn; cases hn
  · exact h

theorem last_sound {S : Source σ} {w : List UInt8} {I : Nat → Reader σ × CState → Prop}
    (hr : ReadsAs (chost S) w I) {T : Rule → Last}
    (hT : ∀ r, (lastOf T (grammar r).body).le (T r) = true) {e : E} {s : St Act (Reader σ × CState)}
    {res : Res Act (Reader σ × CState)} (h : Eval grammar (chost S) e s res) :
    I s.pos s.g → ∀ s', res = .ok s' → Ends w (lastOf T e) s s' := by
  induction h with
  | eps => rintro _ s' ⟨⟩; exact .inr (.inl ⟨rfl, rfl⟩)
  | @one_ok m s c g' hp hm =>
    rintro hi s' ⟨⟩
    have hv := hr.val hi
    rw [hp] at hv
    exact .inr (.inr ⟨Nat.lt_succ_self _, c, hv.symm, hm⟩)
  | @str_ok l s p g' hm =>
    rintro hi s' ⟨⟩
    obtain ⟨-, h2, -⟩ := matchStr_inv hr l s.pos s.g (Nat.le_refl _) hi hm
    obtain ⟨h2, h3⟩ := h2 rfl
    subst h2
    rcases List.eq_nil_or_concat l with rfl | ⟨l', c, rfl⟩
    · exact .inr (.inl ⟨rfl, rfl⟩)
    · rw [List.concat_eq_append] at h3 ⊢
      simp only [lastOf, List.getLast?_append, List.getLast?_singleton, Option.some_or]
      refine .inr (.inr ⟨by simp, c, ?_, by simp⟩)
      show w[s.pos + (l' ++ [c]).length - 1]? = some c
      have h4 : (w.extract s.pos (s.pos + (l' ++ [c]).length))[l'.length]? = some c := by
        rw [h3]; simp
      rw [List.extract_eq_take_drop, List.getElem?_take_of_lt (by simp), List.getElem?_drop] at h4
      rw [← h4]
      congr 1
      simp
  | @nt_ok r var s s1 h0 ih =>
    rintro hi s' ⟨⟩
    have := (ih (by simpa using hi) s1 rfl).le (hT r)
    rcases this with ⟨p, hp⟩ | ⟨h1, h2⟩ | ⟨h1, h2⟩
    · refine .inl ⟨p, ?_⟩
      rw [leave_thunks]
      exact List.mem_append_right _ (List.mem_append_right _ hp)
    · exact .inr (.inl ⟨h1, by simpa using h2⟩)
    · exact .inr (.inr ⟨by simpa using h1, by rw [St.leave_pos]; exact h2⟩)
  | @seq_ok x y s s1 r h0 hy ih1 ih2 =>
    intro hi s' hs'
    have hg := h0.good hr hi
    have h1 := ih1 hi s1 rfl
    obtain ⟨ts, h4, h5⟩ := thunks_mono hr hy hg.2 s' hs'
    have h6 := h5.le
    simp only [lastOf]
    rcases ih2 hg.2 s' hs' with h2 | ⟨h2, h3⟩ | ⟨h2, c, h3, h3'⟩
    · exact .inl h2
    · rw [h2, cond_true]
      rcases h1 with ⟨p, hp⟩ | ⟨g1, g2⟩ | ⟨g1, c, g2, g3⟩
      · exact .inl ⟨p, by rw [h4]; exact List.mem_append_right _ hp⟩
      · exact .inr (.inl ⟨g1, h3.trans g2⟩)
      · refine .inr (.inr ⟨by omega, c, by rw [h3]; exact g2, ?_⟩)
        rw [Nat.testBit_or, g3]; rfl
    · have := hg.1
      cases (lastOf T y).null with
      | false => exact .inr (.inr ⟨by omega, c, h3, h3'⟩)
      | true =>
        refine .inr (.inr ⟨by omega, c, h3, ?_⟩)
        rw [cond_true, Nat.testBit_or, h3', Bool.or_true]
  | alt_ok _ ih =>
    intro hi s' hs'
    refine (ih hi s' hs').weaken (fun i h => ?_) (fun h => ?_)
    · simp only [lastOf]; rw [Nat.testBit_or, h]; rfl
    · simp only [lastOf]; rw [h]; rfl
  | alt_no h0 _ _ ih2 =>
    intro hi s' hs'
    have hg := h0.good hr hi
    have := ih2 (hr.down hg.2 hg.1) s' hs'
    refine Ends.weaken (s := _) this (fun i h => ?_) (fun h => ?_)
    · simp only [lastOf]; rw [Nat.testBit_or, h, Bool.or_true]
    · simp only [lastOf]; rw [h, Bool.or_true]
  | @star_more a s s1 r h0 hy ih1 ih2 =>
    intro hi s' hs'
    have hg := h0.good hr hi
    obtain ⟨ts, h4, h5⟩ := thunks_mono hr hy hg.2 s' hs'
    have h6 := h5.le
    have h7 := hg.1
    rcases ih2 hg.2 s' hs' with h2 | ⟨h2, h3⟩ | ⟨h2, c, h3, h3'⟩
    · exact .inl h2
    · rcases ih1 hi s1 rfl with ⟨p, hp⟩ | ⟨g1, g2⟩ | ⟨g1, c, g2, g3⟩
      · exact .inl ⟨p, by rw [h4]; exact List.mem_append_right _ hp⟩
      · exact .inr (.inl ⟨rfl, h3.trans g2⟩)
      · exact .inr (.inr ⟨by omega, c, by rw [h3]; exact g2, g3⟩)
    · exact .inr (.inr ⟨by omega, c, h3, h3'⟩)
  | star_end => rintro _ s' ⟨⟩; exact .inr (.inl ⟨rfl, rfl⟩)
  | peek_ok => rintro _ s' ⟨⟩; exact .inr (.inl ⟨rfl, rfl⟩)
  | npeek_no => rintro _ s' ⟨⟩; exact .inr (.inl ⟨rfl, rfl⟩)
  | pred_ok => rintro _ s' ⟨⟩; exact .inr (.inl ⟨rfl, rfl⟩)
  | @act a s =>
    rintro _ s' ⟨⟩
    by_cases ha : a = .eof
    · subst ha; exact .inl ⟨s.pos, List.mem_cons_self⟩
    · exact .inr (.inl ⟨by simpa [lastOf] using ha, rfl⟩)
  | onfail_ok _ ih => exact ih
  | _ => intro _ s' hs'; cases hs'

def lastT : Rule → Last
  | .r_EOF => ⟨0, false⟩
  | .r_EOL | .r_line_end | .r_line_comment => ⟨2 ^ 10, false⟩
  | .r_SEMICOLON | .r__clauses | .r_clauses | .r_query | .r_schema_command | .r_cypher_statement
  | .r_statement | .r__statement | .r___statement => ⟨2 ^ 59, false⟩
  | .r_client_command | .r_directive | .r__directive | .r___directive => ⟨2 ^ 59 ||| 2 ^ 10, false⟩
  | .r__line_start_ => ⟨0, true⟩
  | _ => ⟨2 ^ 256 - 1, true⟩

theorem lastT_ok : ∀ r, (lastOf lastT (grammar r).body).le (lastT r) = true := by
  have h : ∀ r ∈ Rule.all, (lastOf lastT (grammar r).body).le (lastT r) = true := by decide +kernel
  exact fun r => h r (Rule.mem_all r)

/-! ## When nothing is left -/

/-- What must not happen at the end of the input: recording an error, setting a result. -/
def Pred.loud : Pred → Bool
  | .recordError => true
  | _ => false

def Act.loud : Act → Bool
  | .result (some _) => true
  | _ => false

/-- Started at the end of the input, nothing loud is reached. -/
def calm (T : Rule → Bool) : E → Bool
  | .pred x => !x.loud
  | .act a => !a.loud
  | .nt r _ => T r
  | .seq a b => calm T a && (!((outOf outT predT a).fin.s0 || (outOf outT predT a).fin.sp) || calm T b)
  | .alt a b => calm T a && (!(outOf outT predT a).fin.fail || calm T b)
  | .star a => calm T a
  | .peek a => calm T a
  | .npeek a => calm T a
  | .onfail a x => calm T a && (!(outOf outT predT a).fin.fail || !x.loud)
  | _ => true

theorem outT_ok : ∀ r, (outOf outT predT (grammar r).body).le (outT r) = true := fun r => by
  have := ruleOk_all r
  simp only [ruleOk, Bool.and_eq_true] at this
  exact this.1.1

def calmT : Rule → Bool
  | .r__error_ => false
  | _ => true

theorem calmT_ok : ∀ r, calmT r = true → calm calmT (grammar r).body = true := by
  have h : ∀ r ∈ Rule.all, calmT r = true → calm calmT (grammar r).body = true := by decide +kernel
  exact fun r => h r (Rule.mem_all r)

/-- From the end of the input the position does not move. -/
theorem stays_at_end {S : Source σ} {w : List UInt8} {I : Nat → Reader σ × CState → Prop}
    (hr : ReadsAs (chost S) w I) {e : E} {s s' : St Act (Reader σ × CState)}
    (h : Eval grammar (chost S) e s (.ok s')) (hi : I s.pos s.g) (he : s.pos = w.length) :
    s'.pos = w.length := by
  have hg := h.good hr hi
  have := hr.bound hg.2
  have := hg.1
  omega

theorem fin_ok {S : Source σ} {w : List UInt8} {I : Nat → Reader σ × CState → Prop}
    (hr : ReadsAs (chost S) w I) {e : E} {s s' : St Act (Reader σ × CState)}
    (h : Eval grammar (chost S) e s (.ok s')) (hi : I s.pos s.g) (he : s.pos = w.length) :
    ((outOf outT predT e).fin.s0 || (outOf outT predT e).fin.sp) = true := by
  have hw := h.within hr (chost_preds S) outT_ok hi
  rw [decide_eq_true he] at hw
  have := hw.1 ((stays_at_end hr h hi he).trans he.symm)
  simp only [Out2.at_, cond_true] at this
  rw [this]; rfl

theorem fin_fail {S : Source σ} {w : List UInt8} {I : Nat → Reader σ × CState → Prop}
    (hr : ReadsAs (chost S) w I) {e : E} {s s' : St Act (Reader σ × CState)}
    (h : Eval grammar (chost S) e s (.fail s')) (hi : I s.pos s.g) (he : s.pos = w.length) :
    (outOf outT predT e).fin.fail = true := by
  have hw := h.within hr (chost_preds S) outT_ok hi
  rw [decide_eq_true he] at hw
  exact hw

theorem calm_called {S : Source σ} {w : List UInt8} {I : Nat → Reader σ × CState → Prop}
    (hr : ReadsAs (chost S) w I) {e : E} {s : St Act (Reader σ × CState)} {x : Pred} {p : Nat}
    {g : Reader σ × CState} (h : Called grammar (chost S) e s x p g) :
    I s.pos s.g → s.pos = w.length → calm calmT e = true → x.loud = false := by
  induction h with
  | pred => intro _ _ hc; simpa [calm] using hc
  | @nt r v s x p g _ ih =>
    intro hi he hc
    exact ih (by simpa using hi) (by simpa using he) (calmT_ok r hc)
  | seq_l _ ih =>
    intro hi he hc
    simp only [calm, Bool.and_eq_true] at hc
    exact ih hi he hc.1
  | seq_r h0 _ ih =>
    intro hi he hc
    simp only [calm, Bool.and_eq_true] at hc
    have hg := h0.good hr hi
    rw [fin_ok hr h0 hi he] at hc
    exact ih hg.2 (stays_at_end hr h0 hi he) (by simpa using hc.2)
  | alt_l _ ih =>
    intro hi he hc
    simp only [calm, Bool.and_eq_true] at hc
    exact ih hi he hc.1
  | alt_r h0 _ ih =>
    intro hi he hc
    simp only [calm, Bool.and_eq_true] at hc
    have hg := h0.good hr hi
    rw [fin_fail hr h0 hi he] at hc
    exact ih (hr.down hg.2 hg.1) he (by simpa using hc.2)
  | star_l _ ih => exact ih
  | star_r h0 _ ih =>
    intro hi he hc
    have hg := h0.good hr hi
    exact ih hg.2 (stays_at_end hr h0 hi he) hc
  | peek _ ih => exact ih
  | npeek _ ih => exact ih
  | onfail_l _ ih =>
    intro hi he hc
    simp only [calm, Bool.and_eq_true] at hc
    exact ih hi he hc.1
  | onfail_r h0 =>
    intro hi he hc
    simp only [calm, Bool.and_eq_true] at hc
    rw [fin_fail hr h0 hi he] at hc
    simpa using hc.2

theorem calm_ok {S : Source σ} {w : List UInt8} {I : Nat → Reader σ × CState → Prop}
    (hr : ReadsAs (chost S) w I) {e : E} {s : St Act (Reader σ × CState)}
    {res : Res Act (Reader σ × CState)} (h : Eval grammar (chost S) e s res) :
    I s.pos s.g → s.pos = w.length → calm calmT e = true → ∀ s', res = .ok s' →
      ∀ a p, a.loud = true → .act a p ∈ s'.thunks → .act a p ∈ s.thunks := by
  induction h with
  | eps => rintro _ _ _ s' ⟨⟩ a p _ hp; exact hp
  | one_ok => rintro _ _ _ s' ⟨⟩ a p _ hp; exact hp
  | str_ok => rintro _ _ _ s' ⟨⟩ a p _ hp; exact hp
  | @nt_ok r var s s1 h0 ih =>
    rintro hi he hc s' ⟨⟩ a p ha hp
    rw [leave_thunks] at hp
    have hp' : .act a p ∈ s1.thunks := by
      rcases List.mem_append.1 hp with h | h
      · cases var <;> simp [setT] at h
      rcases List.mem_append.1 h with h | h
      · unfold leaveT at h; split at h <;> simp at h
      · exact h
    have h := ih (by simpa using hi) (by simpa using he) (calmT_ok r hc) s1 rfl a p ha hp'
    rw [enter_thunks] at h
    rcases List.mem_append.1 h with h | h
    · unfold enterT at h; split at h <;> simp at h
    · exact h
  | @seq_ok x y s s1 r h0 _ ih1 ih2 =>
    intro hi he hc s' hs' a p ha hp
    simp only [calm, Bool.and_eq_true] at hc
    have hg := h0.good hr hi
    rw [fin_ok hr h0 hi he] at hc
    exact ih1 hi he hc.1 s1 rfl a p ha
      (ih2 hg.2 (stays_at_end hr h0 hi he) (by simpa using hc.2) s' hs' a p ha hp)
  | alt_ok _ ih =>
    intro hi he hc
    simp only [calm, Bool.and_eq_true] at hc
    exact ih hi he hc.1
  | alt_no h0 _ _ ih2 =>
    intro hi he hc
    simp only [calm, Bool.and_eq_true] at hc
    have hg := h0.good hr hi
    rw [fin_fail hr h0 hi he] at hc
    exact ih2 (hr.down hg.2 hg.1) he (by simpa using hc.2)
  | @star_more a s s1 r h0 _ ih1 ih2 =>
    intro hi he hc s' hs' b p ha hp
    have hg := h0.good hr hi
    exact ih1 hi he hc s1 rfl b p ha (ih2 hg.2 (stays_at_end hr h0 hi he) hc s' hs' b p ha hp)
  | star_end => rintro _ _ _ s' ⟨⟩ a p _ hp; exact hp
  | peek_ok => rintro _ _ _ s' ⟨⟩ a p _ hp; exact hp
  | npeek_no => rintro _ _ _ s' ⟨⟩ a p _ hp; exact hp
  | @pred_ok x s g' ts hx =>
    rintro _ _ _ s' ⟨⟩ a p ha hp
    rcases List.mem_append.1 hp with h | h
    · rw [pred_thunks hx] at h
      exfalso
      cases x <;> simp [Pred.act] at h <;> rw [h.1] at ha <;> cases ha
    · exact h
  | @act a s =>
    rintro _ _ hc s' ⟨⟩ b p hb hp
    rcases List.mem_cons.1 hp with h | h
    · cases h; simp [calm, hb] at hc
    · exact h
  | onfail_ok _ ih =>
    intro hi he hc
    simp only [calm, Bool.and_eq_true] at hc
    exact ih hi he hc.1
  | _ => intro _ _ _ s' hs'; cases hs'

end Verif.Cypher
