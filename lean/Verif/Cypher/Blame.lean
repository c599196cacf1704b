import Verif.Cypher.ClearLoop
/-!
# What is skipped is reported

Text is skipped only after `_error_`, which makes an error of what was expected. Something was: the semicolon, at least, if what is
kept of the last call does not hide it (errors.c:79).
-/
namespace Verif.Cypher.Scan
open Verif.Peg

variable {σ : Type}

/-- 0: nothing of an earlier call hides what is expected; 1: something was expected; 2: there is an error. -/
def Lev : Nat → CState → Prop
  | 0, q => (q.errs.errors ≠ [] ∨ q.errs.labels ≠ []) ∨ q.errs.lastPosition.offset ≤ q.off.offset
  | 1, q => q.errs.errors ≠ [] ∨ q.errs.labels ≠ []
  | _ + 2, q => q.errs.errors ≠ []

theorem Lev.one {q : CState} (h : q.errs.errors ≠ []) : ∀ n, Lev n q
  | 0 => .inl (.inl h)
  | 1 => .inl h
  | _ + 2 => h
theorem Lev.zero {q : CState} : ∀ {n}, Lev n q → Lev 0 q
  | 0, h => h
  | 1, h => .inl h
  | _ + 2, h => .inl (.inl h)

/-- Nothing of this is lost. -/
def Grow (q q' : CState) : Prop := q'.off = q.off ∧ ∀ n, Lev n q → Lev n q'
theorem Grow.same {q q' : CState} (h1 : q'.off = q.off) (h2 : q'.errs = q.errs) : Grow q q' := by
  refine ⟨h1, fun n h => ?_⟩
  match n, h with
  | 0, h => simp only [Lev] at h ⊢; rwa [h1, h2]
  | 1, h => simp only [Lev] at h ⊢; rwa [h2]
  | n + 2, h => simp only [Lev] at h ⊢; rwa [h2]

theorem note_labels {et et' : ErrTrack} {pos : Pos} {c : UInt8} {l : List UInt8} (h : et.note pos c l = .ok et') :
    et'.errors = et.errors ∧ (et' = et ∧ (pos.offset < et.lastPosition.offset ∨ et.errors ≠ []) ∨ et'.labels ≠ []) := by
  unfold ErrTrack.note at h
  split at h
  · rename_i h0
    cases h
    refine ⟨rfl, .inl ⟨rfl, h0.imp_right fun h e => ?_⟩⟩
    rw [e] at h; simp at h
  · by_cases h0 : et.labels.length = 0 ∨ pos.offset > et.lastPosition.offset
    · simp only [h0, if_true, List.length_nil, ne_eq, not_true_eq_false, false_and, if_false, List.not_mem_nil] at h
      cases h
      exact ⟨rfl, .inr (by simp)⟩
    · simp only [h0, if_false] at h
      have hne : et.labels ≠ [] := fun e => h0 (.inl (by simp [e]))
      split at h
      · cases h
      · split at h
        · cases h; exact ⟨rfl, .inr hne⟩
        · cases h; exact ⟨rfl, .inr (by simp)⟩

theorem reify_errors {et et' : ErrTrack} (h : et.reify = .ok et') : et.labels = [] ∧ et' = et ∨ et'.errors ≠ [] := by
  unfold ErrTrack.reify at h
  split at h
  · rename_i h0
    cases h; exact .inl ⟨List.eq_nil_of_length_eq_zero h0, rfl⟩
  · simp only at h
    split at h
    · cases h
    · cases h; exact .inr (by simp)

theorem cpred_grow {x : Pred} {p : Nat} {r : Reader σ} {q q' : CState} {b : Bool} {ts : List (Peg.Thunk Act)}
    (h : cpred x p r q = .ok (b, q', ts)) :
    Grow q q' ∧ (x = .recordError → Lev 1 q → Lev 2 q') ∧ ∀ l, x = .err l → Lev 0 q → Lev 1 q' := by
  cases x with
  | recordError =>
    simp only [cpred] at h
    split at h
    · rename_i e he
      simp only [Except.ok.injEq, Prod.mk.injEq] at h
      obtain ⟨-, rfl, -⟩ := h
      rcases reify_errors he with ⟨h1, rfl⟩ | h1
      · refine ⟨.same rfl rfl, fun _ h => h.elim id (fun h => absurd h1 h), nofun⟩
      · exact ⟨⟨rfl, fun n _ => Lev.one h1 n⟩, fun _ _ => h1, nofun⟩
    · cases h
  | err l =>
    simp only [cpred] at h
    split at h
    · cases h
    · rename_i pos hpos
      have ho := inputPosition_offset hpos
      split at h
      · rename_i e he
        simp only [Except.ok.injEq, Prod.mk.injEq] at h
        obtain ⟨-, rfl, -⟩ := h
        obtain ⟨h1, h2⟩ := note_labels he
        have key : Lev 0 q → e.errors ≠ [] ∨ e.labels ≠ [] := by
          intro h
          rcases h2 with ⟨rfl, h2 | h2⟩ | h2
          · rcases h with h | h
            · exact h
            · omega
          · exact .inl h2
          · exact .inr h2
        refine ⟨⟨rfl, fun n h => ?_⟩, nofun, fun _ _ h => key h⟩
        match n, h with
        | 0, h => exact .inl (key h)
        | 1, h => exact key (Lev.zero h)
        | n + 2, h => exact fun e => h (h1 ▸ e)
      · cases h
  | precPush =>
    simp only [cpred] at h
    split at h
    · cases h
    · cases h; exact ⟨.same rfl rfl, nofun, nofun⟩
  | precChk =>
    simp only [cpred] at h
    split at h
    · cases h
    · cases h; exact ⟨.same rfl rfl, nofun, nofun⟩
  | _ => cases h; exact ⟨.same rfl rfl, nofun, nofun⟩

theorem Grow.refl (q : CState) : Grow q q := ⟨rfl, fun _ h => h⟩
theorem Grow.trans {a b c : CState} (h1 : Grow a b) (h2 : Grow b c) : Grow a c :=
  ⟨h2.1.trans h1.1, fun n h => h2.2 n (h1.2 n h)⟩

theorem eval_grow {S : Source σ} {e : E} {s : St Act (Reader σ × CState)} {r : Res Act (Reader σ × CState)}
    (h : Eval grammar (chost S) e s r) : ∀ s1, (r = .ok s1 ∨ r = .fail s1) → Grow s.g.2 s1.g.2 := by
  have key := h.keeps (K := fun g g' : Reader σ × CState => Grow g.2 g'.2) (okP := fun _ => true) (okA := fun _ => true) (okR := fun _ => true)
    (fun g => Grow.refl g.2) (fun (a b c : Reader σ × CState) h1 h2 => Grow.trans (b := b.2) h1 h2) (fun p g => Grow.refl g.2)
    (fun x _ p g b g' ts hp => ⟨(cpred_grow (chost_pred hp).1).1, fun _ _ _ => rfl⟩)
    (fun r _ => by
      have : ∀ e : E, onlyE (fun _ => true) (fun _ => true) (fun _ => true) e = true := by
        intro e; induction e <;> simp_all [onlyE]
      exact this _)
    (by
      have : ∀ e : E, onlyE (fun _ => true) (fun _ => true) (fun _ => true) e = true := by
        intro e; induction e <;> simp_all [onlyE]
      exact this _)
  rintro s1 (rfl | rfl)
  · exact key.1
  · exact key.1

/-- Where these fail, something was expected. -/
def failT : Rule → Bool
  | .r_SEMICOLON | .r___directive | .r___statement => true
  | _ => false
def fails : E → Bool
  | .onfail _ (.err _) => true
  | .alt a b => fails a || fails b
  | .seq a (.act _) => fails a
  | .nt r _ => failT r
  | _ => false
theorem failT_ok : ∀ r, failT r = true → fails (grammar r).body = true := by
  intro r; cases r <;> first | (intro h; cases h; done) | (intro _; decide +kernel)

theorem fails_sound {S : Source σ} {e : E} {s : St Act (Reader σ × CState)} {r : Res Act (Reader σ × CState)}
    (h : Eval grammar (chost S) e s r) : fails e = true → Lev 0 s.g.2 → ∀ s1, r = .fail s1 → Lev 1 s1.g.2 := by
  induction h with
  | @nt_no r var s s1 _ ih =>
    rintro hf h0 _ ⟨⟩
    exact ih (failT_ok r hf) (by simpa using h0) s1 rfl
  | @seq_no a b s s1 _ ih =>
    rintro hf h0 _ ⟨⟩
    cases b with
    | act x => exact ih hf h0 _ rfl
    | _ => cases hf
  | @seq_ok a b s s1 r _ h2 _ _ =>
    rintro hf h0 _ ⟨⟩
    cases b with
    | act x => cases h2
    | _ => cases hf
  | @alt_no a b s s1 r h1 h2 ih1 ih2 =>
    rintro hf h0 s2 rfl
    simp only [fails, Bool.or_eq_true] at hf
    rcases hf with hf | hf
    · have := ih1 hf h0 _ rfl
      exact (eval_grow h2 _ (.inr rfl)).2 1 this
    · exact ih2 hf ((eval_grow h1 _ (.inr rfl)).2 0 h0) _ rfl
  | @onfail_no a p s s1 b g' ts h1 hp _ =>
    rintro hf h0 _ ⟨⟩
    cases p with
    | err l => exact (cpred_grow (chost_pred hp).1).2.2 l rfl ((eval_grow h1 _ (.inr rfl)).2 0 h0)
    | _ => cases hf
  | _ => first | (rintro hf - _ ⟨⟩; cases hf; done) | (rintro - - _ h; cases h; done)

/-- Text is skipped only with an error. -/
def isErr : E → Bool
  | .nt .r__error_ _ => true
  | _ => false
def owns (T : Rule → Bool) : Nat → E → Bool
  | n, .act (.build _ c _) => c != .skip || 2 ≤ n
  | n, .nt r _ => T r || 2 ≤ n
  | n, .seq a b => owns T n a && owns T (if isErr a && 1 ≤ n then 2 else n) b
  | n, .alt a b => owns T n a && owns T (if fails a && n == 0 then 1 else n) b
  | n, .star a | n, .onfail a _ => owns T n a
  | _, _ => true
def ownT : Rule → Bool
  | .r___entry_points | .r_skip_to_directive | .r_skip_to_statement | .r_skip_to_clause => false
  | _ => true
theorem ownT_ok : ∀ r, ownT r = true → owns ownT 0 (grammar r).body = true := by
  intro r; cases r <;> first | (intro h; cases h; done) | (intro _; decide +kernel)

/-- Nothing skipped was recorded. -/
def Kept (ts : List (Peg.Thunk Act)) : Prop := ∀ d args i, .act (.build d .skip args) i ∉ ts
theorem Kept.append {a b : List (Peg.Thunk Act)} (ha : Kept a) (hb : Kept b) : Kept (a ++ b) := by
  intro d args i hm
  rcases List.mem_append.1 hm with h | h
  · exact ha d args i h
  · exact hb d args i h

theorem cpred_kept {x : Pred} {p : Nat} {r : Reader σ} {q q' : CState} {b : Bool} {ts : List (Peg.Thunk Act)}
    (h : cpred x p r q = .ok (b, q', ts)) : Kept ts := by
  intro d args i hm
  have key : ts = [] ∨ ∃ a j, ts = [.act a j] ∧ ∀ d c args, a ≠ .build d c args := by
    cases x <;> simp only [cpred] at h
    all_goals first
      | (cases h; exact .inl rfl)
      | (cases h; exact .inr ⟨_, _, rfl, nofun⟩)
      | (split at h <;> first
          | (cases h; done)
          | (cases h; exact .inl rfl)
          | (split at h <;> first | (cases h; done) | (cases h; exact .inl rfl)))
  rcases key with rfl | ⟨a, j, rfl, ha⟩
  · cases hm
  · simp only [List.mem_singleton] at hm
    cases hm; exact ha _ _ _ rfl

theorem owns_sound {S : Source σ} {e : E} {s : St Act (Reader σ × CState)} {r : Res Act (Reader σ × CState)}
    (h : Eval grammar (chost S) e s r) : ∀ n, owns ownT n e = true → Lev n s.g.2 → ∀ s1, r = .ok s1 →
    s1.g.2.errs.errors ≠ [] ∨ (Kept s.thunks → Kept s1.thunks) := by
  have two : ∀ {n : Nat} {q : CState}, 2 ≤ n → Lev n q → q.errs.errors ≠ [] := by
    intro n q hn h
    match n, hn, h with
    | n + 2, _, h => exact h
  induction h with
  | eps => rintro n - - _ ⟨⟩; exact .inr id
  | one_ok => rintro n - - _ ⟨⟩; exact .inr id
  | str_ok => rintro n - - _ ⟨⟩; exact .inr id
  | @nt_ok r var s s1 h ih =>
    rintro n hk hl _ ⟨⟩
    simp only [owns, Bool.or_eq_true, decide_eq_true_eq] at hk
    rcases hk with hk | hk
    · rcases ih 0 (ownT_ok r hk) (by simpa using hl.zero) _ rfl with h | h
      · exact .inl (by simpa using h)
      · right
        intro h0
        have h1 : Kept s1.thunks := h (by
          unfold St.enter; split
          · exact h0
          · intro d args i hm; simp only [List.mem_cons] at hm
            rcases hm with hm | hm
            · cases hm
            · exact h0 d args i hm)
        intro d args i hm
        unfold St.leave at hm
        cases var with
        | none =>
          simp only at hm
          split at hm
          · exact h1 d args i hm
          · simp only [List.mem_cons] at hm
            rcases hm with hm | hm
            · cases hm
            · exact h1 d args i hm
        | some v =>
          simp only [List.mem_cons] at hm
          rcases hm with hm | hm
          · cases hm
          split at hm
          · exact h1 d args i hm
          · simp only [List.mem_cons] at hm
            rcases hm with hm | hm
            · cases hm
            · exact h1 d args i hm
    · left
      have h2 : Lev 2 s.g.2 := two hk hl
      have : Lev 2 s1.g.2 := (eval_grow h _ (.inl rfl)).2 2 (by simpa using h2)
      have e : (s1.leave (grammar r).nvars var).g = s1.g := by simp
      rw [e]; exact this
  | @seq_ok a b s s1 r h1 h2 ih1 ih2 =>
    rintro n hk hl s2 rfl
    unfold owns at hk
    obtain ⟨hk1, hk2⟩ := Bool.and_eq_true_iff.1 hk
    have g1 := eval_grow h1 _ (.inl rfl)
    have g2 := eval_grow h2 _ (.inl rfl)
    have hm : Lev (if isErr a && 1 ≤ n then 2 else n) s1.g.2 := by
      split
      · rename_i hc
        simp only [Bool.and_eq_true, decide_eq_true_eq] at hc
        obtain ⟨hc, hn⟩ := hc
        have hl1 : Lev 1 s.g.2 := by
          match n, hn, hl with
          | 1, _, h => exact h
          | n + 2, _, h => exact .inl h
        unfold isErr at hc
        split at hc
        · cases h1 with
          | nt_ok h =>
            cases (h : Eval grammar (chost S) (.pred .recordError) _ _) with
            | pred_ok hp =>
              have := (cpred_grow (chost_pred hp).1).2.1 rfl (by simpa using hl1)
              simpa using this
        · cases hc
      · exact g1.2 n hl
    rcases ih1 n hk1 hl _ rfl with h | h
    · exact .inl (g2.2 2 h)
    · rcases ih2 _ hk2 hm _ rfl with h' | h'
      · exact .inl h'
      · exact .inr fun h0 => h' (h h0)
  | alt_ok _ ih =>
    intro n hk hl
    simp only [owns, Bool.and_eq_true] at hk
    exact ih n hk.1 hl
  | @alt_no a b s s1 r h1 _ _ ih2 =>
    intro n hk hl
    unfold owns at hk
    refine ih2 _ (Bool.and_eq_true_iff.1 hk).2 ?_
    split
    · rename_i hc
      replace hc := Bool.and_eq_true_iff.1 hc
      exact fails_sound h1 hc.1 hl.zero s1 rfl
    · exact (eval_grow h1 _ (.inr rfl)).2 n hl
  | @star_more a s s1 r h1 h2 ih1 ih2 =>
    rintro n hk hl s2 rfl
    rcases ih1 n hk hl _ rfl with h | h
    · exact .inl ((eval_grow h2 _ (.inl rfl)).2 2 h)
    · rcases ih2 n hk ((eval_grow h1 _ (.inl rfl)).2 n hl) _ rfl with h' | h'
      · exact .inl h'
      · exact .inr fun h0 => h' (h h0)
  | star_end => rintro n - - _ ⟨⟩; exact .inr id
  | peek_ok => rintro n - - _ ⟨⟩; exact .inr id
  | npeek_no => rintro n - - _ ⟨⟩; exact .inr id
  | @pred_ok x s g' ts hp =>
    rintro n - - _ ⟨⟩
    refine .inr fun h0 => Kept.append (fun d args i hm => ?_) h0
    exact cpred_kept (chost_pred hp).1 d args i hm
  | @act a s =>
    rintro n hk hl _ ⟨⟩
    by_cases hn : 2 ≤ n
    · exact .inl (two hn hl)
    · refine .inr fun h0 d args i hm => ?_
      simp only [List.mem_cons] at hm
      rcases hm with hm | hm
      · cases hm
        simp [owns, hn] at hk
      · exact h0 d args i hm
  | onfail_ok _ ih => exact ih
  | _ => intros; rename_i h; cases h

/-! ## Nodes of skipped text -/

/-- No part of the tree is an error node. -/
abbrev Sound (n : Node) : Prop := Everywhere (fun x => x.ty ≠ .error) n
def Tidy (m : Mach) : Prop := (∀ q, m.prev = some q → ∀ n ∈ q.children, Sound n) ∧ ∀ b ∈ m.blocks, ∀ n ∈ b.children, Sound n
theorem Tidy.same {m m' : Mach} (h : Tidy m) (hb : m'.blocks = m.blocks ∧ m'.prev = m.prev ∧ m'.next = m.next) : Tidy m' := by
  unfold Tidy at *
  rwa [hb.1, hb.2.1]

theorem ctor_error {c : Ctor} (h : c ≠ .skip) : c.ty ≠ .error := by
  cases c <;> first | (exact absurd rfl h) | (intro e; simp [Ctor.ty] at e)

theorem build_tidy {env : Env} {c : Ctor} (hc : c ≠ .skip) {args : List (Option Ref)} {m : Mach} {x : Mach × Ref}
    (h : Mach.build env c args m = .ok x) (hs : Tidy m) : Tidy x.1 := by
  obtain ⟨b', bs', n', f1, f2⟩ := build_ctor h
  obtain ⟨q, b, bs, n, e1, e2, e3, e4, e5, e6, e7, e8⟩ := build_inv h
  have hn : n'.ctor = n.ctor := by
    rw [e6] at f1
    have := congrArg Block.children (List.cons.inj f1).1
    have := congrArg List.getLast? this
    simp at this
    rw [this]
  refine ⟨fun q' hq' => ?_, fun b0 hb0 y hy => ?_⟩
  · rw [e7] at hq'; cases hq'
  · rw [e6] at hb0
    rcases List.mem_cons.1 hb0 with rfl | hb0
    · rcases List.mem_append.1 hy with hy | hy
      · exact hs.2 b (e2 ▸ List.mem_cons_self ..) y hy
      · rw [List.mem_singleton.1 hy]
        refine .mk ?_ fun z hz => hs.1 q e1 z (e4 ▸ hz)
        rw [Node.ty, ← hn, f2]; exact ctor_error hc
    · exact hs.2 b0 (e2 ▸ List.mem_cons_of_mem _ hb0) y hy

theorem act_tidy {env : Env} {a : Act} (ha : ∀ d args, a ≠ .build d .skip args) {p : Nat} {m m' : Mach}
    (h : Mach.act env a p m = .ok m') (hs : Tidy m) : Tidy m' := by
  cases a with
  | eof => cases h; exact hs
  | result v => obtain ⟨r, rfl, -⟩ := result_inv h; exact hs
  | finished => obtain ⟨es, -, rfl⟩ := finished_inv h; exact hs
  | blockStart =>
    have key : ∀ b : Block, b.children = [] → ∀ n ∈ b.children, Sound n := by
      intro b hb n hn; rw [hb] at hn; cases hn
    simp only [Mach.act, Mach.blockStart] at h
    obtain ⟨pos, -, h⟩ := bind_ok h
    split at h
    · split at h
      · cases h
      · cases h
        refine ⟨nofun, fun b hb => ?_⟩
        rcases List.mem_cons.1 hb with rfl | hb
        · exact key _ rfl
        · exact hs.2 b hb
    · cases h
      refine ⟨nofun, fun b hb => ?_⟩
      · rcases List.mem_cons.1 hb with rfl | hb
        · exact key _ rfl
        · exact hs.2 b hb
  | blockEnd =>
    simp only [Mach.act, Mach.blockEnd] at h
    obtain ⟨⟨c, cs⟩, hp, h⟩ := bind_ok h
    cases h
    obtain ⟨b0, b', bs', x, e1, e2, rfl, rfl, e3⟩ := blockPop_inv hp
    refine ⟨fun q hq n hn => ?_, fun b hb => hs.2 b (e1 ▸ List.mem_cons_of_mem _ hb)⟩
    cases hq
    exact hs.2 b0 (e1 ▸ List.mem_cons_self ..) n hn
  | blockReplace =>
    simp only [Mach.act, Mach.blockReplace] at h
    obtain ⟨⟨c, cs⟩, hp, h⟩ := bind_ok h
    cases h
    obtain ⟨b0, b', bs', x, e1, e2, rfl, rfl, e3⟩ := blockPop_inv hp
    have h0 : ∀ n ∈ b0.children, Sound n := hs.2 b0 (e1 ▸ List.mem_cons_self ..)
    have h1 : ∀ b ∈ b' :: bs', ∀ n ∈ b.children, Sound n := fun b hb => hs.2 b (e1 ▸ List.mem_cons_of_mem _ hb)
    refine ⟨fun q hq n hn => ?_, fun b hb n hn => ?_⟩
    · cases hq
      simp at hn
      first
        | exact h0 n hn
        | exact hn.elim (h1 b' (List.mem_cons_self ..) n) (h0 n)
    · rcases List.mem_cons.1 hb with rfl | hb
      · cases hn
      · exact h1 b hb n hn
  | blockMerge =>
    simp only [Mach.act, Mach.blockMerge] at h
    obtain ⟨⟨c, cs⟩, hp, h⟩ := bind_ok h
    obtain ⟨b0, b', bs', x, e1, e2, rfl, rfl, e3⟩ := blockPop_inv hp
    have h0 : ∀ n ∈ b0.children, Sound n := hs.2 b0 (e1 ▸ List.mem_cons_self ..)
    have h1 : ∀ b ∈ b' :: bs', ∀ n ∈ b.children, Sound n := fun b hb => hs.2 b (e1 ▸ List.mem_cons_of_mem _ hb)
    simp only at h
    split at h
    · cases h
      refine ⟨fun q hq n hn => ?_, fun b hb n hn => ?_⟩
      · cases hq; exact h0 n hn
      · exact h1 b hb n hn
    · cases h
      refine ⟨fun q hq n hn => ?_, fun b hb n hn => ?_⟩
      · cases hq
        cases hn
      rcases List.mem_cons.1 hb with rfl | hb
      · rcases List.mem_append.1 hn with hn | hn
        · exact h1 b' (List.mem_cons_self ..) n hn
        · exact h0 n hn
      · exact h1 b (List.mem_cons_of_mem _ hb) n hn
  | seqAdd vs =>
    obtain ⟨g1, g2, g3⟩ := seqAdds_blocks h
    rcases g3 with g3 | ⟨b', bs', s, g3, g4⟩
    · exact hs.same ⟨g3, g1, g2⟩
    · unfold Tidy at *
      rw [g3] at hs
      rw [g1, g4]
      refine ⟨hs.1, fun b hb => ?_⟩
      rcases List.mem_cons.1 hb with rfl | hb
      · exact fun n hn => hs.2 _ (List.mem_cons_self ..) n hn
      · exact hs.2 b (List.mem_cons_of_mem _ hb)
  | copy i =>
    simp only [Mach.act] at h
    obtain ⟨v, -, h⟩ := bind_ok h
    cases h; exact hs
  | null => cases h; exact hs
  | build d c args =>
    simp only [Mach.act] at h
    obtain ⟨vs, -, h⟩ := bind_ok h
    obtain ⟨x, h1, h⟩ := bind_ok h
    exact (build_tidy (fun e => ha d args (e ▸ rfl)) h1 hs).same (assign_blocks h)
  | aliasUnless e i =>
    simp only [Mach.act] at h
    obtain ⟨v, -, h⟩ := bind_ok h
    split at h
    · split at h
      · cases h; exact hs
      · obtain ⟨x, h1, h⟩ := bind_ok h
        exact (build_tidy (c := .blockIdentifier) nofun h1 hs).same (setVar_blocks h)
    · obtain ⟨x, h1, h⟩ := bind_ok h
      exact (build_tidy (c := .blockIdentifier) nofun h1 hs).same (setVar_blocks h)
  | sbReset => cases h; exact hs
  | sbAppend c => cases h; exact hs
  | sbAppendBlock =>
    simp only [Mach.act] at h
    split at h
    · cases h
    · obtain ⟨t, -, h⟩ := bind_ok h
      cases h; exact hs
  | opPush o => cases h; exact hs

theorem exec_tidy {env : Env} {m0 : Mach} (hs : Tidy m0) :
    ∀ {ts : List (Peg.Thunk Act)} {m : Mach}, Mach.exec env ts m0 = .ok m → Kept ts → Tidy m
  | [], m, h, _ => by cases h; exact hs
  | t :: ts, m, h, hk => by
    unfold Mach.exec at h
    obtain ⟨m1, h1, h⟩ := bind_ok h
    have key := exec_tidy hs h1 fun d args i hm => hk d args i (List.mem_cons_of_mem _ hm)
    cases t with
    | push n => cases h; exact key
    | pop n =>
      simp only [Mach.step] at h
      split at h
      · cases h
      · cases h; exact key
    | set i => exact key.same (setVar_blocks h)
    | act a p => exact act_tidy (fun d args e => hk d args p (e ▸ List.mem_cons_self ..)) h key

theorem contexts_nil {env : Env} {es fs : List PErr} (h : Mach.contexts env es = .ok fs) (hn : es ≠ []) : fs ≠ [] := by
  cases es with
  | nil => exact absurd rfl hn
  | cons e es =>
    unfold Mach.contexts at h
    split at h
    · cases h; simp
    · split at h
      · cases h
      · split at h
        · obtain ⟨fs', -, h⟩ := bind_ok h
          cases h; simp
        · cases h

theorem exec_reports {env : Env} {m0 : Mach} (hn : m0.errs ≠ []) :
    ∀ {ts : List (Peg.Thunk Act)} {m : Mach}, Mach.exec env ts m0 = .ok m → m.errs ≠ []
  | [], m, h => by cases h; exact hn
  | t :: ts, m, h => by
    unfold Mach.exec at h
    obtain ⟨m1, h1, h⟩ := bind_ok h
    have ih := exec_reports hn h1
    rcases thunk_cases t with ⟨p, rfl⟩ | ⟨v, p, rfl⟩ | ⟨p, rfl⟩ | ⟨g1, g2, g3⟩
    · cases h; exact ih
    · obtain ⟨r, rfl, -⟩ := result_inv h; exact ih
    · obtain ⟨es, h2, rfl⟩ := finished_inv (p := p) h
      simpa using contexts_nil h2 (by simpa using ih)
    · rw [(step_same h g1 g2 g3).errs]; exact ih

/-- If nothing of an earlier call hides what is expected, what is skipped is reported. -/
theorem parseOne_reports {S : Source σ} {fuel : Nat} {only : Bool} {c c' : PCtx σ} (h : parseOne S fuel (startRule only) c = some (.ok c'))
    (hl : c.st.errs.lastPosition.offset ≤ c.st.off.offset) (ht : Tidy c.mach) :
    c'.st.errs.errors ≠ [] ∨ ∀ b ∈ c'.mach.blocks, ∀ n ∈ b.children, Sound n := by
  unfold parseOne at h
  split at h
  · cases h
  · cases h
  · cases h
  · rename_i s hs
    have hev := Eval.of_run _ _ _ _ hs
    have h1 := owns_sound hev 0 (by cases only <;> decide +kernel) (.inr hl) s rfl
    have h := Option.some.inj h
    unfold finishOne at h
    split at h
    · cases h
    · rename_i m hm
      split at h
      · split at h
        · cases h
          rcases h1 with h1 | h1
          · exact .inl (exec_reports (m0 := { c.mach with result := none, eof := false, frames := [], errs := s.g.2.errs.errors }) h1 hm)
          · exact .inr (exec_tidy (m0 := { c.mach with result := none, eof := false, frames := [], errs := s.g.2.errs.errors }) ht hm
              (h1 nofun)).2
        · cases h
      · cases h

end Verif.Cypher.Scan
