import Verif.Peg.Called
import Verif.Peg.Sim
/-!
# Generated parsers: two runs side by side

`Eval.twin`: two hosts that read texts which no terminal of the grammar can tell apart, and whose
predicates answer alike in related states, evaluate alike. Unlike in `Eval.sim` the texts may differ,
and what is known about the calls of predicates (`Called`) may be used to relate their answers.
-/
namespace Verif.Peg
variable {R P A γ γ₁ γ₂ : Type}

/-- Comparing with the literal goes the same way in both texts. -/
def StrSame (w₁ w₂ : List UInt8) : List UInt8 → Nat → Prop
  | [], _ => True
  | c :: cs, p => (w₁[p]? = some c ↔ w₂[p]? = some c) ∧ (w₁[p]? = some c → StrSame w₁ w₂ cs (p + 1))

/-- No terminal of the expression tells the two texts apart. -/
def Same (w₁ w₂ : List UInt8) : Expr R P A → Prop
  | .one m => ∀ p : Nat, (w₁[p]?).map m.mem = (w₂[p]?).map m.mem
  | .str l => ∀ p : Nat, StrSame w₁ w₂ l p
  | .seq a b | .alt a b => Same w₁ w₂ a ∧ Same w₁ w₂ b
  | .star a | .peek a | .npeek a | .onfail a _ => Same w₁ w₂ a
  | .eps | .nt _ _ | .pred _ | .act _ => True

theorem StrSame.refl (w : List UInt8) : ∀ (l : List UInt8) (p : Nat), StrSame w w l p
  | [], _ => trivial
  | _ :: cs, p => ⟨Iff.rfl, fun _ => StrSame.refl w cs (p + 1)⟩

theorem Same.refl (w : List UInt8) (e : Expr R P A) : Same w w e := by
  induction e with
  | str l => exact fun p => StrSame.refl w l p
  | _ => simp_all [Same]

structure Twin (H₁ : Host P A γ₁) (H₂ : Host P A γ₂) (w₁ w₂ : List UInt8)
    (Rel : Nat → γ₁ → γ₂ → Prop) (Q₁ : P → Nat → γ₁ → Prop) (Q₂ : P → Nat → γ₂ → Prop) : Prop where
  len : w₁.length = w₂.length
  val₁ : ∀ {p g₁ g₂}, Rel p g₁ g₂ → (H₁.peek p g₁).1 = w₁[p]?
  val₂ : ∀ {p g₁ g₂}, Rel p g₁ g₂ → (H₂.peek p g₂).1 = w₂[p]?
  keep : ∀ {p g₁ g₂}, Rel p g₁ g₂ → Rel p (H₁.peek p g₁).2 (H₂.peek p g₂).2
  next : ∀ {p g₁ g₂}, Rel p g₁ g₂ → p < w₁.length → Rel (p + 1) (H₁.peek p g₁).2 (H₂.peek p g₂).2
  down : ∀ {p q g₁ g₂}, Rel p g₁ g₂ → q ≤ p → Rel q g₁ g₂
  pred : ∀ {x p g₁ g₂}, Rel p g₁ g₂ → Q₁ x p g₁ → Q₂ x p g₂ →
    match H₁.pred x p g₁, H₂.pred x p g₂ with
    | .ok (b₁, g₁', t₁), .ok (b₂, g₂', t₂) => b₁ = b₂ ∧ t₁ = t₂ ∧ Rel p g₁' g₂'
    | .error f₁, .error f₂ => f₁ = f₂
    | _, _ => False

theorem matchStr_twin {H₁ : Host P A γ₁} {H₂ : Host P A γ₂} {w₁ w₂ : List UInt8}
    {Rel : Nat → γ₁ → γ₂ → Prop} {Q₁ : P → Nat → γ₁ → Prop} {Q₂ : P → Nat → γ₂ → Prop}
    (hs : Twin H₁ H₂ w₁ w₂ Rel Q₁ Q₂) {start : Nat} : ∀ (l : List UInt8) (p : Nat) (g₁ : γ₁) (g₂ : γ₂),
    start ≤ p → Rel p g₁ g₂ → StrSame w₁ w₂ l p →
    ∀ {b q g₁'}, matchStr H₁ start l p g₁ = (b, q, g₁') →
    ∃ g₂', matchStr H₂ start l p g₂ = (b, q, g₂') ∧ Rel q g₁' g₂' ∧ start ≤ q := by
  intro l
  induction l with
  | nil =>
    intro p g₁ g₂ hp hr _ b q g₁' h
    simp only [matchStr, Prod.mk.injEq] at h
    obtain ⟨rfl, rfl, rfl⟩ := h
    exact ⟨g₂, rfl, hr, hp⟩
  | cons c cs ih =>
    intro p g₁ g₂ hp hr he b q g₁' h
    have v1 := hs.val₁ hr
    have v2 := hs.val₂ hr
    have hk := hs.keep hr
    have hn := hs.next hr
    have hlen := hs.len
    simp only [matchStr] at h ⊢
    rcases hp1 : H₁.peek p g₁ with ⟨o, g1'⟩
    rcases hp2 : H₂.peek p g₂ with ⟨o2, g2'⟩
    rw [hp1] at h
    rw [hp1, hp2] at hk hn
    rw [hp1] at v1
    rw [hp2] at v2
    simp only at v1 v2 hk hn
    subst v1 v2
    obtain ⟨he1, he2⟩ := he
    rcases Nat.lt_or_ge p w₁.length with hlt | hge
    · rw [List.getElem?_eq_getElem hlt] at h he1 he2
      rw [List.getElem?_eq_getElem (hlen ▸ hlt)] at he1 ⊢
      simp only [Option.some.injEq] at h he1 he2 ⊢
      split at h
      · rename_i hd
        rw [if_pos (he1.1 hd)]
        exact ih (p + 1) g1' g2' (by omega) (hn hlt) (he2 hd) h
      · rename_i hd
        rw [if_neg (fun h => hd (he1.2 h))]
        simp only [Prod.mk.injEq] at h ⊢
        obtain ⟨rfl, rfl, rfl⟩ := h
        exact ⟨g2', ⟨rfl, rfl, rfl⟩, hs.down hk hp, Nat.le_refl _⟩
    · rw [List.getElem?_eq_none hge] at h
      rw [List.getElem?_eq_none (by omega)]
      simp only [Prod.mk.injEq] at h ⊢
      obtain ⟨rfl, rfl, rfl⟩ := h
      exact ⟨g2', ⟨rfl, rfl, rfl⟩, hk, hp⟩

/-- Related states evaluate alike. -/
theorem Eval.twin {G : R → RuleDef R P A} {H₁ : Host P A γ₁} {H₂ : Host P A γ₂}
    {w₁ w₂ : List UInt8} {Rel : Nat → γ₁ → γ₂ → Prop} {Q₁ : P → Nat → γ₁ → Prop}
    {Q₂ : P → Nat → γ₂ → Prop} (hs : Twin H₁ H₂ w₁ w₂ Rel Q₁ Q₂)
    (hG : ∀ r, Same w₁ w₂ (G r).body) {e : Expr R P A} {s₁ : St A γ₁}
    {r₁ : Res A γ₁} (h : Eval G H₁ e s₁ r₁) :
    ∀ {s₂ : St A γ₂}, Same w₁ w₂ e → s₁.pos = s₂.pos → Rel s₁.pos s₁.g s₂.g →
    (∀ x p g, Called G H₁ e s₁ x p g → Q₁ x p g) → (∀ x p g, Called G H₂ e s₂ x p g → Q₂ x p g) →
    ∃ r₂, Eval G H₂ e s₂ r₂ ∧ ResRel Rel s₁.pos s₁.thunks s₂.thunks r₁ r₂ := by
  induction h with
  | @eps s =>
    rintro ⟨p, t, g⟩ hsm rfl hr c1 c2
    exact ⟨_, .eps, ResRel.ok (t := []) (Nat.le_refl _) hr⟩
  | @one_end m s g' hp =>
    rintro ⟨p, t, g⟩ hsm rfl hr c1 c2
    have v1 := hs.val₁ hr
    have v2 := hs.val₂ hr
    have h2 := hs.keep hr
    have hsm := hsm s.pos
    rcases hp2 : H₂.peek s.pos g with ⟨o, g2⟩
    rw [hp, hp2] at h2
    rw [hp] at v1
    rw [hp2] at v2
    simp only at v1 v2 h2
    subst v2
    rw [← v1] at hsm
    cases ho : w₂[s.pos]? with
    | some d => rw [ho] at hsm; simp at hsm
    | none =>
      rw [ho] at hp2
      exact ⟨_, .one_end hp2, ResRel.fail (t := []) (Nat.le_refl _) h2⟩
  | @one_no m s c g' hp hm =>
    rintro ⟨p, t, g⟩ hsm rfl hr c1 c2
    have v1 := hs.val₁ hr
    have v2 := hs.val₂ hr
    have h2 := hs.keep hr
    have hsm := hsm s.pos
    rcases hp2 : H₂.peek s.pos g with ⟨o, g2⟩
    rw [hp, hp2] at h2
    rw [hp] at v1
    rw [hp2] at v2
    simp only at v1 v2 h2
    subst v2
    rw [← v1] at hsm
    cases ho : w₂[s.pos]? with
    | none => rw [ho] at hsm; simp at hsm
    | some d =>
      rw [ho] at hp2 hsm
      simp only [Option.map_some, Option.some.injEq] at hsm
      exact ⟨_, .one_no hp2 (by rw [← hsm]; exact hm), ResRel.fail (t := []) (Nat.le_refl _) h2⟩
  | @one_ok m s c g' hp hm =>
    rintro ⟨p, t, g⟩ hsm rfl hr c1 c2
    have v1 := hs.val₁ hr
    have v2 := hs.val₂ hr
    have h2 := hs.next hr
    have hsm := hsm s.pos
    rcases hp2 : H₂.peek s.pos g with ⟨o, g2⟩
    rw [hp, hp2] at h2
    rw [hp] at v1
    rw [hp2] at v2
    simp only at v1 v2 h2
    subst v2
    rw [← v1] at hsm
    cases ho : w₂[s.pos]? with
    | none => rw [ho] at hsm; simp at hsm
    | some d =>
      rw [ho] at hp2 hsm
      simp only [Option.map_some, Option.some.injEq] at hsm
      have hlt : s.pos < w₁.length := by
        obtain ⟨h, -⟩ := List.getElem?_eq_some_iff.1 v1.symm
        exact h
      exact ⟨_, .one_ok hp2 (by rw [← hsm]; exact hm), ResRel.ok (t := []) (Nat.le_succ _) (h2 hlt)⟩
  | @str_ok l s p g' h =>
    rintro ⟨p2, t, g⟩ hsm rfl hr c1 c2
    obtain ⟨g2, h1, h2, h3⟩ := matchStr_twin hs l _ _ g (Nat.le_refl _) hr (hsm _) h
    exact ⟨_, .str_ok h1, ResRel.ok (t := []) h3 h2⟩
  | @str_no l s p g' h =>
    rintro ⟨p2, t, g⟩ hsm rfl hr c1 c2
    obtain ⟨g2, h1, h2, h3⟩ := matchStr_twin hs l _ _ g (Nat.le_refl _) hr (hsm _) h
    exact ⟨_, .str_no h1, ResRel.fail (t := []) h3 h2⟩
  | @nt_ok r var s s1 _ ih =>
    obtain ⟨sp, st, sg⟩ := s
    rintro ⟨p, t, g⟩ hsm rfl hr c1 c2
    simp only [St.enter_eq] at ih
    obtain ⟨r2, e2, hrr⟩ := ih (s₂ := ⟨sp, enterT (G r).nvars ++ t, g⟩) (hG r) rfl hr
      (fun x p g h => c1 x p g (.nt (by rw [St.enter_eq]; exact h)))
      (fun x p g h => c2 x p g (.nt (by rw [St.enter_eq]; exact h)))
    cases hrr with
    | @ok q tt g1 g2 hq hrel =>
      refine ⟨_, .nt_ok (by rw [St.enter_eq]; exact e2), ?_⟩
      rw [St.leave_eq, St.leave_eq]
      simp only [← List.append_assoc]
      exact ResRel.ok hq hrel
  | @nt_no r var s s1 _ ih =>
    obtain ⟨sp, st, sg⟩ := s
    rintro ⟨p, t, g⟩ hsm rfl hr c1 c2
    simp only [St.enter_eq] at ih
    obtain ⟨r2, e2, hrr⟩ := ih (s₂ := ⟨sp, enterT (G r).nvars ++ t, g⟩) (hG r) rfl hr
      (fun x p g h => c1 x p g (.nt (by rw [St.enter_eq]; exact h)))
      (fun x p g h => c2 x p g (.nt (by rw [St.enter_eq]; exact h)))
    cases hrr with
    | @fail q tt g1 g2 hq hrel =>
      refine ⟨_, .nt_no (by rw [St.enter_eq]; exact e2), ?_⟩
      exact ResRel.fail (t := []) (Nat.le_refl _) (hs.down hrel hq)
  | @nt_fault r var s f _ ih =>
    obtain ⟨sp, st, sg⟩ := s
    rintro ⟨p, t, g⟩ hsm rfl hr c1 c2
    simp only [St.enter_eq] at ih
    obtain ⟨r2, e2, hrr⟩ := ih (s₂ := ⟨sp, enterT (G r).nvars ++ t, g⟩) (hG r) rfl hr
      (fun x p g h => c1 x p g (.nt (by rw [St.enter_eq]; exact h)))
      (fun x p g h => c2 x p g (.nt (by rw [St.enter_eq]; exact h)))
    cases hrr with
    | fault => exact ⟨_, .nt_fault (by rw [St.enter_eq]; exact e2), .fault⟩
  | @seq_ok a b s s1 r h01 _ ih1 ih2 =>
    intro s2 hsm hp hr c1 c2
    obtain ⟨r2, e2, hrr⟩ := ih1 hsm.1 hp hr (fun x p g h => c1 x p g (.seq_l h)) (fun x p g h => c2 x p g (.seq_l h))
    cases hrr with
    | @ok q tt g1 g2 hq hrel =>
      obtain ⟨r3, e3, hrr3⟩ := ih2 (s₂ := ⟨q, tt ++ s2.thunks, g2⟩) hsm.2 rfl hrel
        (fun x p g h => c1 x p g (.seq_r h01 h)) (fun x p g h => c2 x p g (.seq_r e2 h))
      refine ⟨r3, .seq_ok e2 e3, ?_⟩
      cases hrr3 with
      | ok hq2 hrel2 =>
        simp only [← List.append_assoc]; exact .ok (Nat.le_trans hq hq2) hrel2
      | fail hq2 hrel2 =>
        simp only [← List.append_assoc]; exact .fail (Nat.le_trans hq hq2) hrel2
      | fault => exact .fault
  | seq_no _ ih =>
    intro s2 hsm hp hr c1 c2
    obtain ⟨r2, e2, hrr⟩ := ih hsm.1 hp hr (fun x p g h => c1 x p g (.seq_l h)) (fun x p g h => c2 x p g (.seq_l h))
    cases hrr with
    | fail hq hrel => exact ⟨_, .seq_no e2, .fail hq hrel⟩
  | seq_fault _ ih =>
    intro s2 hsm hp hr c1 c2
    obtain ⟨r2, e2, hrr⟩ := ih hsm.1 hp hr (fun x p g h => c1 x p g (.seq_l h)) (fun x p g h => c2 x p g (.seq_l h))
    cases hrr with
    | fault => exact ⟨_, .seq_fault e2, .fault⟩
  | alt_ok _ ih =>
    intro s2 hsm hp hr c1 c2
    obtain ⟨r2, e2, hrr⟩ := ih hsm.1 hp hr (fun x p g h => c1 x p g (.alt_l h)) (fun x p g h => c2 x p g (.alt_l h))
    cases hrr with
    | ok hq hrel => exact ⟨_, .alt_ok e2, .ok hq hrel⟩
  | @alt_no a b s s1 r h01 _ ih1 ih2 =>
    intro s2 hsm hp hr c1 c2
    obtain ⟨r2, e2, hrr⟩ := ih1 hsm.1 hp hr (fun x p g h => c1 x p g (.alt_l h)) (fun x p g h => c2 x p g (.alt_l h))
    cases hrr with
    | @fail q tt g1 g2 hq hrel =>
      obtain ⟨r3, e3, hrr3⟩ := ih2 (s₂ := ⟨s2.pos, s2.thunks, g2⟩) hsm.2 hp
        (hs.down hrel hq) (fun x p g h => c1 x p g (.alt_r h01 h)) (fun x p g h => c2 x p g (.alt_r e2 h))
      exact ⟨r3, .alt_no e2 e3, hrr3⟩
  | alt_fault _ ih =>
    intro s2 hsm hp hr c1 c2
    obtain ⟨r2, e2, hrr⟩ := ih hsm.1 hp hr (fun x p g h => c1 x p g (.alt_l h)) (fun x p g h => c2 x p g (.alt_l h))
    cases hrr with
    | fault => exact ⟨_, .alt_fault e2, .fault⟩
  | @star_more a s s1 r h01 _ ih1 ih2 =>
    intro s2 hsm hp hr c1 c2
    obtain ⟨r2, e2, hrr⟩ := ih1 hsm hp hr (fun x p g h => c1 x p g (.star_l h)) (fun x p g h => c2 x p g (.star_l h))
    cases hrr with
    | @ok q tt g1 g2 hq hrel =>
      obtain ⟨r3, e3, hrr3⟩ := ih2 (s₂ := ⟨q, tt ++ s2.thunks, g2⟩) hsm rfl hrel
        (fun x p g h => c1 x p g (.star_r h01 h)) (fun x p g h => c2 x p g (.star_r e2 h))
      refine ⟨r3, .star_more e2 e3, ?_⟩
      cases hrr3 with
      | ok hq2 hrel2 =>
        simp only [← List.append_assoc]; exact .ok (Nat.le_trans hq hq2) hrel2
      | fail hq2 hrel2 =>
        simp only [← List.append_assoc]; exact .fail (Nat.le_trans hq hq2) hrel2
      | fault => exact .fault
  | @star_end a s s1 _ ih =>
    intro s2 hsm hp hr c1 c2
    obtain ⟨r2, e2, hrr⟩ := ih hsm hp hr (fun x p g h => c1 x p g (.star_l h)) (fun x p g h => c2 x p g (.star_l h))
    cases hrr with
    | fail hq hrel =>
      refine ⟨_, .star_end e2, ?_⟩
      rw [St.restore, St.restore, ← hp]
      exact ResRel.ok (t := []) (Nat.le_refl _) (hs.down hrel hq)
  | star_fault _ ih =>
    intro s2 hsm hp hr c1 c2
    obtain ⟨r2, e2, hrr⟩ := ih hsm hp hr (fun x p g h => c1 x p g (.star_l h)) (fun x p g h => c2 x p g (.star_l h))
    cases hrr with
    | fault => exact ⟨_, .star_fault e2, .fault⟩
  | @peek_ok a s s1 _ ih =>
    intro s2 hsm hp hr c1 c2
    obtain ⟨r2, e2, hrr⟩ := ih hsm hp hr (fun x p g h => c1 x p g (.peek h)) (fun x p g h => c2 x p g (.peek h))
    cases hrr with
    | ok hq hrel =>
      refine ⟨_, .peek_ok e2, ?_⟩
      rw [St.restore, St.restore, ← hp]
      exact ResRel.ok (t := []) (Nat.le_refl _) (hs.down hrel hq)
  | peek_no _ ih =>
    intro s2 hsm hp hr c1 c2
    obtain ⟨r2, e2, hrr⟩ := ih hsm hp hr (fun x p g h => c1 x p g (.peek h)) (fun x p g h => c2 x p g (.peek h))
    cases hrr with
    | fail hq hrel => exact ⟨_, .peek_no e2, .fail hq hrel⟩
  | peek_fault _ ih =>
    intro s2 hsm hp hr c1 c2
    obtain ⟨r2, e2, hrr⟩ := ih hsm hp hr (fun x p g h => c1 x p g (.peek h)) (fun x p g h => c2 x p g (.peek h))
    cases hrr with
    | fault => exact ⟨_, .peek_fault e2, .fault⟩
  | npeek_ok _ ih =>
    intro s2 hsm hp hr c1 c2
    obtain ⟨r2, e2, hrr⟩ := ih hsm hp hr (fun x p g h => c1 x p g (.npeek h)) (fun x p g h => c2 x p g (.npeek h))
    cases hrr with
    | ok hq hrel => exact ⟨_, .npeek_ok e2, .fail hq hrel⟩
  | @npeek_no a s s1 _ ih =>
    intro s2 hsm hp hr c1 c2
    obtain ⟨r2, e2, hrr⟩ := ih hsm hp hr (fun x p g h => c1 x p g (.npeek h)) (fun x p g h => c2 x p g (.npeek h))
    cases hrr with
    | fail hq hrel =>
      refine ⟨_, .npeek_no e2, ?_⟩
      rw [St.restore, St.restore, ← hp]
      exact ResRel.ok (t := []) (Nat.le_refl _) (hs.down hrel hq)
  | npeek_fault _ ih =>
    intro s2 hsm hp hr c1 c2
    obtain ⟨r2, e2, hrr⟩ := ih hsm hp hr (fun x p g h => c1 x p g (.npeek h)) (fun x p g h => c2 x p g (.npeek h))
    cases hrr with
    | fault => exact ⟨_, .npeek_fault e2, .fault⟩
  | @pred_ok p s g' ts h =>
    rintro ⟨p2, t, g⟩ hsm rfl hr c1 c2
    have := hs.pred (x := p) hr (c1 _ _ _ .pred) (c2 _ _ _ .pred)
    rw [h] at this
    rcases h2 : H₂.pred p s.pos g with f | ⟨b, g2, t2⟩ <;> rw [h2] at this
    · exact this.elim
    · obtain ⟨rfl, rfl, h3⟩ := this
      exact ⟨_, .pred_ok h2, .ok (Nat.le_refl _) h3⟩
  | @pred_no p s g' ts h =>
    rintro ⟨p2, t, g⟩ hsm rfl hr c1 c2
    have := hs.pred (x := p) hr (c1 _ _ _ .pred) (c2 _ _ _ .pred)
    rw [h] at this
    rcases h2 : H₂.pred p s.pos g with f | ⟨b, g2, t2⟩ <;> rw [h2] at this
    · exact this.elim
    · obtain ⟨rfl, rfl, h3⟩ := this
      exact ⟨_, .pred_no h2, .fail (Nat.le_refl _) h3⟩
  | @pred_fault p s f h =>
    rintro ⟨p2, t, g⟩ hsm rfl hr c1 c2
    have := hs.pred (x := p) hr (c1 _ _ _ .pred) (c2 _ _ _ .pred)
    rw [h] at this
    rcases h2 : H₂.pred p s.pos g with f | ⟨b, g2, t2⟩ <;> rw [h2] at this
    · cases this; exact ⟨_, .pred_fault h2, .fault⟩
    · exact this.elim
  | @act a s =>
    rintro ⟨p2, t, g⟩ hsm rfl hr c1 c2
    exact ⟨_, .act, ResRel.ok (t := [.act a s.pos]) (Nat.le_refl _) hr⟩
  | onfail_ok _ ih =>
    intro s2 hsm hp hr c1 c2
    obtain ⟨r2, e2, hrr⟩ := ih hsm hp hr (fun x p g h => c1 x p g (.onfail_l h)) (fun x p g h => c2 x p g (.onfail_l h))
    cases hrr with
    | ok hq hrel => exact ⟨_, .onfail_ok e2, .ok hq hrel⟩
  | @onfail_no a p s s1 b g' ts h01 h ih =>
    intro s2 hsm hp hr c1 c2
    obtain ⟨r2, e2, hrr⟩ := ih hsm hp hr (fun x p g h => c1 x p g (.onfail_l h)) (fun x p g h => c2 x p g (.onfail_l h))
    cases hrr with
    | @fail q tt g1 g2 hq hrel =>
      have := hs.pred (x := p) hrel (c1 _ _ _ (.onfail_r h01)) (c2 _ _ _ (.onfail_r e2))
      rw [h] at this
      rcases h2 : H₂.pred p q g2 with f | ⟨b, g3, t2⟩ <;> rw [h2] at this
      · exact this.elim
      · obtain ⟨rfl, rfl, h3⟩ := this
        refine ⟨_, .onfail_no e2 h2, ?_⟩
        simp only [← List.append_assoc]
        exact .fail hq h3
  | @onfail_no_fault a p s s1 f h01 h ih =>
    intro s2 hsm hp hr c1 c2
    obtain ⟨r2, e2, hrr⟩ := ih hsm hp hr (fun x p g h => c1 x p g (.onfail_l h)) (fun x p g h => c2 x p g (.onfail_l h))
    cases hrr with
    | @fail q tt g1 g2 hq hrel =>
      have := hs.pred (x := p) hrel (c1 _ _ _ (.onfail_r h01)) (c2 _ _ _ (.onfail_r e2))
      rw [h] at this
      rcases h2 : H₂.pred p q g2 with f | ⟨b, g3, t2⟩ <;> rw [h2] at this
      · cases this; exact ⟨_, .onfail_no_fault e2 h2, .fault⟩
      · exact this.elim
  | onfail_fault _ ih =>
    intro s2 hsm hp hr c1 c2
    obtain ⟨r2, e2, hrr⟩ := ih hsm hp hr (fun x p g h => c1 x p g (.onfail_l h)) (fun x p g h => c2 x p g (.onfail_l h))
    cases hrr with
    | fault => exact ⟨_, .onfail_fault e2, .fault⟩

end Verif.Peg
