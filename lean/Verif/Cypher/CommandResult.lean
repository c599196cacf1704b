import Verif.Cypher.Commands
/-!
# A client command is made the result

Between the node of a command and its being made the result of the call, only the end of the line is recorded, which may have a
comment: that leaves the value of the rule as it is.
-/
namespace Verif.Cypher.Scan
open Verif.Peg

variable {w : List UInt8}

/-- What leaves the value of the rule as it is. -/
def quiet : Peg.Thunk Act → Bool
  | .act .eof _ | .act .blockStart _ | .act .blockEnd _ | .act .blockReplace _ | .act .blockMerge _ => true
  | .act (.build .discard _ _) _ => true
  | _ => false

theorem build_self {env : Env} {c : Ctor} {args : List (Option Ref)} {m : Mach} {x : Mach × Ref} (h : Mach.build env c args m = .ok x) :
    x.1.self = m.self ∧ x.2.ty = c.ty := by
  have key : ∀ {m1 m2 : Mach} {n : Node}, m1.addChild n = .ok m2 → m1.self = m.self → m2.self = m.self := by
    intro m1 m2 n h e
    unfold Mach.addChild at h
    split at h
    · cases h
    · cases h; exact e
  unfold Mach.build at h
  split at h
  · unfold Mach.terminal at h
    split at h
    · cases h
    · obtain ⟨t, -, h⟩ := bind_ok h
      simp only at h
      split at h
      · cases h
      · obtain ⟨m1, h1, h⟩ := bind_ok h
        cases h
        exact ⟨key h1 rfl, rfl⟩
  · unfold Mach.branch at h
    split at h
    · cases h
    · obtain ⟨os, -, h⟩ := bind_ok h
      simp only at h
      split at h
      · cases h
      · split at h
        · cases h
        · cases h
        · obtain ⟨m1, h1, h⟩ := bind_ok h
          cases h
          exact ⟨key h1 rfl, rfl⟩

theorem step_self {env : Env} {t : Peg.Thunk Act} {m m' : Mach} (hq : quiet t = true) (h : Mach.step env t m = .ok m') :
    m'.self = m.self := by
  cases t with
  | push n => cases hq
  | pop n => cases hq
  | set i => cases hq
  | act a p =>
    simp only [Mach.step] at h
    cases a with
    | eof => cases h; rfl
    | blockStart =>
      simp only [Mach.act, Mach.blockStart] at h
      obtain ⟨pos, -, h⟩ := bind_ok h
      split at h
      · split at h
        · cases h
        · cases h; rfl
      · cases h; rfl
    | blockEnd =>
      simp only [Mach.act, Mach.blockEnd] at h
      obtain ⟨⟨c, cs⟩, -, h⟩ := bind_ok h
      cases h; rfl
    | blockReplace =>
      simp only [Mach.act, Mach.blockReplace] at h
      obtain ⟨⟨c, cs⟩, -, h⟩ := bind_ok h
      cases h; rfl
    | blockMerge =>
      simp only [Mach.act, Mach.blockMerge] at h
      obtain ⟨⟨c, cs⟩, -, h⟩ := bind_ok h
      simp only at h
      split at h
      · cases h; rfl
      · split at h
        · cases h
        · cases h; rfl
    | build d c args =>
      cases d with
      | discard =>
        simp only [Mach.act] at h
        obtain ⟨vs, -, h⟩ := bind_ok h
        obtain ⟨x, h1, h⟩ := bind_ok h
        cases h
        exact (build_self h1).1
      | _ => cases hq
    | _ => cases hq

theorem exec_self {env : Env} {us : List (Peg.Thunk Act)} : ∀ {ts : List (Peg.Thunk Act)} {m m' : Mach}, (∀ t ∈ ts, quiet t = true) →
    Mach.exec env (ts ++ us) m = .ok m' → ∃ m1, Mach.exec env us m = .ok m1 ∧ m'.self = m1.self
  | [], m, m', _, h => ⟨m', h, rfl⟩
  | t :: ts, m, m', hq, h => by
    obtain ⟨m1, h1, h2⟩ := exec_cons h
    obtain ⟨m2, h3, h4⟩ := exec_self (fun t ht => hq t (List.mem_cons_of_mem _ ht)) h1
    exact ⟨m2, h3, (step_self (hq t (List.mem_cons_self ..)) h2).trans h4⟩

/-- What was recorded ends with a node that is made the result. -/
def SetsTo (c : Ctor) (ts : List (Peg.Thunk Act)) : Prop :=
  ∃ p1 p2 p3 n1 n2 args mid rest, ts = .act .finished p1 :: .pop n1 :: .act (.result (some 0)) p2 :: .set 0 :: .pop n2 ::
    (mid ++ .act (.build .self c args) p3 :: rest) ∧ ∀ t ∈ mid, quiet t = true

theorem exec_setsTo {env : Env} {c : Ctor} {ts : List (Peg.Thunk Act)} {m m' : Mach} (h : SetsTo c ts)
    (he : Mach.exec env ts m = .ok m') : ∃ r, m'.result = some r ∧ r.ty = c.ty := by
  obtain ⟨p1, p2, p3, n1, n2, args, mid, rest, rfl, hq⟩ := h
  obtain ⟨m1, he, g1⟩ := exec_cons he
  obtain ⟨m2, he, g2⟩ := exec_cons he
  obtain ⟨m3, he, g3⟩ := exec_cons he
  obtain ⟨m4, he, g4⟩ := exec_cons he
  obtain ⟨m5, he, g5⟩ := exec_cons he
  obtain ⟨m8, he, h6⟩ := exec_self hq he
  obtain ⟨m6, he, g6⟩ := exec_cons he
  obtain ⟨vs, -, g6⟩ := bind_ok g6
  obtain ⟨⟨m7, r⟩, g7, g6⟩ := bind_ok g6
  simp only [Mach.assign] at g6
  cases g6
  have h5 : m4.self = some r := by
    simp only [Mach.step] at g5
    split at g5
    · cases g5
    · cases g5; exact h6
  have h4 : m3.getVar 0 = .ok (some r) := by
    simp only [Mach.step, Mach.setVar, h5] at g4
    split at g4
    · cases g4
    · split at g4
      · rename_i hlt
        cases g4
        simp [Mach.getVar, hlt]
      · cases g4
  have h3 : m2.result = some r := by
    simp only [Mach.step, Mach.act, h4] at g3
    cases g3; rfl
  have h2 : m1.result = some r := by
    simp only [Mach.step] at g2
    split at g2
    · cases g2
    · cases g2; exact h3
  obtain ⟨es, -, g1⟩ := bind_ok g1
  cases g1
  exact ⟨r, h2, (build_self g7).2⟩

theorem Sets.to {ts : List (Peg.Thunk Act)} (h : Sets ts) : SetsTo .statement ts := by
  obtain ⟨p1, p2, p3, n1, n2, args, rest, rfl⟩ := h
  exact ⟨p1, p2, p3, n1, n2, args, [], rest, rfl, nofun⟩

/-! ## The end of the line -/

/-- Nothing recorded but such. -/
def meek (T : Rule → Bool) : E → Bool
  | .seq a b | .alt a b => meek T a && meek T b
  | .star a | .onfail a _ => meek T a
  | .act .eof | .act (.build .discard _ _) => true
  | .act _ => false
  | .nt r none => T r
  | .nt _ (some _) => false
  | _ => true
def meekT : Rule → Bool
  | .r_line_end | .r_line_comment | .r_EOL | .r_EOF | .r__line_start_ | .r_SEMICOLON => true
  | _ => false
theorem meekT_ok : ∀ r, meekT r = true → meek meekT (grammar r).body = true ∧ (grammar r).nvars = 0 := by
  intro r; cases r <;> first | (intro h; cases h; done) | (intro _; decide +kernel)

theorem meek_sound {e : E} {p : Nat} {q : QState} {r : SkRes} (h : Sk w e p q r) : meek meekT e = true →
    ∀ p' ts q', r = .ok p' ts q' → ∀ t ∈ ts, quiet t = true := by
  have app : ∀ {a b : List (Peg.Thunk Act)}, (∀ t ∈ a, quiet t = true) → (∀ t ∈ b, quiet t = true) → ∀ t ∈ a ++ b, quiet t = true := by
    intro a b ha hb t hm
    rcases List.mem_append.1 hm with h | h
    · exact ha t h
    · exact hb t h
  induction h with
  | eps => rintro - _ _ _ ⟨⟩ t h; cases h
  | one_ok => rintro - _ _ _ ⟨⟩ t h; cases h
  | str_ok => rintro - _ _ _ ⟨⟩ t h; cases h
  | star_end => rintro - _ _ _ ⟨⟩ t h; cases h
  | peek_ok => rintro - _ _ _ ⟨⟩ t h; cases h
  | npeek_no => rintro - _ _ _ ⟨⟩ t h; cases h
  | @pred_ok x =>
    rintro - _ _ _ ⟨⟩ t h
    cases x <;> simp only [recT, List.not_mem_nil, List.mem_singleton] at h <;> subst h <;> rfl
  | @nt_ok r v _ _ _ _ _ _ ih =>
    rintro h _ _ _ ⟨⟩
    cases v with
    | some v => cases h
    | none =>
      obtain ⟨h1, h2⟩ := meekT_ok r h
      simp only [setT, leaveT, enterT, h2, List.nil_append]
      simpa using ih h1 _ _ _ rfl
  | seq_ok _ _ ih1 ih2 =>
    rintro h _ _ _ ⟨⟩
    simp only [meek, Bool.and_eq_true] at h
    exact app (ih2 h.2 _ _ _ rfl) (ih1 h.1 _ _ _ rfl)
  | alt_ok _ ih =>
    intro h
    simp only [meek, Bool.and_eq_true] at h
    exact ih h.1
  | alt_no _ _ _ ih =>
    intro h
    simp only [meek, Bool.and_eq_true] at h
    exact ih h.2
  | star_more _ _ ih1 ih2 =>
    rintro h _ _ _ ⟨⟩
    exact app (ih2 h _ _ _ rfl) (ih1 h _ _ _ rfl)
  | @act a =>
    rintro h _ _ _ ⟨⟩ t hm
    rw [List.mem_singleton] at hm
    subst hm
    cases a with
    | eof => rfl
    | build d c args => cases d <;> first | rfl | cases h
    | _ => cases h
  | onfail_ok _ ih => exact ih
  | one_no => rintro - _ _ _ ⟨⟩
  | str_no => rintro - _ _ _ ⟨⟩
  | nt_no => rintro - _ _ _ ⟨⟩
  | seq_no => rintro - _ _ _ ⟨⟩
  | seq_no2 => rintro - _ _ _ ⟨⟩
  | peek_no => rintro - _ _ _ ⟨⟩
  | npeek_ok => rintro - _ _ _ ⟨⟩
  | pred_no => rintro - _ _ _ ⟨⟩
  | onfail_no => rintro - _ _ _ ⟨⟩

theorem command_built {p p' : Nat} {ts : List (Peg.Thunk Act)} (h : Mt w r_client_command p p' ts) :
    ∃ p3 args mid rest, ts = mid ++ .act (.build .self .command args) p3 :: rest ∧ ∀ t ∈ mid, quiet t = true := by
  obtain ⟨q1, us1, vs1, a1, b1, rfl⟩ := h.seq
  obtain ⟨q2, us2, vs2, a2, b2, rfl⟩ := b1.seq
  obtain ⟨q3, us3, vs3, a3, b3, rfl⟩ := b2.seq
  obtain ⟨q4, us4, vs4, a4, b4, rfl⟩ := b3.seq
  obtain ⟨q5, us5, vs5, a5, b5, rfl⟩ := b4.seq
  obtain ⟨q6, us6, vs6, a6, b6, rfl⟩ := b5.seq
  obtain ⟨q7, us7, vs7, a7, b7, rfl⟩ := b6.seq
  obtain ⟨e7, rfl⟩ := a7.act
  obtain ⟨_, _, b7⟩ := b7
  refine ⟨q6, [some 0], vs7, us6 ++ us5 ++ us4 ++ us3 ++ us2 ++ us1, ?_, meek_sound b7 rfl _ _ _ rfl⟩
  simp only [List.append_assoc, List.cons_append, List.nil_append]

end Verif.Cypher.Scan
