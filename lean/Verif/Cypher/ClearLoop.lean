import Verif.Cypher.CommandResult
/-!
# Where the segments of the parser end, for the quick parser

Nodes are not lost, so if no tree has an error node, no text was skipped; and if none has a parameter of the option CYPHER, or is
a client command, none was read.
A client command is one for the quick parser as well.
-/
namespace Verif.Cypher.Scan
open Verif.Peg
open Verif.Quick (live)
open Verif.Stmts (commented_right)

variable {σ : Type}

/-! ## Error nodes stay -/

/-- No part of the tree is an error node, or a parameter of the option CYPHER, or (if there may be any) a client command. -/
abbrev Whole (only : Bool) (n : Node) : Prop :=
  Everywhere (fun x => x.ty ≠ .error ∧ x.ty ≠ .cypherOptionParam ∧ (only = false → x.ty ≠ .command)) n
/-- Builders of such nodes. -/
def spoilt (only : Bool) (c : Ctor) : Prop := spoils c ∧ (only = true → c ≠ .command)
/-- Nor of the trees made so far. -/
def Sane (only : Bool) (m : Mach) : Prop :=
  (∀ q, m.prev = some q → ∀ n ∈ q.children, Whole only n) ∧ ∀ b ∈ m.blocks, ∀ n ∈ b.children, Whole only n

theorem Sane.same {o : Bool} {m m' : Mach} (h : Sane o m') (hb : m'.blocks = m.blocks ∧ m'.prev = m.prev ∧ m'.next = m.next) :
    Sane o m := by
  unfold Sane at *
  rwa [hb.1, hb.2.1] at h

/-- The node that a builder adds is of its kind. -/
theorem build_ctor {env : Env} {c : Ctor} {args : List (Option Ref)} {m : Mach} {x : Mach × Ref} (h : Mach.build env c args m = .ok x) :
    ∃ (b : Block) (bs : List Block) (n : Node), x.1.blocks = { b with children := b.children ++ [n] } :: bs ∧ n.ctor = c := by
  have key : ∀ {m1 m2 : Mach} {n : Node}, m1.addChild n = .ok m2 → n.ctor = c → ∃ (b : Block) (bs : List Block) (n : Node),
      m2.blocks = { b with children := b.children ++ [n] } :: bs ∧ n.ctor = c := by
    intro m1 m2 n h hc
    unfold Mach.addChild at h
    split at h
    · cases h
    · rename_i b bs hb
      cases h; exact ⟨b, bs, n, rfl, hc⟩
  unfold Mach.build at h
  split at h
  · unfold Mach.terminal at h
    split at h
    · cases h
    · obtain ⟨t, -, h⟩ := bind_ok h
      simp only at h
      split at h
      · cases h
      · obtain ⟨m1, h1, h⟩ := bind_ok h
        cases h
        exact key h1 rfl
  · unfold Mach.branch at h
    split at h
    · cases h
    · obtain ⟨os, -, h⟩ := bind_ok h
      simp only at h
      split at h
      · cases h
      · split at h
        · cases h
        · cases h
        · obtain ⟨m1, h1, h⟩ := bind_ok h
          cases h
          exact key h1 rfl

theorem build_sane {o : Bool} {env : Env} {c : Ctor} {args : List (Option Ref)} {m : Mach} {x : Mach × Ref} (h : Mach.build env c args m = .ok x)
    (hs : Sane o x.1) : Sane o m ∧ ¬ spoilt o c := by
  refine ⟨?_, fun e => ?_⟩
  rotate_left
  · obtain ⟨b, bs, n, e1, e2⟩ := build_ctor h
    have := hs.2
    rw [e1] at this
    cases this _ (List.mem_cons_self ..) n (by simp) with
    | mk hk _ =>
      obtain ⟨e | e | e, e'⟩ := e
      · exact hk.1 (by rw [Node.ty, e2, e]; rfl)
      · exact hk.2.1 (by rw [Node.ty, e2, e]; rfl)
      · cases o with
        | true => exact e' rfl e
        | false => exact hk.2.2 rfl (by rw [Node.ty, e2, e]; rfl)
  obtain ⟨q, b, bs, n, e1, e2, e3, e4, e5, e6, e7, e8⟩ := build_inv h
  have h2 := hs.2
  rw [e6] at h2
  have hn : Whole o n := h2 _ (List.mem_cons_self ..) n (by simp)
  refine ⟨fun q' hq' x hx => ?_, fun b' hb' x hx => ?_⟩
  · rw [e1] at hq'
    cases hq'
    cases hn with
    | mk _ h => exact h x (e4 ▸ hx)
  · rw [e2] at hb'
    rcases List.mem_cons.1 hb' with rfl | hb'
    · exact h2 _ (List.mem_cons_self ..) x (by simp [hx])
    · exact h2 _ (List.mem_cons_of_mem _ hb') x hx

theorem act_sane {o : Bool} {env : Env} {a : Act} {p : Nat} {m m' : Mach} (h : Mach.act env a p m = .ok m') (hs : Sane o m') :
    Sane o m ∧ ∀ d c args, spoilt o c → a ≠ .build d c args := by
  cases a with
  | eof => cases h; exact ⟨hs, nofun⟩
  | result v => obtain ⟨r, rfl, -⟩ := result_inv h; exact ⟨hs, nofun⟩
  | finished => obtain ⟨es, -, rfl⟩ := finished_inv h; exact ⟨hs, nofun⟩
  | blockStart =>
    refine ⟨?_, nofun⟩
    simp only [Mach.act, Mach.blockStart] at h
    obtain ⟨pos, -, h⟩ := bind_ok h
    split at h
    · rename_i q hq
      split at h
      · cases h
      · rename_i hc
        cases h
        have hc : q.children = [] := by simpa using hc
        refine ⟨fun q' hq' n hn => ?_, fun b hb => hs.2 b (List.mem_cons_of_mem _ hb)⟩
        rw [hq] at hq'; cases hq'
        rw [hc] at hn; cases hn
    · rename_i hq
      cases h
      refine ⟨fun q' hq' => ?_, fun b hb => hs.2 b (List.mem_cons_of_mem _ hb)⟩
      rw [hq] at hq'; cases hq'
  | blockEnd =>
    refine ⟨?_, nofun⟩
    simp only [Mach.act, Mach.blockEnd] at h
    obtain ⟨⟨c, cs⟩, hp, h⟩ := bind_ok h
    cases h
    obtain ⟨b0, b', bs', x, e1, e2, rfl, rfl, e3⟩ := blockPop_inv hp
    refine ⟨fun q' hq' n hn => ?_, fun b hb => ?_⟩
    · rw [e3 _ hq'] at hn; cases hn
    · rw [e1] at hb
      rcases List.mem_cons.1 hb with rfl | hb
      · exact fun n hn => hs.1 _ rfl n hn
      · exact hs.2 b hb
  | blockReplace =>
    refine ⟨?_, nofun⟩
    simp only [Mach.act, Mach.blockReplace] at h
    obtain ⟨⟨c, cs⟩, hp, h⟩ := bind_ok h
    cases h
    obtain ⟨b0, b', bs', x, e1, e2, rfl, rfl, e3⟩ := blockPop_inv hp
    refine ⟨fun q' hq' n hn => ?_, fun b hb n hn => ?_⟩
    · rw [e3 _ hq'] at hn; cases hn
    · rw [e1] at hb
      rcases List.mem_cons.1 hb with rfl | hb
      · exact hs.1 _ rfl n (by simp [hn])
      · rcases List.mem_cons.1 hb with rfl | hb
        · exact hs.2 b (by simp) n hn
        · exact hs.2 b (by simp [hb]) n hn
  | blockMerge =>
    refine ⟨?_, nofun⟩
    simp only [Mach.act, Mach.blockMerge] at h
    obtain ⟨⟨c, cs⟩, hp, h⟩ := bind_ok h
    obtain ⟨b0, b', bs', x, e1, e2, rfl, rfl, e3⟩ := blockPop_inv hp
    simp only at h
    split at h
    · cases h
      refine ⟨fun q' hq' n hn => ?_, fun b hb n hn => ?_⟩
      · rw [e3 _ hq'] at hn; cases hn
      · rw [e1] at hb
        rcases List.mem_cons.1 hb with rfl | hb
        · exact hs.1 _ rfl n hn
        · rcases List.mem_cons.1 hb with rfl | hb
          · exact hs.2 _ (List.mem_cons_self ..) n (by simp [hn])
          · exact hs.2 b (by simp [hb]) n hn
    · cases h
      refine ⟨fun q' hq' n hn => ?_, fun b hb n hn => ?_⟩
      · rw [e3 _ hq'] at hn; cases hn
      · rw [e1] at hb
        rcases List.mem_cons.1 hb with rfl | hb
        · exact hs.2 _ (List.mem_cons_self ..) n (List.mem_append_right _ hn)
        · rcases List.mem_cons.1 hb with rfl | hb
          · exact hs.2 _ (List.mem_cons_self ..) n (by simp [hn])
          · exact hs.2 b (by simp [hb]) n hn
  | seqAdd vs =>
    refine ⟨?_, nofun⟩
    obtain ⟨g1, g2, g3⟩ := seqAdds_blocks h
    rcases g3 with g3 | ⟨b', bs', s, g3, g4⟩
    · exact hs.same ⟨g3, g1, g2⟩
    · unfold Sane at *
      rw [g1, g4] at hs
      rw [g3]
      refine ⟨hs.1, fun b hb => ?_⟩
      rcases List.mem_cons.1 hb with rfl | hb
      · exact fun n hn => hs.2 _ (List.mem_cons_self ..) n hn
      · exact hs.2 b (List.mem_cons_of_mem _ hb)
  | copy i =>
    simp only [Mach.act] at h
    obtain ⟨v, -, h⟩ := bind_ok h
    cases h; exact ⟨hs, nofun⟩
  | null => cases h; exact ⟨hs, nofun⟩
  | build d c args =>
    simp only [Mach.act] at h
    obtain ⟨vs, -, h⟩ := bind_ok h
    obtain ⟨x, h1, h⟩ := bind_ok h
    obtain ⟨g1, g2⟩ := build_sane h1 (hs.same (assign_blocks h))
    exact ⟨g1, fun d c args hc e => by cases e; exact g2 hc⟩
  | aliasUnless e i =>
    refine ⟨?_, nofun⟩
    simp only [Mach.act] at h
    obtain ⟨v, -, h⟩ := bind_ok h
    split at h
    · split at h
      · cases h; exact hs
      · obtain ⟨x, h1, h⟩ := bind_ok h
        exact (build_sane h1 (hs.same (setVar_blocks h))).1
    · obtain ⟨x, h1, h⟩ := bind_ok h
      exact (build_sane h1 (hs.same (setVar_blocks h))).1
  | sbReset => cases h; exact ⟨hs, nofun⟩
  | sbAppend c => cases h; exact ⟨hs, nofun⟩
  | sbAppendBlock =>
    refine ⟨?_, nofun⟩
    simp only [Mach.act] at h
    split at h
    · cases h
    · obtain ⟨t, -, h⟩ := bind_ok h
      cases h; exact hs
  | opPush o => cases h; exact ⟨hs, nofun⟩

theorem exec_sane {o : Bool} {env : Env} {m0 : Mach} :
    ∀ {ts : List (Peg.Thunk Act)} {m : Mach}, Mach.exec env ts m0 = .ok m → Sane o m →
      Sane o m0 ∧ ∀ d c args p, spoilt o c → .act (.build d c args) p ∉ ts
  | [], m, h, hs => by cases h; exact ⟨hs, fun _ _ _ p _ hp => by cases hp⟩
  | t :: ts, m, h, hs => by
    unfold Mach.exec at h
    obtain ⟨m1, h1, h⟩ := bind_ok h
    have key : Sane o m1 ∧ ∀ d c args p, spoilt o c → t ≠ .act (.build d c args) p := by
      cases t with
      | push n => cases h; exact ⟨hs, nofun⟩
      | pop n =>
        simp only [Mach.step] at h
        split at h
        · cases h
        · cases h; exact ⟨hs, nofun⟩
      | set i => exact ⟨hs.same (setVar_blocks h), nofun⟩
      | act a p =>
        obtain ⟨g1, g2⟩ := act_sane h hs
        exact ⟨g1, fun d c args p hc e => by cases e; exact g2 d c args hc rfl⟩
    obtain ⟨g1, g2⟩ := exec_sane h1 key.1
    refine ⟨g1, fun d c args p hc hp => ?_⟩
    rcases List.mem_cons.1 hp with e | hp
    · exact key.2 d c args p hc e.symm
    · exact g2 d c args p hc hp

theorem finishOne_sane {o : Bool} {c c' : PCtx σ} {s : St Act (Reader σ × CState)} (h : finishOne c s = .ok c') {top : Block}
    (hb : c'.mach.blocks = [top]) (ht : ∀ n ∈ top.children, Whole o n) :
    ∀ d c args p, spoilt o c → .act (.build d c args) p ∉ s.thunks := by
  unfold finishOne at h
  split at h
  · cases h
  · rename_i m hm
    split at h
    · rename_i top' ht'
      split at h
      · rename_i hc
        cases h
        refine (exec_sane hm ⟨fun q hq => ?_, fun b hbm => ?_⟩).2
        · have := hc.2.1
          rw [hq] at this; cases this
        · rw [show m.blocks = [top] from hb] at hbm
          rw [List.mem_singleton.1 hbm]; exact ht
      · cases h
    · cases h

theorem finishOne_still {c c' : PCtx σ} {s : St Act (Reader σ × CState)} (h : finishOne c s = .ok c') (hs : Still s.thunks) :
    c'.mach.result = none := by
  unfold finishOne at h
  split at h
  · cases h
  · rename_i m hm
    split at h
    · split at h
      · cases h
        exact exec_no_result rfl hm hs
      · cases h
    · cases h
theorem finishOne_setsTo {c c' : PCtx σ} {s : St Act (Reader σ × CState)} (h : finishOne c s = .ok c') {x : Ctor} (hs : SetsTo x s.thunks) :
    c'.mach.result.map (·.ty) = some x.ty := by
  unfold finishOne at h
  split at h
  · cases h
  · rename_i m hm
    split at h
    · split at h
      · cases h
        obtain ⟨r, h1, h2⟩ := exec_setsTo hs hm
        simp [h1, h2]
      · cases h
    · cases h

/-! ## No commands among statements -/

/-- No rule called builds a command. -/
def mild (T : Rule → Bool) : E → Bool
  | .seq a b | .alt a b => mild T a && mild T b
  | .star a | .onfail a _ => mild T a
  | .act (.build _ c _) => c != .command
  | .nt r _ => T r
  | _ => true
def mildT : Rule → Bool
  | .r___entry_points | .r_directive | .r__directive | .r___directive | .r_client_command => false
  | _ => true
theorem mildT_ok : ∀ r, mildT r = true → mild mildT (grammar r).body = true := by
  intro r; cases r <;> first | (intro h; cases h; done) | (intro _; decide +kernel)

theorem mild_sound {w : List UInt8} {e : E} {p : Nat} {q : QState} {r : SkRes} (h : Sk w e p q r) : mild mildT e = true →
    ∀ p' ts q', r = .ok p' ts q' → ∀ d args i, .act (.build d .command args) i ∉ ts := by
  have app : ∀ {a b : List (Peg.Thunk Act)}, (∀ d args i, .act (.build d .command args) i ∉ a) →
      (∀ d args i, .act (.build d .command args) i ∉ b) → ∀ d args i, .act (.build d .command args) i ∉ a ++ b := by
    intro a b ha hb d args i hm
    rcases List.mem_append.1 hm with h | h
    · exact ha d args i h
    · exact hb d args i h
  induction h with
  | eps => rintro - _ _ _ ⟨⟩ d args i h; cases h
  | one_ok => rintro - _ _ _ ⟨⟩ d args i h; cases h
  | str_ok => rintro - _ _ _ ⟨⟩ d args i h; cases h
  | star_end => rintro - _ _ _ ⟨⟩ d args i h; cases h
  | peek_ok => rintro - _ _ _ ⟨⟩ d args i h; cases h
  | npeek_no => rintro - _ _ _ ⟨⟩ d args i h; cases h
  | @pred_ok x => rintro - _ _ _ ⟨⟩ d args i h; cases x <;> simp [recT] at h
  | @nt_ok r v _ _ _ _ _ _ ih =>
    rintro h _ _ _ ⟨⟩
    refine app ?_ (app ?_ (app (ih (mildT_ok r h) _ _ _ rfl) ?_))
    · intro d args i h; cases v <;> simp [setT] at h
    · intro d args i h; unfold leaveT at h; split at h <;> simp at h
    · intro d args i h; unfold enterT at h; split at h <;> simp at h
  | seq_ok _ _ ih1 ih2 =>
    rintro h _ _ _ ⟨⟩
    simp only [mild, Bool.and_eq_true] at h
    exact app (ih2 h.2 _ _ _ rfl) (ih1 h.1 _ _ _ rfl)
  | alt_ok _ ih =>
    intro h
    simp only [mild, Bool.and_eq_true] at h
    exact ih h.1
  | alt_no _ _ _ ih =>
    intro h
    simp only [mild, Bool.and_eq_true] at h
    exact ih h.2
  | star_more _ _ ih1 ih2 =>
    rintro h _ _ _ ⟨⟩
    exact app (ih2 h _ _ _ rfl) (ih1 h _ _ _ rfl)
  | @act a =>
    rintro h _ _ _ ⟨⟩ d args i hm
    simp only [List.mem_singleton, Peg.Thunk.act.injEq] at hm
    obtain ⟨rfl, -⟩ := hm
    simp [mild] at h
  | onfail_ok _ ih => exact ih
  | one_no => rintro - _ _ _ ⟨⟩
  | str_no => rintro - _ _ _ ⟨⟩
  | nt_no => rintro - _ _ _ ⟨⟩
  | seq_no => rintro - _ _ _ ⟨⟩
  | seq_no2 => rintro - _ _ _ ⟨⟩
  | peek_no => rintro - _ _ _ ⟨⟩
  | npeek_ok => rintro - _ _ _ ⟨⟩
  | pred_no => rintro - _ _ _ ⟨⟩
  | onfail_no => rintro - _ _ _ ⟨⟩

theorem unspoilt_of {w : List UInt8} {only : Bool} {p p' : Nat} {q q' : QState} {ts : List (Peg.Thunk Act)}
    (h : Sk w (.nt (startRule only) none) p q (.ok p' ts q')) (hs : ∀ d c args p, spoilt only c → .act (.build d c args) p ∉ ts) :
    Unspoilt ts := by
  intro d c args i hc hm
  cases only with
  | false => exact hs d c args i ⟨hc, nofun⟩ hm
  | true =>
    by_cases h0 : c = .command
    · subst h0
      exact mild_sound h rfl _ _ _ rfl d args i hm
    · exact hs d c args i ⟨hc, fun _ => h0⟩ hm

/-- Nothing was made that is excluded where commands are not. -/
def Fine (ts : List (Peg.Thunk Act)) : Prop := ∀ d c args i, spoilt true c → .act (.build d c args) i ∉ ts
theorem Fine.left {a b : List (Peg.Thunk Act)} (h : Fine (a ++ b)) : Fine a :=
  fun d c args i hc hm => h d c args i hc (List.mem_append_left _ hm)
theorem Fine.right {a b : List (Peg.Thunk Act)} (h : Fine (a ++ b)) : Fine b :=
  fun d c args i hc hm => h d c args i hc (List.mem_append_right _ hm)
theorem Fine.mild {w : List UInt8} {e : E} {p p' : Nat} {ts : List (Peg.Thunk Act)} (hs : Fine ts) (h : Mt w e p p' ts)
    (hm : mild mildT e = true) : Unspoilt ts := by
  obtain ⟨_, _, h⟩ := h
  intro d c args i hc hi
  by_cases h0 : c = .command
  · subst h0
    exact mild_sound h hm _ _ _ rfl d args i hi
  · exact hs d c args i ⟨hc, fun _ => h0⟩ hi
theorem unspoilt_append {a b : List (Peg.Thunk Act)} (ha : Unspoilt a) (hb : Unspoilt b) : Unspoilt (a ++ b) := by
  intro d c args i hc hm
  rcases List.mem_append.1 hm with h | h
  · exact ha d c args i hc h
  · exact hb d c args i hc h

/-- A directive is a statement, or nothing, or a client command, which is one for the quick parser as well. -/
theorem front_mixed {w : List UInt8} {p p' : Nat} {ts : List (Peg.Thunk Act)} (h : Mt w (.nt (startRule false) none) p p' ts)
    (hs : Fine ts) : Unspoilt ts ∨ (SetsTo .command ts ∧ p < p' ∧ Quick.env .r_client_command (w.drop p) = some (p' - p)) := by
  obtain ⟨p1, us, vs, h1, h2, rfl⟩ := (h.nt0 rfl : Mt w r_directive p p' ts).seq
  obtain ⟨k1, k2, -⟩ := ws_same (h1.nt0 rfl : Mt w r_ws p p1 us)
  have hu := hs.right.mild h1 rfl
  rcases (h2.nt0 rfl : Mt w r__directive p1 p' vs).alt with h3 | ⟨f3, h3⟩
  · obtain ⟨p2, us2, vs2, h4, h5, rfl⟩ := h3.seq
    have hv2 := hs.left.left.mild h5 rfl
    obtain ⟨rfl, rfl⟩ := h5.act
    obtain ⟨us3, h6, rfl⟩ := h4.nt
    have h7 := hs.left.right.right.right.left
    have out : Unspoilt us3 → Unspoilt ([.act .finished p'] ++ (setT none ++ (leaveT (grammar .r___directive).nvars ++
        (us3 ++ enterT (grammar .r___directive).nvars))) ++ us) := fun h =>
      unspoilt_append (unspoilt_append hv2 (unspoilt_append (fun _ _ _ _ _ hm => by simp [setT] at hm)
        (unspoilt_append (fun _ _ _ _ _ hm => by simp [leaveT, grammar] at hm)
          (unspoilt_append h (fun _ _ _ _ _ hm => by simp [enterT, grammar] at hm))))) hu
    rcases (h6 : Mt w r___directive p1 p' us3).alt with h8 | ⟨-, h8⟩
    · exact .inl (out (h7.mild h8 rfl))
    rcases h8.alt with h8 | ⟨-, h8⟩
    · exact .inl (out (h7.mild h8 rfl))
    rcases h8.alt with h8 | ⟨-, h8⟩
    · right
      obtain ⟨p4, us4, vs4, h9, h10, rfl⟩ := h8.seq
      obtain ⟨rfl, rfl⟩ := h10.act
      obtain ⟨us5, h11, rfl⟩ := h9.nt
      obtain ⟨g1, g2⟩ := command_same h11 k1 k2
      obtain ⟨p3, args, mid, rest, rfl, hq⟩ := command_built h11
      refine ⟨⟨p', p', p3, 1, 2, args, mid, rest ++ (enterT 2 ++ (enterT 1 ++ us)), ?_, hq⟩, by omega, g2⟩
      simp [setT, leaveT, grammar]
    · exact .inl (out (h7.mild h8 rfl))
  · exfalso
    obtain ⟨c, hc⟩ := fl_eof (fl_seq_act ((fl_seq_act f3).nt : Fl w r___directive p1).alt.1)
    obtain ⟨p2, us2, vs2, h4, h5, rfl⟩ := h3.seq
    obtain ⟨rfl, -⟩ := (h4.nt0 rfl : Mt w r__error_ p1 p2 us2).pred
    obtain ⟨p3, us3, vs3, h6, h7, rfl⟩ := h5.seq
    rcases h6.alt with h6 | ⟨-, h6⟩
    · rw [h6.eof.2.2] at hc; cases hc
    · have h9 := hs.left.left.right.mild h6 rfl
      obtain ⟨us4, h8, rfl⟩ := h6.nt
      exact kind_absent (r := .r_skip_to_directive) rfl h8 h9.right.right.left

/-! ## One directive -/

/-- The scan ends with the piece: before its last byte, a semicolon, or at the end of the text. -/
def Halts (s w : List UInt8) : Prop :=
  (∃ s', s = s' ++ [59] ∧ live .normal 0 (s ++ w) = s'.length) ∨ (w = [] ∧ live .normal 0 (s ++ w) = s.length)

theorem live_semi (l : List UInt8) : live .normal 0 (59 :: l) = 0 := by simp [live]
theorem live_end : live .normal 0 [] = 0 := by simp [live]

theorem halts_of {w : List UInt8} {n : Nat} (hn : n ≤ w.length) (h : Clear w true 0 n)
    (he : n = w.length ∨ (0 < n ∧ w[n - 1]? = some 59)) : Halts (w.take n) (w.drop n) := by
  unfold Halts
  rw [List.take_append_drop]
  have semi : ∀ k, k + 1 = n → w[k]? = some 59 → Plain w 0 k → ∃ s', w.take n = s' ++ [59] ∧ live .normal 0 w = s'.length := by
    rintro k rfl hk hp
    refine ⟨w.take k, ?_, ?_⟩
    · obtain ⟨hlt, e⟩ := List.getElem?_eq_some_iff.1 hk
      rw [List.take_succ_eq_append_getElem hlt, e]
    · have := hp.1.2.1
      rw [List.drop_zero, Nat.sub_zero, drop_get hk, live_semi] at this
      rw [this, List.length_take]; omega
  rcases h with h | ⟨-, h0, h1, h2⟩
  · rcases Nat.eq_or_lt_of_le hn with rfl | hlt
    · right
      have := h.1.2.1
      rw [List.drop_zero, Nat.sub_zero, List.drop_length, live_end] at this
      exact ⟨List.drop_length, by rw [this, List.take_length, Nat.add_zero]⟩
    · rcases he with rfl | ⟨h0, h2⟩
      · exact absurd hlt (Nat.lt_irrefl _)
      · exact absurd h2 (h.2 h0 hlt)
  · exact .inl (semi (n - 1) (by omega) h2 h1)

/-- The ways of comparing the parsers: texts without quotes, trees without errors and client commands, trees without errors. -/
inductive Way where
  | bare | plain | mixed
/-- What they need of a text, and of the trees made of it. -/
def Fair (only : Bool) : Way → List UInt8 → (Node → Prop) → Prop
  | .bare, w, _ => only = true ∧ Unquoted w ∧ ¬ Commented w ∧ ¬ Mentions "CYPHER" w
  | .plain, _, roots => ∀ x, roots x → Whole only x
  | .mixed, _, roots => ∀ x, roots x → Whole true x
/-- A statement, or nothing: where the piece ends, whether there is text in it, and that it does not begin as commands do. -/
def Stated (k : Option AstType) (s w : List UInt8) : Prop :=
  Halts s w ∧ (if Quick.stBegin (s ++ w) < Quick.stEnd (s ++ w) then some .statement else none) = k ∧ (s ++ w)[Quick.ws (s ++ w)]? ≠ some 58
/-- What they give. -/
def Found (only : Bool) : Way → Option AstType → List UInt8 → List UInt8 → Prop
  | .bare, _, s, w => Halts s w
  | .plain, k, s, w => Stated k s w
  | .mixed, k, s, w => Stated k s w ∨ (only = false ∧ Quick.env .r_client_command (s ++ w) = some s.length ∧ k = some .command)

/-- Segments, with the type of the directive of each. -/
inductive Chop (Q : Option AstType → List UInt8 → List UInt8 → Prop) : Pos → List UInt8 → List PSeg → Prop
  | nil {p} : Chop Q p [] []
  | cons {p s w seg L} : s ≠ [] → Q (seg.directive.map (·.ty)) s w → seg.range.stop = p.after s → Chop Q (p.after s) w L →
      Chop Q p (s ++ w) (seg :: L)

theorem parseOne_clear {S : Source σ} {D : Reader σ → List UInt8 → Prop} (hf : Feeds S D) (only : Bool) {w : List UInt8} {c : PCtx σ}
    (hi : c.reader.At D w 0) (hc : Ready c) (h1 : 96 ∉ w) :
    ∃ fuel0 r, (∀ fuel, fuel0 ≤ fuel → parseOne S fuel (startRule only) c = some r) ∧
      ((∃ e, r = .error e ∧ Commented w) ∨ ∃ c' n roots, r = .ok c' ∧ Parsed D only w c c' n roots ∧
        (w ≠ [] → ∀ b, Fair only b w (· ∈ roots) → Found only b (c'.mach.result.map (·.ty)) (w.take n) (w.drop n))) := by
  obtain ⟨fuel0, r, hrun, hr⟩ := parseOne_eval hf only hi hc
  refine ⟨fuel0, r, hrun, ?_⟩
  rcases hr with ⟨-, h⟩ | ⟨rfl, h⟩ | ⟨c', s, roots, rfl, hp, hev⟩
  · exact absurd h h1
  · exact .inl ⟨_, rfl, h⟩
  refine .inr ⟨c', s.pos, roots, rfl, hp, fun hw b hx => ?_⟩
  have hra := hf.readsAs w (cpred (σ := σ))
  obtain ⟨us, hus, hsk⟩ := Sk.of_eval hra hev hi
  simp only [List.append_nil] at hus
  obtain ⟨f1, hrun1⟩ := Eval.to_run hev
  have hfin : finishOne c s = .ok c' := by
    have h3 := hrun (max fuel0 f1) (by omega)
    unfold parseOne at h3
    rw [run_mono _ _ _ _ hrun1 (max fuel0 f1) (by omega)] at h3
    exact Option.some.inj h3
  obtain ⟨top, t1, t2, -⟩ := hp.blocks
  have stated : Unspoilt us → Stated (c'.mach.result.map (·.ty)) (w.take s.pos) (w.drop s.pos) := by
    intro hu
    obtain ⟨p1, -, g1, g2, g0, ge, g3⟩ := front ⟨_, _, hsk⟩ hu
    have hcl := look_sound h1 hsk false false true (by cases only <;> decide +kernel) nofun nofun _ _ _ rfl hu
    refine ⟨halts_of hp.len hcl (ge.imp_left fun h => Nat.le_antisymm hp.len (List.getElem?_eq_none_iff.1 h)), ?_⟩
    rw [List.take_append_drop]
    rw [List.drop_zero, Nat.sub_zero] at g1
    refine ⟨?_, g1 ▸ g0⟩
    obtain ⟨t3, t4⟩ := front_text g1 g2
    rw [← hus] at g3
    rcases g3 with ⟨g3, g4⟩ | ⟨g3, g4⟩
    · rw [finishOne_still hfin g3, if_neg (t3 g4)]; rfl
    · rw [finishOne_setsTo hfin (Sets.to g3), if_pos (t4 g4)]; rfl
  cases b with
  | bare =>
    obtain ⟨rfl, k1, k2, k3⟩ := hx
    refine halts_of hp.len (chk_sound k2 h1 k3 hsk false false true (by decide +kernel) nofun nofun _ _ _ rfl (.inl k1)) ?_
    cases he : c'.mach.eof with
    | true => exact .inl (hp.eof he)
    | false =>
      rcases hp.ending he with h | ⟨h, -⟩
      · exact .inr ⟨hp.progress hw, h⟩
      · cases h
  | plain =>
    exact stated (unspoilt_of hsk (hus ▸ finishOne_sane hfin t1 (t2 ▸ hx)))
  | mixed =>
    have hs : Fine us := hus ▸ finishOne_sane hfin t1 (t2 ▸ hx)
    cases only with
    | true => exact .inl (stated (unspoilt_of hsk hs))
    | false =>
      rcases front_mixed ⟨_, _, hsk⟩ hs with hu | ⟨g1, g2, g3⟩
      · exact .inl (stated hu)
      · refine .inr ⟨rfl, ?_, finishOne_setsTo (x := .command) hfin (hus ▸ g1)⟩
        rw [List.take_append_drop, List.length_take, Nat.min_eq_left hp.len]
        exact g3

/-! ## All directives -/

theorem Mentions.right {x : String} {a b : List UInt8} (h : Mentions x b) : Mentions x (a ++ b) := by
  obtain ⟨p, h⟩ := h
  refine ⟨a.length + p, ?_⟩
  refine Eq.trans ?_ h
  simp only [List.extract_eq_take_drop, Nat.add_sub_cancel_left]
  rw [← List.drop_drop, List.drop_left]

theorem Fair.drop {only : Bool} {b : Way} {w : List UInt8} {P Q : Node → Prop} (n : Nat) (h : Fair only b w P) (hq : ∀ x, Q x → P x) :
    Fair only b (w.drop n) Q := by
  cases b with
  | bare =>
    obtain ⟨h0, h1, h2, h3⟩ := h
    refine ⟨h0, ⟨fun m => h1.1 (List.mem_of_mem_drop m), fun m => h1.2.1 (List.mem_of_mem_drop m),
      fun m => h1.2.2 (List.mem_of_mem_drop m)⟩, fun h => h2 (commented_drop h), fun h => h3 ?_⟩
    have := h.right (a := w.take n)
    rwa [List.take_append_drop] at this
  | plain => exact fun x hx => h x (hq x hx)
  | mixed => exact fun x hx => h x (hq x hx)

theorem Fair.imp {only : Bool} {b : Way} {w : List UInt8} {P Q : Node → Prop} (h : Fair only b w P) (hq : ∀ x, Q x → P x) : Fair only b w Q :=
  h.drop 0 hq

theorem eachLoop_clear {S : Source σ} {D : Reader σ → List UInt8 → Prop} (hf : Feeds S D) (only : Bool) :
    ∀ (N : Nat) (w : List UInt8), w.length ≤ N → ∀ (c : PCtx σ) (ordinal : Nat) (last : Option Pos) (acc : List PSeg),
    c.reader.At D w 0 → Ready c → 96 ∉ w →
    ∃ fuel0 r, (∀ fuel n, fuel0 ≤ fuel → fuel0 ≤ n →
        eachLoop S (recordingP fun _ _ => 0) (startRule only) false fuel n c ordinal last acc = some r) ∧
      ((∃ e, r = .error e ∧ Commented w) ∨ ∃ last' L, r = .ok (0, last', acc ++ L) ∧
        ∀ b, Fair only b w (fun x => ∃ seg ∈ L, x ∈ seg.roots) → Chop (Found only b) c.st.off w L) := by
  intro N
  induction N with
  | zero =>
    intro w hN c ordinal last acc hi hc h1
    obtain rfl : w = [] := List.eq_nil_of_length_eq_zero (by omega)
    obtain ⟨fuel1, r, g1, ⟨e, -, p, hp⟩ | ⟨c', n0, roots, rfl, hp, -⟩⟩ := parseOne_clear hf only hi hc h1
    · simp at hp
    obtain ⟨k1, k2, k3⟩ := hp.nothing rfl
    have hz : n0 = 0 := by have := hp.len; simpa using this
    refine ⟨fuel1 + 1, .ok (0, last, acc ++ []), fun fuel n hle hln => ?_, .inr ⟨last, [], rfl, fun _ _ => .nil⟩⟩
    obtain ⟨n', rfl⟩ : ∃ n', n = n' + 1 := ⟨n - 1, by omega⟩
    unfold eachLoop
    rw [g1 fuel (by omega)]
    simp only
    rw [if_pos (by rw [hp.consumed, hz]), if_pos ⟨by rw [k1]; rfl, k2, k3⟩, List.append_nil]
  | succ N ih =>
    intro w hN c ordinal last acc hi hc h1
    by_cases hw : w = []
    · exact ih w (by rw [hw]; simp) c ordinal last acc hi hc h1
    obtain ⟨fuel1, r, g1, ⟨e, rfl, hcm⟩ | ⟨c', n0, roots, rfl, hp, hh⟩⟩ := parseOne_clear hf only hi hc h1
    · refine ⟨fuel1 + 1, .error e, fun fuel n hle hln => ?_, .inl ⟨e, rfl, hcm⟩⟩
      obtain ⟨n', rfl⟩ : ∃ n', n = n' + 1 := ⟨n - 1, by omega⟩
      unfold eachLoop
      rw [g1 fuel (by omega)]
    have hpos := hp.progress hw
    obtain ⟨stop, s1, s2, s3⟩ := hp.stop
    obtain ⟨top, t1, t2, t3⟩ := hp.blocks
    generalize hsg : (⟨ordinal, ⟨c.st.off, stop⟩, c'.st.errs.errors, roots, c'.mach.result,
      c'.mach.eof⟩ : PSeg) = seg
    have hsr : seg.roots = roots := by rw [← hsg]
    have hsd : c'.mach.result = seg.directive := by rw [← hsg]
    have hst : stop = c.st.off.after (w.take n0) := s3 h1
    have hss : seg.range.stop = c.st.off.after (w.take n0) := by rw [← hsg]; exact hst
    have hne : w.take n0 ≠ [] := by
      intro h
      have := congrArg List.length h
      simp only [List.length_take, List.length_nil] at this
      have := hp.len
      omega
    have hunf : ∀ fuel n, fuel1 ≤ fuel →
        eachLoop S (recordingP fun _ _ => 0) (startRule only) false fuel (n + 1) c ordinal last acc =
        if c'.mach.eof then some (.ok (0, some stop, acc ++ [seg]))
        else eachLoop S (recordingP fun _ _ => 0) (startRule only) false fuel n
          ⟨c'.reader, { c'.st with errs := c'.st.errs.clearErrors, off := stop, lines := [0] },
            { c'.mach with blocks := [{ top with children := [] }] }⟩
          (ordinal + seg.toSegment.nnodes) (some stop) (acc ++ [seg]) := by
      intro fuel n hle
      conv => lhs; unfold eachLoop
      rw [g1 fuel hle]
      simp only
      rw [if_neg (by rw [hp.consumed]; omega)]
      simp only [s1, t1, t2]
      rw [hp.off, hsg]
      simp [recordingP]
    cases hfin : c'.mach.eof with
    | true =>
      have he := hp.eof hfin
      refine ⟨fuel1 + 1, .ok (0, some stop, acc ++ [seg]), fun fuel n hle hln => ?_, .inr ⟨some stop, [seg], rfl, fun b hx => ?_⟩⟩
      · obtain ⟨n', rfl⟩ : ∃ n', n = n' + 1 := ⟨n - 1, by omega⟩
        rw [hunf _ _ (by omega), hfin, if_pos rfl]
      · have hd : w.drop n0 = [] := by rw [he, List.drop_length]
        have hq := hh hw b (hx.imp fun x h => ⟨seg, List.mem_singleton_self _, hsr ▸ h⟩)
        have hnil : Chop (Found only b) (c.st.off.after (w.take n0)) (w.drop n0) [] := by rw [hd]; exact .nil
        have := Chop.cons (Q := Found only b) (p := c.st.off) hne (hsd ▸ hq) hss hnil
        rwa [List.take_append_drop] at this
    | false =>
      obtain ⟨fuel2, r2, e1, e2⟩ := ih (w.drop n0) (by rw [List.length_drop]; have := hp.len; omega)
        ⟨c'.reader, { c'.st with errs := c'.st.errs.clearErrors, off := stop, lines := [0] },
          { c'.mach with blocks := [{ top with children := [] }] }⟩
        (ordinal + seg.toSegment.nnodes) (some stop) (acc ++ [seg]) hp.reader
        ⟨⟨rfl, rfl, hp.labels⟩, hp.precs, ⟨_, rfl, rfl, t3⟩, hp.prev, hp.ops⟩
        (fun h => h1 (List.mem_of_mem_drop h))
      refine ⟨fuel1 + fuel2 + 1, r2, fun fuel n hle hln => ?_, ?_⟩
      · obtain ⟨n', rfl⟩ : ∃ n', n = n' + 1 := ⟨n - 1, by omega⟩
        rw [hunf _ _ (by omega), hfin, if_neg (by simp), e1 _ _ (by omega) (by omega)]
      rcases e2 with ⟨e, rfl, hcm⟩ | ⟨last', L, rfl, e2⟩
      · exact .inl ⟨e, rfl, commented_drop hcm⟩
      · refine .inr ⟨last', seg :: L, by simp, fun b hx => ?_⟩
        have hq := hh hw b (hx.imp fun x h => ⟨seg, List.mem_cons_self .., hsr ▸ h⟩)
        have hr := e2 b (hx.drop n0 fun x ⟨sg, h1, h2⟩ => ⟨sg, List.mem_cons_of_mem _ h1, h2⟩)
        have := Chop.cons (Q := Found only b) (p := c.st.off) hne (hsd ▸ hq) hss (hst ▸ hr)
        rwa [List.take_append_drop] at this

theorem clear_yields {S : Source σ} {src : σ} {w : List UInt8} (h : Delivers S src w) (h1 : 96 ∉ w) (cfg : Config) (only : Bool) :
    (∃ e, StopsWith S src (recordingP fun _ _ => 0) [] cfg only false (.error e) ∧ Commented w) ∨
    ∃ L, YieldsP S src cfg only L ∧ ∀ b, Fair only b w (fun x => ∃ seg ∈ L, x ∈ seg.roots) → Chop (Found only b) cfg.position w L := by
  obtain ⟨D, hf, hi⟩ := h
  obtain ⟨fuel0, r, g1, g2⟩ := eachLoop_clear hf only w.length w (Nat.le_refl _) (.init cfg src) cfg.ordinal none [] hi
    ⟨⟨rfl, rfl, rfl⟩, rfl, ⟨_, rfl, rfl, rfl⟩, rfl, rfl⟩ h1
  rcases g2 with ⟨e, rfl, hc⟩ | ⟨last, L, rfl, g2⟩
  · exact .inl ⟨e, ⟨fuel0, fun fuel hle => g1 fuel fuel hle hle⟩, hc⟩
  · exact .inr ⟨L, ⟨last, fuel0, fun fuel hle => g1 fuel fuel hle hle⟩, g2⟩

end Verif.Cypher.Scan
