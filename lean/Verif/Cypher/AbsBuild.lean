import Verif.Cypher.AbsSound
import Verif.Props.Util
/-!
# The abstract machine describes the machine: constructors

The signatures of `Typing.lean` imply the checks the constructors make, and what the abstraction knows
implies the signatures.
-/
namespace Verif.Cypher
open Verif.Peg

/-- A check is implied by a requirement. -/
def ArgReq.covered : ArgReq → Want → Bool
  | .any, _ => true
  | .child t, .node u => t == u && t != .comment
  | .opt t, .node u => t == u && t != .comment
  | .opt t, .maybe u => t == u && t != .comment
  | .either t u, .oneOf t' u' => t == t' && u == u' && t != .comment && u != .comment
  | .optEither t u, .maybeOneOf t' u' => t == t' && u == u' && t != .comment && u != .comment
  | _, _ => false

def argsCovered : List ArgReq → List Want → Bool
  | [], [] => true
  | q :: qs, w :: ws => q.covered w && argsCovered qs ws
  | _, _ => false

def SeqReq.covered : SeqReq → Wants → Bool
  | .none, .none => true
  | .any, .all _ _ => true
  | .all t m, .all u n => t == u && m == n && t != .comment
  | .query, .query => true
  | .call, .call => true
  | .cases, .cases => true
  | .pairs, .pairs => true
  | .path, .path => true
  | .comparison, .comparison => true
  | _, _ => false

theorem checks_covered (c : Ctor) : argsCovered c.checks.1 c.wants.1 = true ∧
    c.checks.2.covered c.wants.2 = true := by
  cases c <;> first
    | exact ⟨rfl, rfl⟩
    | (rename_i a; cases a <;> exact ⟨rfl, rfl⟩)
    | (rename_i a b; cases a <;> cases b <;> exact ⟨rfl, rfl⟩)

theorem contains_of {children : List Node} {r : Ref} (h : ∃ n ∈ children, n.ref = r) :
    contains children r = true := by
  obtain ⟨n, h1, rfl⟩ := h
  simp only [contains, List.any_eq_true, beq_iff_eq]
  exact ⟨n, h1, rfl⟩

theorem ArgReq.check_of {children : List Node} {q : ArgReq} {w : Want} {v : Option Ref}
    (hc : q.covered w = true) (h : w.Holds children v) : q.check children v = true := by
  cases q <;> cases w <;> first
    | rfl
    | cases hc
    | (simp only [ArgReq.covered, Bool.and_eq_true, beq_iff_eq, bne_iff_ne] at hc
       cases v with
       | none => first | exact h.elim | rfl
       | some r =>
         simp only [ArgReq.check, Bool.and_eq_true, Bool.or_eq_true]
         refine ⟨?_, contains_of h.2⟩
         first
           | exact sub_isA hc.2 (hc.1 ▸ h.1)
           | (obtain ⟨⟨⟨h1, h2⟩, h3⟩, h4⟩ := hc
              subst h1; subst h2
              exact h.1.imp (sub_isA h3) (sub_isA h4)))

theorem args_check {children : List Node} : ∀ {qs : List ArgReq} {ws : List Want} {vs : List (Option Ref)},
    argsCovered qs ws = true → Fits children ws vs →
    qs.length = vs.length ∧ (qs.zip vs).all (fun (q, a) => q.check children a) = true
  | [], [], [], _, _ => ⟨rfl, rfl⟩
  | [], [], _ :: _, _, h => h.elim
  | [], _ :: _, _, h, _ => by cases h
  | _ :: _, [], _, h, _ => by cases h
  | _ :: _, _ :: _, [], _, h => h.elim
  | q :: qs, w :: ws, v :: vs, hc, h => by
    simp only [argsCovered, Bool.and_eq_true] at hc
    obtain ⟨h1, h2⟩ := args_check hc.2 h.2
    refine ⟨by simp [h1], ?_⟩
    simp only [List.zip_cons_cons, List.all_cons, Bool.and_eq_true]
    exact ⟨ArgReq.check_of hc.1 h.1, h2⟩

theorem Want.holds_of {D : List Delta} {b : Block} {w : Want} {a : AVal} {v : Option Ref}
    (hw : w.fits a = true) (hv : ValOk D (some b) a v) : w.Holds b.children v := by
  have loc : a.loc = .prev → ∀ r, v = some r → ∃ n ∈ b.children, n.ref = r := by
    intro hl r hr
    subst hr
    have := hv.2
    rw [hl] at this
    obtain ⟨q, hq, h1, _⟩ := this
    cases hq
    exact h1
  have two : ∀ {r : Ref} {t u : AstType}, HasTy a.mask r → subset a.mask (sub t ||| sub u) = true →
      SubType r.ty t ∨ SubType r.ty u :=
    fun h hs => (h.mono hs).or.imp HasTy.sub HasTy.sub
  cases v with
  | none =>
    have hn : a.nul = true := hv
    cases w <;> simp [Want.fits, hn] at hw <;> trivial
  | some r =>
    have hm := hv.1
    have nz : ¬ a.mask = 0 := fun h0 => by rw [h0] at hm; exact hm.zero
    cases w <;> simp [Want.fits, nz] at hw
    · exact ⟨(hm.mono hw.1.2).sub, loc hw.2 r rfl⟩
    · exact ⟨(hm.mono hw.1).sub, loc hw.2 r rfl⟩
    · exact ⟨two hm hw.1.2, loc hw.2 r rfl⟩
    · exact ⟨two hm hw.1, loc hw.2 r rfl⟩

theorem fits_of {D : List Delta} {b : Block} : ∀ {ws : List Want} {as : List AVal} {vs : List (Option Ref)},
    allFit ws as = true → ValsOk D (some b) as vs → Fits b.children ws vs
  | [], [], [], _, _ => trivial
  | [], [], _ :: _, _, h => h.elim
  | [], _ :: _, _, h, _ => by cases h
  | _ :: _, [], _, h, _ => by cases h
  | _ :: _, _ :: _, [], _, h => h.elim
  | w :: ws, a :: as, v :: vs, hw, h => by
    simp only [allFit, Bool.and_eq_true] at hw
    exact ⟨Want.holds_of hw.1 h.1, fits_of hw.2 h.2⟩

theorem SeqOk.all {a : SeqA} {s : List Ref} (h : SeqOk a s) {t : AstType}
    (h1 : subset a.pre (sub t) = true) (h2 : subset a.post (sub t) = true) :
    ∀ r ∈ s, HasTy (sub t) r := by
  obtain ⟨s1, s2, rfl, g1, g2, _⟩ := h.parts
  intro r hr
  rcases List.mem_append.1 hr with hr | hr
  · exact (g1 r hr).mono h1
  · exact (g2 r hr).mono h2

theorem Turns.alternate {e o : Nat} {t u : AstType} (he : subset e (sub t) = true)
    (ho : subset o (sub u) = true) : ∀ {s : List Ref}, Turns e o s → Alternate t u s := by
  intro s
  induction s generalizing e o t u with
  | nil => intro _; trivial
  | cons r rs ih => intro h; exact ⟨(h.1.mono he).sub, ih ho he h.2⟩

theorem Alternate.alternating {t u : AstType} (ht : t ≠ .comment) (hu : u ≠ .comment) :
    ∀ {s : List Ref}, Alternate t u s → alternating t u s = true
  | [], _ => rfl
  | [r], h => sub_isA ht h.1
  | r :: r' :: rs, h => by
    simp only [Cypher.alternating, Bool.and_eq_true]
    exact ⟨⟨sub_isA ht h.1, sub_isA hu h.2.1⟩, Alternate.alternating ht hu h.2.2⟩

theorem split_while {p : Ref → Bool} : ∀ {s t : List Ref}, (∀ r ∈ s, p r = true) → (∀ r ∈ t, p r = false) →
    (s ++ t).takeWhile p = s ∧ (s ++ t).dropWhile p = t
  | [], [], _, _ => ⟨rfl, rfl⟩
  | [], r :: t, _, h => by simp [h r (by simp)]
  | r :: s, t, h1, h2 => by
    obtain ⟨h3, h4⟩ := split_while (s := s) (fun r hr => h1 r (by simp [hr])) h2
    simp [h1 r (by simp), h3, h4]

theorem option_not_clause : ∀ u : AstType, isA ⟨0, u⟩ .queryClause = true →
    isA ⟨0, u⟩ .queryOption = false :=
  forall_types (P := fun u => isA ⟨0, u⟩ .queryClause = true → isA ⟨0, u⟩ .queryOption = false)
    (by decide +kernel)

theorem expression_not_projection : ∀ u : AstType, isA ⟨0, u⟩ .expression = true →
    isA ⟨0, u⟩ .projection = false :=
  forall_types (P := fun u => isA ⟨0, u⟩ .expression = true → isA ⟨0, u⟩ .projection = false)
    (by decide +kernel)

theorem childAll_of {children : List Node} {s : List Ref} {t : AstType} (h : ∀ r ∈ s, HasTy (sub t) r)
    (hl : s.length ≤ children.length) : childAll children s t = true := by
  simp only [childAll, Bool.and_eq_true, List.all_eq_true, decide_eq_true_eq]
  exact ⟨fun r hr => (h r hr).isA, hl⟩

/-- What the abstraction knows about the sequence is what is required, and suffices for the check. -/
theorem wants_of {a : ABlk} {children : List Node} {s : List Ref} {q : SeqReq} {w : Wants}
    {pdif : Option Nat} (h : BlkOk a children s) (hc : q.covered w = true)
    (hw : w.fits a.hd pdif a.seq = true) :
    w.Holds children (if q = .none then [] else s) ∧ q.check children s = .pass ∧
      (w = .comparison → 2 ≤ s.length ∧ pdif = some 9) := by
  have hlen : s.length ≤ children.length := by have := h.sur; omega
  have all := fun {t} => h.seq.all (t := t)
  cases w with
  | none =>
    cases q <;> first | (cases hc; done) | skip
    exact ⟨⟨rfl, by simp⟩, rfl, by simp⟩
  | all t min =>
    simp only [Wants.fits, Bool.and_eq_true, decide_eq_true_eq] at hw
    have hall := all hw.1.1 hw.1.2
    have hmin : min ≤ s.length := by have := h.seq.min; omega
    refine ⟨?_, ?_, by simp⟩
    · rw [if_neg (by intro hq; rw [hq] at hc; cases hc)]
      exact ⟨⟨hmin, fun r hr => (hall r hr).sub⟩, h.mem⟩
    · cases q <;> first | rfl | (cases hc; done) | skip
      simp only [SeqReq.covered, Bool.and_eq_true, beq_iff_eq, bne_iff_ne] at hc
      obtain ⟨⟨rfl, rfl⟩, _⟩ := hc
      simp only [SeqReq.check, ofBool, hmin, decide_true, childAll_of hall hlen, Bool.and_self, if_true]
  | query =>
    cases q <;> first | (cases hc; done) | skip
    simp only [Wants.fits, Bool.and_eq_true] at hw
    obtain ⟨⟨h1, h2⟩, h3⟩ := hw
    obtain ⟨s1, s2, rfl, g1, g2, g3⟩ := h.seq.parts
    have k1 : ∀ r ∈ s1, HasTy (sub .queryOption) r := fun r hr => (g1 r hr).mono h1
    have k2 : ∀ r ∈ s2, HasTy (sub .queryClause) r := fun r hr => (g2 r hr).mono h2
    refine ⟨⟨⟨s1, s2, rfl, fun r hr => (k1 r hr).sub, g3 h3, fun r hr => (k2 r hr).sub⟩, h.mem⟩, ?_, by simp⟩
    obtain ⟨e1, e2⟩ := split_while (p := (isA · .queryOption)) (s := s1) (t := s2)
      (fun r hr => (k1 r hr).isA) (fun r hr => option_not_clause r.ty (k2 r hr).isA)
    rw [List.length_append] at hlen
    have hpos : 0 < s2.length := List.length_pos_iff.2 (g3 h3)
    simp only [SeqReq.check, e1, e2, childAll_of (children := children) k1 (by omega),
      childAll_of (children := children) k2 (by omega), hpos, ofBool,
      decide_true, Bool.and_self, if_true]
  | call =>
    cases q <;> first | (cases hc; done) | skip
    simp only [Wants.fits, Bool.and_eq_true] at hw
    obtain ⟨h1, h2⟩ := hw
    obtain ⟨s1, s2, rfl, g1, g2, g3⟩ := h.seq.parts
    have k1 : ∀ r ∈ s1, HasTy (sub .expression) r := fun r hr => (g1 r hr).mono h1
    have k2 : ∀ r ∈ s2, HasTy (sub .projection) r := fun r hr => (g2 r hr).mono h2
    refine ⟨⟨⟨s1, s2, rfl, fun r hr => (k1 r hr).sub, fun r hr => (k2 r hr).sub⟩, h.mem⟩, ?_, by simp⟩
    obtain ⟨e1, e2⟩ := split_while (p := (! isA · .projection)) (s := s1) (t := s2)
      (fun r hr => by simp [show isA r .projection = false from expression_not_projection r.ty (k1 r hr).isA])
      (fun r hr => by simp [(k2 r hr).isA])
    rw [List.length_append] at hlen
    simp only [SeqReq.check, e1, e2, childAll_of (children := children) k1 (by omega),
      childAll_of (children := children) k2 (by omega), ofBool,
      Bool.and_self, if_true]
  | cases =>
    cases q <;> first | (cases hc; done) | skip
    simp only [Wants.fits, Bool.and_eq_true, decide_eq_true_eq, beq_iff_eq] at hw
    obtain ⟨⟨⟨h1, h2⟩, h3⟩, h4⟩ := hw
    have hall := all h1 h2
    have hp := h.seq.par _ h3
    simp only [decide_eq_false_iff_not] at hp
    have hmin : 2 ≤ s.length := by have := h.seq.min; omega
    have hp0 : s.length % 2 = 0 := by omega
    refine ⟨⟨⟨hmin, hp0, fun r hr => (hall r hr).sub⟩, h.mem⟩, ?_, by simp⟩
    have : childAll children (s.take (s.length / 2)) .expression = true :=
      childAll_of (fun r hr => hall r (List.mem_of_mem_take hr)) (by rw [List.length_take]; omega)
    simp only [SeqReq.check, this, ofBool, if_true]
  | pairs =>
    cases q <;> first | (cases hc; done) | skip
    simp only [Wants.fits, Bool.and_eq_true, beq_iff_eq] at hw
    obtain ⟨⟨h1, h2⟩, h3⟩ := hw
    have hp := h.seq.par _ h1
    simp only [decide_eq_false_iff_not] at hp
    have hp0 : s.length % 2 = 0 := by omega
    have ha := h.seq.turns.alternate h2 h3
    refine ⟨⟨⟨hp0, ha⟩, h.mem⟩, ?_, by simp⟩
    simp only [SeqReq.check, hp0, decide_true, ha.alternating (by decide) (by decide), Bool.and_self, ofBool,
      if_true]
  | path =>
    cases q <;> first | (cases hc; done) | skip
    simp only [Wants.fits, Bool.and_eq_true, beq_iff_eq] at hw
    obtain ⟨⟨⟨h0, h1⟩, h2⟩, h3⟩ := hw
    have hp := h.seq.par _ h1
    simp only [decide_eq_true_eq] at hp
    have ha := h.seq.turns.alternate h2 h3
    refine ⟨⟨⟨hp, ha⟩, h.mem⟩, ?_, by simp⟩
    obtain ⟨n, r, k1, k2, k3⟩ := h.hd h0
    obtain ⟨cs, rfl⟩ : ∃ cs, children = n :: cs := by
      cases children with
      | nil => simp at k1
      | cons a cs => simp at k1; exact ⟨cs, by rw [k1]⟩
    obtain ⟨rs, rfl⟩ : ∃ rs, s = r :: rs := by
      cases s with
      | nil => simp at k2
      | cons a rs => simp at k2; exact ⟨rs, by rw [k2]⟩
    have hid : n.id = r.id := by rw [← k3]; rfl
    have hhead : isA r .nodePattern = true := sub_isA (by decide) ha.1
    simp only [SeqReq.check, hp, if_true, List.head?_cons, Option.map_some, Option.getD_some, hhead,
      agreeSomewhere, hid, ha.alternating (t := .nodePattern) (u := .relPattern) (by decide) (by decide), ofBool]
  | comparison =>
    cases q <;> first | (cases hc; done) | skip
    simp only [Wants.fits, Bool.and_eq_true, decide_eq_true_eq, beq_iff_eq] at hw
    obtain ⟨⟨⟨h1, h2⟩, h3⟩, h4⟩ := hw
    have hall := all h1 h2
    have hmin : 2 ≤ s.length := by have := h.seq.min; omega
    refine ⟨⟨⟨hmin, fun r hr => (hall r hr).sub⟩, h.mem⟩, ?_, fun _ => ⟨hmin, h4⟩⟩
    simp only [SeqReq.check, childAll_of hall hlen, ofBool, if_true]

section acts
variable {env : Env} {m0 m : Mach} {b0 : Block} {rest : List Block} {A A' : Abs} {p : Nat}
  {D : List Delta} {xs : List Op} {md : Mode}

/-- The operators of a node. `s` is what the node stores as its array. -/
theorem takeOps_sound (h : Gam env m0 b0 rest A p m D xs) {c : Ctor} (ha : A.takeOps c = some A') {b : Block}
    (hb : m.prev = some b) (hcmp : c = .comparisonOperator → 2 ≤ b.seq.length ∧ A.pdif = some 9)
    (hnt : c.terminal = none) :
    ∃ os r xs', Mach.takeOps c b m.ops = .ok (os, r) ∧
      c.OpsFit os (if c.checks.2 = .none then [] else b.seq) ∧
      Gam env m0 b0 rest { A' with pdif := none } p { m with ops := r } D xs' ∧ A'.prev = A.prev := by
  have other : A' = A → Mach.takeOps c b m.ops = .ok ([], m.ops) →
      c.OpsFit [] (if c.checks.2 = .none then [] else b.seq) → _ :=
    fun e1 e2 e3 => (⟨[], m.ops, xs, e2, e3, by
      subst e1
      exact ⟨h.entry, h.clean, h.blks, h.vars, h.self, h.prev, h.stack, h.ops, h.dif, by simp, h.res,
        h.fin, h.errs⟩, by rw [e1]⟩ : ∃ os r xs', Mach.takeOps c b m.ops = .ok (os, r) ∧
      c.OpsFit os (if c.checks.2 = .none then [] else b.seq) ∧
      Gam env m0 b0 rest { A' with pdif := none } p { m with ops := r } D xs' ∧ A'.prev = A.prev)
  have one : ∀ k, A.ops = some (k + 1) → A' = { A with ops := some k, dif := A.dif.map (· + 1) } →
      ∃ o r xs', m.ops = o :: r ∧
        Gam env m0 b0 rest { A' with pdif := none } p { m with ops := r } D xs' := by
    intro k hk hA
    subst hA
    have hl := h.ops _ hk
    cases xs with
    | nil => simp at hl
    | cons o xs' =>
      simp at hl
      refine ⟨o, xs' ++ m0.ops, xs', h.stack, h.entry, h.clean, h.blks, h.vars, h.self, h.prev, rfl, ?_, ?_,
        by simp, h.res, h.fin, h.errs⟩
      · intro j hj; cases hj; exact hl
      · intro j hj y hy
        simp only [Option.map_eq_some_iff] at hj
        obtain ⟨i, hi, rfl⟩ := hj
        have := h.dif i hi y hy
        simp only [List.length_cons] at this
        omega
  cases c <;> first
    | (cases ha; exact other rfl rfl rfl)
    | (simp only [Abs.takeOps] at ha
       split at ha
       · rename_i k hk
         obtain ⟨o, r, xs', h1, h2⟩ := one k hk (Option.some.inj ha).symm
         refine ⟨[o], r, xs', by simp only [Mach.takeOps, h1], rfl, h2, ?_⟩
         cases ha; rfl
       · cases ha)
    | skip
  · obtain ⟨h1, h2⟩ := hcmp rfl
    have hp := h.pdif 9 h2 b hb
    have hxs : xs.length = b.seq.length - 1 := by omega
    simp only [Abs.takeOps, Option.some.injEq] at ha
    refine ⟨xs.reverse, m0.ops, [], ?_, ?_, ?_, by rw [← ha]⟩
    · simp only [Mach.takeOps, h.stack]
      rw [if_pos ⟨by omega, by rw [List.length_append]; omega⟩, ← hxs]
      simp
    · show xs.reverse.length + 1 = b.seq.length
      rw [List.length_reverse]; omega
    · subst ha
      refine ⟨h.entry, h.clean, h.blks, h.vars, h.self, h.prev, rfl, ?_, ?_, by simp, h.res, h.fin, h.errs⟩
      · intro k hk; cases hk; rfl
      · intro k hk y hy
        simp only at hk
        split at hk
        · rename_i q qs hq
          split at hk
          · rename_i hem
            cases hk
            have hst := h.blks
            rw [hq] at hst
            obtain ⟨d, ds, _, _, e1, _, e3⟩ := hst.top
            subst e1
            cases hy
            rw [e3.seq.isEmpty hem]; rfl
          · cases hk
        · cases hk

theorem comparison_only (c : Ctor) (h : c = .comparisonOperator) : c.wants.2 = .comparison := by
  subst h; rfl

theorem branch_sound (h : Gam env m0 b0 rest A p m D xs) {c : Ctor} {as : List AVal}
    {vs : List (Option Ref)} (hv : ValsOk D m.prev as vs) (hc : c.terminal = none) {a : AVal}
    (ha : A.build md c as = some (A', a)) :
    ∃ m' r D' xs', Mach.branch c vs m = .ok (m', r) ∧ Gam env m0 b0 rest A' p m' D' xs' ∧
      ValOk D' m'.prev a (some r) := by
  simp only [Abs.build, hc] at ha
  split at ha
  · rename_i q hq
    split at ha
    · rename_i hfit
      rw [Bool.and_eq_true] at hfit
      split at ha
      · rename_i B hB
        have hprev := h.prev
        rw [hq] at hprev
        obtain ⟨b, hb, hbo, hbt⟩ := hprev
        obtain ⟨cov1, cov2⟩ := checks_covered c
        rw [hb] at hv
        have hargs := fits_of hfit.1 hv
        obtain ⟨hh1, hh2, hh3⟩ := wants_of hbo cov2 hfit.2
        obtain ⟨ck1, ck2⟩ := args_check cov1 hargs
        obtain ⟨os, r, xs', t1, t2, t3, t4⟩ := takeOps_sound h hB hb
          (fun e => hh3 (comparison_only c e)) hc
        have hadd : Abs.addNode { B with pdif := none } c.ty = some (A', a) := ha
        have hn : WellTyped (.mk m.next c os vs (if c.checks.2 = .none then [] else b.seq) []
            ⟨b.rstart, b.rstop⟩ b.children) :=
          .mk hargs hh1 t2 (by simp [hc])
            (by split
                · rename_i e; rw [e]; rfl
                · exact hh2) hbo.wt
        obtain ⟨m', D', e1, e2, e3⟩ := addNode_sound t3 hadd hn rfl
        refine ⟨m', ⟨m.next, c.ty⟩, D', xs', ?_, e2, e3⟩
        unfold Mach.branch
        simp only [hb, t1, bind, Except.bind, ck1, ck2, and_self, not_true, if_false, hh2]
        rw [e1]
      · cases ha
    · cases ha
  · cases ha

theorem build_sound (hp : p ≤ env.buf.length) (h : Gam env m0 b0 rest A p m D xs) {c : Ctor} {as : List AVal}
    {vs : List (Option Ref)} (hv : ValsOk D m.prev as vs) {a : AVal}
    (ha : A.build md c as = some (A', a)) :
    Safe md (Mach.build env c vs m) fun x => ∃ D' xs', Gam env m0 b0 rest A' p x.1 D' xs' ∧
      ValOk D' x.1.prev a (some x.2) := by
  unfold Mach.build
  cases hc : c.terminal with
  | none =>
    obtain ⟨m', r, D', xs', h1, h2, h3⟩ := branch_sound h hv hc ha
    simp only [h1]
    exact ⟨D', xs', h2, h3⟩
  | some k =>
    simp only [Abs.build, hc] at ha
    exact (terminal_sound hp h hc ha).imp fun x ⟨D', h1, h2⟩ => ⟨D', xs, h1, h2⟩

/-! ### Errors -/

theorem contexts_ok (es : List PErr) (h : ErrsOk env es) :
    ∃ es', Mach.contexts env es = .ok es' ∧ ErrsOk env es' := by
  induction es with
  | nil => exact ⟨[], rfl, h⟩
  | cons e es ih =>
    unfold Mach.contexts
    split
    · exact ⟨_, rfl, h⟩
    · rename_i hn
      have hn : e.context = none := by simpa using hn
      obtain ⟨h1, h2, h3⟩ := h e (by simp) hn
      rw [if_neg (by omega)]
      obtain ⟨ctx, _, _, _, s, _, _, _, hl, _⟩ := line_context_spec env.buf
        (e.position.offset - env.off.offset) 80 (by omega) h1 h3
      obtain ⟨es', h4, h5⟩ := ih (fun e' he' => h e' (by simp [he']))
      rw [hl]
      refine ⟨_, by simp only [h4, bind, Except.bind]; rfl, ?_⟩
      intro e' he'
      rcases List.mem_cons.1 he' with rfl | he'
      · intro hc; simp at hc
      · exact h5 e' he'

/-! ### Actions -/

theorem act_sound (he : EnvOk env) (hp : p ≤ env.buf.length) (h : Gam env m0 b0 rest A p m D xs) {x : Act}
    (ha : A.act md x = some A') : Safe md (Mach.act env x p m) (G env m0 A' p) := by
  have pure : ∀ {m'}, Gam env m0 b0 rest A' p m' D xs → Safe md (.ok m') (G env m0 A' p) :=
    fun g => ⟨b0, rest, D, xs, g⟩
  cases x with
  | blockStart => exact blockStart_sound he h ha
  | blockEnd => exact blockEnd_sound he h ha
  | blockReplace => exact blockReplace_sound he h ha
  | blockMerge => exact blockMerge_sound he h ha
  | eof =>
    cases ha
    exact pure ⟨h.entry, h.clean, h.blks, h.vars, h.self, h.prev, h.stack, h.ops, h.dif, h.pdif, h.res, h.fin, h.errs⟩
  | result v =>
    cases v with
    | none =>
      cases ha
      exact pure ⟨h.entry, h.clean, h.blks, h.vars, h.self, h.prev, h.stack, h.ops, h.dif, h.pdif,
        .inr (.inl rfl), h.fin, h.errs⟩
    | some i =>
      simp only [Abs.act] at ha
      split at ha
      · rename_i a hi
        obtain ⟨v, h1, h2⟩ := getVar_sound h hi
        split at ha
        · rename_i hcond
          cases ha
          simp only [Mach.act, h1, bind, Except.bind]
          refine pure ⟨h.entry, h.clean, h.blks, h.vars, h.self, h.prev, h.stack, h.ops, h.dif, h.pdif,
            ?_, h.fin, h.errs⟩
          cases v with
          | none => exact .inr (.inl rfl)
          | some r =>
            have hloc : a.loc = .at 0 := by
              rcases hcond.2 with h0 | h0
              · have := h2.1; rw [h0] at this; exact this.zero.elim
              · exact h0
            have hl := h2.2
            rw [hloc] at hl
            obtain ⟨d, hd, ⟨hm, _⟩⟩ := hl
            have hst := h.blks
            match hbl : A.blks, hcond.1 with
            | [b], _ =>
              rw [hbl] at hst
              obtain ⟨d', e1, _, _⟩ := hst
              subst e1
              simp at hd
              subst hd
              exact .inr (.inr ⟨r, _, rfl, h2.1.orr, rfl, hm⟩)
        · cases ha
      · cases ha
  | finished =>
    cases ha
    obtain ⟨es, h1, h2⟩ := contexts_ok m.errs.reverse (fun e he => h.errs e (by simpa using he))
    simp only [Mach.act, h1, bind, Except.bind]
    exact pure ⟨h.entry, h.clean, h.blks, h.vars, h.self, h.prev, h.stack, h.ops, h.dif, h.pdif, h.res,
      fun _ => rfl, fun e he => h2 e (by simpa using he)⟩
  | seqAdd vs =>
    obtain ⟨m', D', h1, h2⟩ := seqAdds_sound h ha
    simp only [Mach.act, h1]
    exact ⟨b0, rest, D', xs, h2⟩
  | copy i =>
    simp only [Abs.act, Option.map_eq_some_iff] at ha
    obtain ⟨a, hi, rfl⟩ := ha
    obtain ⟨v, h1, h2⟩ := getVar_sound h hi
    simp only [Mach.act, h1, bind, Except.bind]
    exact pure ⟨h.entry, h.clean, h.blks, h.vars, h2, h.prev, h.stack, h.ops, h.dif, h.pdif, h.res, h.fin, h.errs⟩
  | null =>
    cases ha
    exact pure ⟨h.entry, h.clean, h.blks, h.vars, rfl, h.prev, h.stack, h.ops, h.dif, h.pdif, h.res, h.fin, h.errs⟩
  | build d c args =>
    simp only [Abs.act] at ha
    split at ha
    · rename_i as hg
      split at ha
      · rename_i B a hB
        obtain ⟨vs, h1, h2⟩ := getArgs_sound h hg
        simp only [Mach.act, h1]
        refine (build_sound hp h h2 hB).bind fun ⟨m1, r⟩ ⟨D', xs', h3, h4⟩ => ?_
        obtain ⟨m2, h5, h6⟩ := assign_sound h3 ha h4
        show Safe md (m1.assign d (some r)) _
        rw [h5]
        exact ⟨b0, rest, D', xs', h6⟩
      · cases ha
    · cases ha
  | aliasUnless e i =>
    simp only [Abs.act] at ha
    split at ha
    · rename_i a hi
      split at ha
      · rename_i B v hB
        split at ha
        · rename_i C hC
          obtain ⟨le1, le2⟩ := join_left ha
          obtain ⟨u, h1, h2⟩ := getVar_sound h hi
          have hbuild : Safe md (Mach.build env .blockIdentifier [] m >>= fun x => x.1.setVar i (some x.2))
              (G env m0 A' p) := by
            refine (terminal_sound (md := md) hp h (c := .blockIdentifier) (k := .trimmed) rfl hB).bind
              fun ⟨m1, r⟩ ⟨D', h3, h4⟩ => ?_
            obtain ⟨m2, h5, h6⟩ := setVar_sound h3 hC ⟨some r, rfl, h4⟩
            show Safe md (m1.setVar i (some r)) _
            rw [h5]
            exact G.le ⟨b0, rest, D', xs, h6⟩ le2
          simp only [Mach.act, h1, bind, Except.bind]
          cases u with
          | none => exact hbuild
          | some r =>
            simp only
            split
            · exact G.le ⟨b0, rest, D, xs, h⟩ le1
            · exact hbuild
        · cases ha
      · cases ha
    · cases ha
  | sbReset =>
    cases ha
    exact pure ⟨h.entry, h.clean, h.blks, h.vars, h.self, h.prev, h.stack, h.ops, h.dif, h.pdif, h.res, h.fin, h.errs⟩
  | sbAppend c =>
    cases ha
    exact pure ⟨h.entry, h.clean, h.blks, h.vars, h.self, h.prev, h.stack, h.ops, h.dif, h.pdif, h.res, h.fin, h.errs⟩
  | sbAppendBlock =>
    have key : ∃ b, m.prev = some b ∧ TextOk p b ∧ A' = A := by
      simp only [Abs.act] at ha
      split at ha
      · rename_i hpv
        have := h.prev
        rw [hpv] at this
        obtain ⟨b, h1, h2, h3⟩ := this
        exact ⟨b, h1, h3, (Option.some.inj ha).symm⟩
      · rename_i hpv
        have := h.prev
        rw [hpv] at this
        obtain ⟨b, h1, h2, h3⟩ := this
        exact ⟨b, h1, h3, (Option.some.inj ha).symm⟩
      · cases ha
    obtain ⟨b, h1, h2, rfl⟩ := key
    obtain ⟨t, ht⟩ := blockText_ok h2 hp
    have hrun : Mach.act env .sbAppendBlock p m = .ok { m with strbuf := m.strbuf ++ t } := by
      unfold Mach.act
      split <;> simp_all [bind, Except.bind]
    rw [hrun]
    exact pure ⟨h.entry, h.clean, h.blks, h.vars, h.self, h.prev, h.stack, h.ops, h.dif, h.pdif, h.res, h.fin, h.errs⟩
  | opPush o =>
    cases ha
    refine ⟨b0, rest, D, o :: xs, h.entry, h.clean, h.blks, h.vars, h.self, h.prev, by simp [h.stack], ?_, ?_,
      ?_, h.res, h.fin, h.errs⟩
    · intro k hk
      simp only [Option.map_eq_some_iff] at hk
      obtain ⟨j, hj, rfl⟩ := hk
      simp [h.ops j hj]
    · intro k hk y hy
      simp only [Option.bind_eq_some_iff] at hk
      obtain ⟨j, hj, hj2⟩ := hk
      split at hj2
      · cases hj2
        have := h.dif j hj y hy
        simp only [List.length_cons]; omega
      · cases hj2
    · intro k hk; cases hk

end acts
end Verif.Cypher
