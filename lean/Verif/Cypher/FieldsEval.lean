import Verif.Cypher.FieldsSound
import Verif.Cypher.Leaf
/-!
# Which nodes a block holds: actions, rules and expressions

Whatever the input, the nodes made refer to all the nodes they contain, comments and errors apart.
-/
namespace Verif.Cypher
open Verif.Peg

variable {env : Env} {m0 m m' : Mach} {b0 : Block} {rest : List Block} {A A' : Hold} {p : Nat}

theorem has_nil (ρ : Vals) : Has ρ (some []) [] [] := ⟨rfl, fun _ => rfl⟩

theorem HStk.push {ρ : Vals} {as : List (Option (List Held))} {B : List Block} (h : HStk b0 rest ρ as B)
    {b : Block} {a : Option (List Held)} (hb : Has ρ a b.children b.seq) : HStk b0 rest ρ (a :: as) (b :: B) := by
  obtain ⟨a', as', rfl⟩ := h.ne
  exact ⟨b, B, rfl, hb, h⟩

theorem blockStart_holds (h : HoldsAt m0 b0 rest A m) (ha : A.blockStart = some A')
    (he : Mach.blockStart env p m = .ok m') (hnum : Numbered m') : HoldsAt m0 b0 rest A' m' := by
  cases ha
  unfold Mach.blockStart at he
  obtain ⟨x, -, he⟩ := bind_ok he
  have key : m' = { m with blocks := ⟨p, p, x, x, [], []⟩ :: m.blocks, prev := none } := by
    split at he
    · split at he
      · cases he
      · cases he; rfl
    · cases he; rfl
  subst key
  refine ⟨h.entry, h.blks.push (has_nil _), (fun is his => by cases his), h.keep, h.null, h.nulls, h.frame,
    ⟨fun b hb n hn => ?_, (fun q hq => by cases hq)⟩, hnum⟩
  rcases List.mem_cons.1 hb with rfl | hb
  · cases hn
  · exact h.exact.blocks b hb n hn

theorem blockEnd_holds (h : HoldsAt m0 b0 rest A m) (ha : A.blockEnd = some A')
    (he : Mach.blockEnd env p m = .ok m') (hnum : Numbered m') : HoldsAt m0 b0 rest A' m' := by
  unfold Hold.blockEnd at ha
  split at ha
  · rename_i a a' as hbl
    cases ha
    unfold Mach.blockEnd at he
    obtain ⟨⟨c, cs⟩, hp, he⟩ := bind_ok he
    cases he
    obtain ⟨b, b', bs, x, e1, -, rfl, rfl, -⟩ := blockPop_inv hp
    have hst := h.blks
    rw [hbl, e1] at hst
    obtain ⟨_, _, e, g1, g2⟩ := hst
    cases e
    refine ⟨h.entry, g2, ?_, h.keep, h.null, h.nulls, h.frame, ⟨fun y hy => ?_, ?_⟩, hnum⟩
    · rintro is rfl q ⟨⟩; exact g1
    · exact h.exact.blocks y (by rw [e1]; exact List.mem_cons_of_mem _ hy)
    · rintro q ⟨⟩; exact h.exact.blocks b (by rw [e1]; exact List.mem_cons_self)
  · cases ha

theorem blockReplace_holds (h : HoldsAt m0 b0 rest A m) (ha : A.blockReplace = some A')
    (he : Mach.blockReplace env p m = .ok m') (hnum : Numbered m') : HoldsAt m0 b0 rest A' m' := by
  unfold Hold.blockReplace at ha
  split at ha
  · rename_i a a' as hbl
    cases ha
    unfold Mach.blockReplace at he
    obtain ⟨⟨c, cs⟩, hp, he⟩ := bind_ok he
    cases he
    obtain ⟨b, b', bs, x, e1, -, rfl, rfl, -⟩ := blockPop_inv hp
    have hst := h.blks
    rw [hbl, e1] at hst
    obtain ⟨_, _, e, g1, g2⟩ := hst
    cases e
    refine ⟨h.entry, g2.push (has_nil _), ?_, h.keep, h.null, h.nulls, h.frame, ⟨fun y hy n hn => ?_, ?_⟩, hnum⟩
    · rintro is rfl q ⟨⟩; exact g1
    · rcases List.mem_cons.1 hy with rfl | hy
      · cases hn
      · exact h.exact.blocks y (by rw [e1]; exact List.mem_cons_of_mem _ hy) n hn
    · rintro q ⟨⟩; exact h.exact.blocks b (by rw [e1]; exact List.mem_cons_self)
  · cases ha

theorem merge_has {ρ : Vals} {a b : Option (List Held)} {c : List Node} {s : List Ref} (ha : Has ρ a c s)
    (c0 : List Node) (s0 : List Ref) (hb : Has ρ b c0 s0) : Has ρ (merge b a) (c0 ++ c) (s0 ++ []) := by
  rw [List.append_nil]
  cases a with
  | none => cases b <;> trivial
  | some a =>
    cases b with
    | none => trivial
    | some b =>
      simp only [merge]
      split
      · trivial
      · rename_i hs
        rw [List.contains_iff_mem] at hs
        refine ⟨?_, fun e => hb.2 fun e' => e (List.mem_append_left _ e')⟩
        rw [kept_append, ha.1, hb.1, den_append, den_noseq hs (s' := s0)]

theorem blockMerge_holds (h : HoldsAt m0 b0 rest A m) (ha : A.blockMerge = some A')
    (he : Mach.blockMerge env p m = .ok m') (hnum : Numbered m') : HoldsAt m0 b0 rest A' m' := by
  unfold Hold.blockMerge at ha
  split at ha
  · rename_i a a' as hbl
    cases ha
    unfold Mach.blockMerge at he
    obtain ⟨⟨c, cs⟩, hp, he⟩ := bind_ok he
    obtain ⟨b, b', bs, x, e1, -, rfl, rfl, -⟩ := blockPop_inv hp
    have hst := h.blks
    rw [hbl, e1] at hst
    obtain ⟨_, _, e, g1, g2⟩ := hst
    cases e
    obtain ⟨_, _, e, g3⟩ := g2.top (a' := merge a' a)
    cases e
    have g4 := g3 b.children [] fun c0 s0 h0 => merge_has g1 c0 s0 h0
    have hb := h.exact.blocks b (by rw [e1]; exact List.mem_cons_self)
    have hb' := h.exact.blocks b' (by rw [e1]; simp)
    have hbs : ∀ y ∈ bs, ∀ n ∈ y.children, Everywhere Exact n := fun y hy =>
      h.exact.blocks y (by rw [e1]; simp [hy])
    simp only at he
    split at he
    · rename_i hc
      cases he
      have hc : b.children = [] := hc
      rw [hc, List.append_nil, List.append_nil] at g4
      refine ⟨h.entry, g4, (fun is his => by cases his), h.keep, h.null, h.nulls, h.frame,
        ⟨fun y hy => ?_, ?_⟩, hnum⟩
      · rcases List.mem_cons.1 hy with rfl | hy
        · exact hb'
        · exact hbs y hy
      · rintro q ⟨⟩; exact hb
    · cases he
      rw [List.append_nil] at g4
      refine ⟨h.entry, g4, (fun is his => by cases his), h.keep, h.null, h.nulls, h.frame,
        ⟨fun y hy n hn => ?_, ?_⟩, hnum⟩
      · rcases List.mem_cons.1 hy with rfl | hy
        · rcases List.mem_append.1 hn with hn | hn
          · exact hb' n hn
          · exact hb n hn
        · exact hbs y hy n hn
      · rintro q ⟨⟩ n hn; cases hn
  · cases ha

/-- Nothing but a name is added to the innermost block. -/
theorem name_holds {f : Option (List Held) → Option (List Held)} (h : HoldsAt m0 b0 rest A m)
    (ha : A.onTop f = some A') (hf : ∀ a c s, Has m.vals a c s → Has m.vals (f a) c s) :
    HoldsAt m0 b0 rest A' m := by
  unfold Hold.onTop at ha
  split at ha
  · cases ha
  · rename_i a as hbl
    cases ha
    have hst := h.blks
    rw [hbl] at hst
    obtain ⟨b, bs, e1, e2⟩ := hst.top (a' := f a)
    have := e2 [] [] fun c s hc => by rw [List.append_nil, List.append_nil]; exact hf a c s hc
    rw [List.append_nil, List.append_nil, ← e1] at this
    exact ⟨h.entry, this, h.prev, h.keep, h.null, h.nulls, h.frame, h.exact, h.num⟩

theorem has_null {ρ : Vals} {x : Held} (hx : ∀ s, Held.den ρ s x = []) (hs : x ≠ .seq) (a : Option (List Held))
    (c : List Node) (s : List Ref) (h : Has ρ a c s) : Has ρ (addItem x a) c s := by
  cases a with
  | none => trivial
  | some is =>
    refine ⟨?_, fun e => h.2 fun e' => e (by simp [e'])⟩
    rw [h.1, den_append]
    simp [den, hx]

theorem drop_without (x : Held) (a : Option (List Held)) : drop x (without x a) = without x a := by
  cases a with
  | none => rfl
  | some is => simp [without, drop]

theorem nulls_holds {l : List Nat} (h : HoldsAt m0 b0 rest A m) (hl : ∀ i ∈ l, i ∈ A.nulls) :
    HoldsAt m0 b0 rest { A with nulls := l } m :=
  ⟨h.entry, h.blks, h.prev, h.keep, h.null, fun i hi => h.nulls i (hl i hi), h.frame, h.exact, h.num⟩

theorem alias_holds {i : Nat} (h : HoldsAt m0 b0 rest A m) (hi : i ∈ A.nulls) (hn : i < A.nv)
    (ha : ({ A.map (without (.var i)) with prev := none, nulls := A.nulls.filter (· ≠ i) }).onTop
      (addItem (.var i)) = some A')
    (he : m' = m ∨ ∃ x, Mach.build env .blockIdentifier [] m = .ok x ∧ x.1.setVar i (some x.2) = .ok m')
    (hnum : Numbered m') : HoldsAt m0 b0 rest A' m' := by
  have hv : ∀ s, Held.den m.vals s (.var i) = [] := fun s => by
    simp only [Held.den, Mach.vals, h.nulls i hi]; rfl
  have h1 := map_holds (f := without (.var i)) rfl h (Has.nothing (by simp) hv)
  have h2 := nulls_holds (l := A.nulls.filter (· ≠ i)) (noPrev_holds h1) fun j hj => (List.mem_filter.1 hj).1
  rcases he with rfl | ⟨x, hb, hm⟩
  · exact name_holds h2 ha (has_null hv (by simp))
  · obtain ⟨b, bs, n, os, e1, rfl, e3, e4⟩ := built_exact (args := []) h (c := .blockIdentifier) rfl rfl hb
    refine store_holds (d := .var i) (noPrev_holds h1) rfl e1 ?_ hm hnum e4
    rw [e3]
    simp only [Hold.store]
    rw [if_pos (show i < (A.map (without (.var i))).nv from hn)]
    rw [← ha]
    have : ({ A.map (without (.var i)) with prev := none } : Hold).forgetVar i =
        { A.map (without (.var i)) with prev := none, nulls := A.nulls.filter (· ≠ i) } := by
      simp only [Hold.forgetVar, Hold.map, List.map_map, drop]
      congr 1
      refine List.map_congr_left fun a _ => ?_
      exact drop_without _ _
    rw [this]
    rfl

theorem same_holds (h : HoldsAt m0 b0 rest A m) (hb : m'.blocks = m.blocks) (hp : m'.prev = m.prev)
    (hs : m'.self = m.self) (hf : m'.frames = m.frames) (hnum : Numbered m') : HoldsAt m0 b0 rest A m' := by
  have hv : m'.vals = m.vals := by rw [Mach.vals, Mach.vals, hs, hf]
  exact ⟨h.entry, by rw [hb, hv]; exact h.blks, by rw [hp, hv]; exact h.prev, by rw [hs]; exact h.keep,
    by rw [hs]; exact h.null, by rw [hf]; exact h.nulls, by rw [hf]; exact h.frame, h.exact.same hb hp, hnum⟩

theorem act_holds {a : Act} (h : HoldsAt m0 b0 rest A m) (ha : A.act a = some A')
    (he : Mach.act env a p m = .ok m') : HoldsAt m0 b0 rest A' m' := by
  have hnum := act_numbered h.num he
  cases a with
  | eof => cases ha; cases he; exact same_holds h rfl rfl rfl rfl hnum
  | result v => cases ha; obtain ⟨r, rfl, -⟩ := result_inv he; exact same_holds h rfl rfl rfl rfl hnum
  | finished => cases ha; obtain ⟨es, -, rfl⟩ := finished_inv he; exact same_holds h rfl rfl rfl rfl hnum
  | blockStart => exact blockStart_holds h ha he hnum
  | blockEnd => exact blockEnd_holds h ha he hnum
  | blockReplace => exact blockReplace_holds h ha he hnum
  | blockMerge => exact blockMerge_holds h ha he hnum
  | seqAdd vs => exact seqAdds_holds h ha he hnum
  | copy i =>
    cases ha
    simp only [Mach.act] at he
    obtain ⟨v, hv, he⟩ := bind_ok he
    cases he
    have hv := getVar_val hv
    have h1 := forgetSelf_holds (v := v) h
    have h2 := map_holds (f := rename (.var i) .self) rfl h1 (Has.renamed (by simp) fun s => by
      simp only [Held.den, Mach.vals, hv])
    refine ⟨h2.entry, h2.blks, h2.prev, h2.keep, fun e => ?_, h2.nulls, h2.frame, h2.exact, h2.num⟩
    simp only [List.contains_iff_mem] at e
    show v = none
    rw [hv]
    exact h.nulls i e
  | null =>
    cases he
    have h1 := forgetSelf_holds (v := none) h
    have h2 : HoldsAt m0 b0 rest { A.forgetSelf with null := true } { m with self := none } :=
      ⟨h1.entry, h1.blks, h1.prev, h1.keep, fun _ => rfl, h1.nulls, h1.frame, h1.exact, h1.num⟩
    exact name_holds h2 ha (has_null (fun _ => rfl) (by simp))
  | build d c args =>
    simp only [Mach.act] at he
    obtain ⟨vs, hv, he⟩ := bind_ok he
    obtain ⟨x, h1, he⟩ := bind_ok he
    exact build_holds h ha hv h1 he hnum
  | aliasUnless e i =>
    simp only [Hold.act] at ha
    split at ha
    · rename_i hc
      refine alias_holds (env := env) h hc.1 hc.2 ha ?_ hnum
      simp only [Mach.act] at he
      obtain ⟨v, -, he⟩ := bind_ok he
      split at he
      · split at he
        · cases he; exact .inl rfl
        · obtain ⟨x, h1, he⟩ := bind_ok he
          exact .inr ⟨x, h1, he⟩
      · obtain ⟨x, h1, he⟩ := bind_ok he
        exact .inr ⟨x, h1, he⟩
    · cases ha
  | sbReset => cases ha; cases he; exact same_holds h rfl rfl rfl rfl hnum
  | sbAppend c => cases ha; cases he; exact same_holds h rfl rfl rfl rfl hnum
  | sbAppendBlock =>
    cases ha
    simp only [Mach.act] at he
    split at he
    · cases he
    · obtain ⟨t, -, he⟩ := bind_ok he
      cases he; exact same_holds h rfl rfl rfl rfl hnum
  | opPush o => cases ha; cases he; exact same_holds h rfl rfl rfl rfl hnum

/-! ### Calls -/

theorem append_has {ρ : Vals} {a d : Option (List Held)} {c0 c : List Node} {s0 s : List Ref}
    (ha : Has ρ a c0 s0) (hd : Has ρ d c s) : Has ρ (append a d) (c0 ++ c) (s0 ++ s) := by
  cases a with
  | none => trivial
  | some a =>
    cases d with
    | none => trivial
    | some d =>
      simp only [append]
      split
      · rename_i h1
        rw [List.contains_iff_mem] at h1
        have := hd.2 h1
        subst this
        refine ⟨?_, fun e => ?_⟩
        · rw [kept_append, ha.1, hd.1, den_append, List.append_nil, den_noseq h1 (s' := s0)]
        · rw [ha.2 fun e' => e (List.mem_append_left _ e')]; rfl
      · rename_i h1
        simp only [List.contains_iff_mem, not_not] at h1
        split
        · rename_i h2
          rw [List.contains_iff_mem] at h2
          have := ha.2 h2
          subst this
          refine ⟨?_, fun e => absurd (List.mem_append_right _ h1) e⟩
          rw [kept_append, ha.1, hd.1, den_append, List.nil_append, den_noseq h2 (s' := s)]
        · split
          · rename_i d'
            split
            · rename_i h3
              obtain ⟨h3, h4, h5⟩ := h3
              simp only [List.contains_iff_mem] at h4 h5
              obtain ⟨a', rfl⟩ : ∃ a', a = a' ++ [.seq] := List.getLast?_eq_some_iff.1 h3
              rw [List.dropLast_concat] at h4
              refine ⟨?_, fun e => absurd (by simp) e⟩
              have hs : ∀ t l, den ρ t (.seq :: l) = t ++ den ρ t l := fun t l => by simp [den, Held.den]
              rw [kept_append, ha.1, hd.1]
              simp only [den_append, hs]
              rw [den_noseq h4 (s' := s0 ++ s), den_noseq h5 (s' := s0 ++ s)]
              simp [den]
            · trivial
          · trivial

theorem closed_has {s : HSum} (hc : s.closed = true) {ρ ρ' : Vals} (hρ : ρ.2 = ρ'.2) {c : List Node}
    {t : List Ref} (h : Has ρ s.items c t) : Has ρ' s.items c t := by
  unfold HSum.closed at hc
  cases hi : s.items with
  | none => trivial
  | some is =>
    rw [hi] at hc h
    refine ⟨?_, h.2⟩
    rw [h.1]
    unfold den
    refine List.flatMap_congr fun y hy => ?_
    have := List.all_eq_true.1 hc y hy
    cases y with
    | self => simp only [Held.den, hρ]
    | seq => rfl
    | var i => simp at this

theorem enter_holds {n : Nat} (h : HoldsAt m0 b0 rest A m) {m1 : Mach}
    (he : Mach.exec env (enterT n) m = .ok m1) :
    Holds m (.init n) m1 ∧ m1.frames = (if n = 0 then m.frames else List.replicate n none :: m.frames) := by
  obtain ⟨a, as, ha⟩ := h.blks.ne
  have hst := h.blks
  rw [ha] at hst
  obtain ⟨b, bs, hb, -⟩ := hst.top (a' := none)
  have key : ∀ F, m1 = { m with frames := F } → HFrame m.frames n F → Holds m (.init n) m1 := by
    rintro F rfl hF
    exact ⟨b, bs, hb, ⟨[], [], by simp [hb], has_nil _⟩, (fun is his => by cases his), fun _ => rfl,
      (fun e => by cases e), (fun i hi => by cases hi), hF, h.exact.same rfl rfl, h.num.same ⟨rfl, rfl, rfl⟩⟩
  by_cases hn : n = 0
  · subst hn
    cases he
    exact ⟨key m.frames rfl (.inl ⟨rfl, rfl⟩), rfl⟩
  · simp only [enterT, hn, if_false, Mach.exec, Mach.step, bind, Except.bind, Except.ok.injEq] at he
    subst he
    exact ⟨key _ rfl (.inr ⟨hn, _, rfl, by simp⟩), by simp [hn]⟩

theorem call_holds (h : HoldsAt m0 b0 rest A m) {s : HSum} (hc : s.closed = true) (ha : A.call s = some A')
    {n : Nat} {ts : List (Peg.Thunk Act)}
    (hts : ∀ m1 m2, Holds m (.init n) m1 → Mach.exec env ts m1 = .ok m2 → Holds m (s.toHold n) m2)
    (he : Mach.exec env (leaveT n ++ (ts ++ enterT n)) m = .ok m') : HoldsAt m0 b0 rest A' m' := by
  obtain ⟨m2, he2, he3⟩ := exec_app he
  obtain ⟨m1, he1, he2⟩ := exec_app he2
  obtain ⟨g1, -⟩ := enter_holds h he1
  obtain ⟨b, bs, g2⟩ := hts m1 m2 g1 he2
  have hm' : m' = { m2 with frames := m.frames } := by
    rcases g2.frame with ⟨e, e1⟩ | ⟨e, fr, e1, -⟩
    · have e : n = 0 := e
      subst e
      cases he3
      rw [← e1]
    · have e : n ≠ 0 := e
      simp only [leaveT, e, if_false, Mach.exec, Mach.step, bind, Except.bind, e1, Except.ok.injEq] at he3
      exact he3.symm
  subst hm'
  have hnum : Numbered ({ m2 with frames := m.frames } : Mach) := g2.num.same ⟨rfl, rfl, rfl⟩
  obtain ⟨c, t, e1, e2⟩ := g2.blks
  have e2 := closed_has hc (ρ := m2.vals) (ρ' := ({ m2 with frames := m.frames } : Mach).vals) rfl e2
  -- what was known before, with the new value of `$$`
  have main : ∀ {B : Hold}, HoldsAt m0 b0 rest B { m with self := m2.self } → B.prev = none →
      B.onTop (append · s.items) = some A' →
      HoldsAt m0 b0 rest A' { m2 with frames := m.frames } := by
    intro B hB hp ha
    unfold Hold.onTop at ha
    split at ha
    · cases ha
    · rename_i a as hbl
      cases ha
      have hst := hB.blks
      rw [hbl] at hst
      obtain ⟨b', bs', e3, e4⟩ := hst.top (a' := append a s.items)
      have e3 : m.blocks = b' :: bs' := e3
      have hent := g2.entry
      rw [e3] at hent
      cases hent
      refine ⟨hB.entry, ?_, ?_, hB.keep, hB.null, hB.nulls, hB.frame, g2.exact.same rfl rfl, hnum⟩
      · show HStk _ _ _ _ m2.blocks
        rw [e1]
        exact e4 c t fun c0 s0 h0 => append_has h0 e2
      · intro is his
        rw [hp] at his; cases his
  unfold Hold.call at ha
  simp only at ha
  split at ha
  · rename_i hk
    have hs : m2.self = m.self := g2.keep hk
    have : ({ m with self := m2.self } : Mach) = m := by rw [hs]
    exact main (by rw [this]; exact noPrev_holds h) rfl ha
  · have h1 := forgetSelf_holds (v := m2.self) h
    refine main (noPrev_holds (A := { A.forgetSelf with null := s.null }) ?_) rfl ha
    exact ⟨h1.entry, h1.blks, h1.prev, h1.keep, fun e => g2.null e, h1.nulls, h1.frame, h1.exact, h1.num⟩

/-! ### Expressions -/

/-- From `A` the thunks lead to `A'`. -/
def Leads (A A' : Hold) (ts : List (Peg.Thunk Act)) : Prop :=
  ∀ env m0 m m', Holds m0 A m → Mach.exec env ts m = .ok m' → Holds m0 A' m'

theorem Leads.trans {A B C : Hold} {ts us : List (Peg.Thunk Act)} (h1 : Leads A B ts) (h2 : Leads B C us) :
    Leads A C (us ++ ts) := by
  intro env m0 m m' h he
  obtain ⟨m1, e1, e2⟩ := exec_app he
  exact h2 env m0 m1 m' (h1 env m0 m m1 h e1) e2

theorem Leads.nil (A : Hold) : Leads A A [] := by
  intro env m0 m m' h he; cases he; exact h

theorem Leads.act {A A' : Hold} {a : Act} (h : A.act a = some A') (p : Nat) : Leads A A' [.act a p] := by
  intro env m0 m m' hh he
  obtain ⟨b0, rest, hh⟩ := hh
  exact ⟨b0, rest, act_holds hh h (exec_one he)⟩

theorem Leads.le {A B C : Hold} {ts : List (Peg.Thunk Act)} (h : Leads A B ts) (hl : B.le C = true) :
    Leads A C ts := fun env m0 m m' hh he => (h env m0 m m' hh he).le hl

theorem Leads.ge {A B C : Hold} {ts : List (Peg.Thunk Act)} (h : Leads B C ts) (hl : A.le B = true) :
    Leads A C ts := fun env m0 m m' hh he => h env m0 m m' (hh.le hl) he

theorem itemsLe_refl (a : Option (List Held)) : itemsLe a a = true := by
  cases a <;> simp [itemsLe]

theorem Hold.le_refl (A : Hold) : A.le A = true := by
  have : ∀ l : List (Option (List Held)), allLe itemsLe l l = true := by
    intro l
    induction l with
    | nil => rfl
    | cons a l ih => simp [allLe, itemsLe_refl, ih]
  simp [Hold.le, this, itemsLe_refl]

/-- One description implies another. -/
def HImp (A B : Hold) : Prop := ∀ m0 m, Holds m0 A m → Holds m0 B m

theorem holdLoop_fix {f : Hold → Option Hold} : ∀ (n : Nat) {A J : Hold}, holdLoop f n A = some J →
    HImp A J ∧ (∀ k, holdLoop f (k + 1) J = some J) ∧ ∃ B, f J = some B ∧ B.le J = true
  | 0, _, _, h => by cases h
  | n + 1, A, J, h => by
    simp only [holdLoop] at h
    split at h
    · cases h
    · rename_i B hf
      split at h
      · cases h
      · rename_i K hj
        obtain ⟨l1, l2⟩ := Hold.join_le hj
        split at h
        · rename_i he
          cases h
          subst he
          exact ⟨fun _ _ h => h, fun k => by simp only [holdLoop, hf, hj, if_true], B, hf, l2⟩
        · obtain ⟨h1, h2⟩ := holdLoop_fix n h
          exact ⟨fun m0 m h => h1 _ _ (h.le l1), h2⟩

/-- The thunks of a successful match do what the analysis says. -/
theorem ftr_sound {T : Rule → HSum} (hT : ∀ r, holdOk T r = true) {w : List UInt8} {e : E} {p : Nat} {q : QState}
    {res : SkRes} (h : Sk w e p q res) : ∀ p' ts q', res = .ok p' ts q' → ∀ A A', ftr T e A = some A' →
      Leads A A' ts := by
  induction h with
  | eps => rintro _ _ _ ⟨⟩ A A' ⟨⟩; exact .nil A
  | one_ok => rintro _ _ _ ⟨⟩ A A' ⟨⟩; exact .nil A
  | one_no => rintro _ _ _ ⟨⟩
  | str_ok => rintro _ _ _ ⟨⟩ A A' ⟨⟩; exact .nil A
  | str_no => rintro _ _ _ ⟨⟩
  | @nt_ok r v p q p' ts q' hb ih =>
    rintro _ _ _ ⟨⟩ A A' hA
    simp only [ftr] at hA
    cases hin : inlined r with
    | some a =>
      simp only [hin, Option.bind_eq_some_iff] at hA
      obtain ⟨A1, h1, h2⟩ := hA
      obtain ⟨hn, x, hx, hxa⟩ := inlined_body hin
      rw [hx] at hb
      cases hb with
      | pred_ok hp =>
        have hrec : recT x p = [.act a p] := by
          cases x <;> cases hxa <;> rfl
        rw [hn, hrec]
        simp only [leaveT, enterT, if_true, List.nil_append, List.append_nil]
        exact (Leads.act h1 p).trans fun env m0 m m' hh he => setSelf_holds hh h2 he
    | none =>
      simp only [hin, Option.bind_eq_some_iff] at hA
      obtain ⟨A1, h1, h2⟩ := hA
      have hok := hT r
      simp only [holdOk, hin, Option.isSome_none, Bool.false_or] at hok
      split at hok
      · rename_i B htr
        simp only [Bool.and_eq_true] at hok
        have hl := (ih _ _ _ rfl _ _ htr).le hok.2
        refine Leads.trans (B := A1) ?_ fun env m0 m m' hh he => setSelf_holds hh h2 he
        intro env m0 m m' hh he
        obtain ⟨b0, rest, hh⟩ := hh
        exact ⟨b0, rest, call_holds hh hok.1 h1 (fun m1 m2 g1 g2 => hl env m m1 m2 g1 g2) he⟩
      · cases hok
  | nt_no => rintro _ _ _ ⟨⟩
  | @seq_ok a b p q p1 ts q1 p2 us q2 ha hb iha ihb =>
    rintro _ _ _ ⟨⟩ A A' hA
    simp only [ftr, Option.bind_eq_some_iff] at hA
    obtain ⟨B, h1, h2⟩ := hA
    exact (iha _ _ _ rfl A B h1).trans (ihb _ _ _ rfl B A' h2)
  | seq_no => rintro _ _ _ ⟨⟩
  | seq_no2 => rintro _ _ _ ⟨⟩
  | @alt_ok a b p q p1 ts q1 ha iha =>
    rintro _ _ _ ⟨⟩ A A' hA
    simp only [ftr] at hA
    split at hA
    · rename_i x y hx hy
      exact (iha _ _ _ rfl A x hx).le (Hold.join_le hA).1
    · cases hA
  | @alt_no a b p q q1 res ha hb iha ihb =>
    rintro _ _ _ rfl A A' hA
    simp only [ftr] at hA
    split at hA
    · rename_i x y hx hy
      exact (ihb _ _ _ rfl A y hy).le (Hold.join_le hA).2
    · cases hA
  | @star_more a p q p1 ts q1 p2 us q2 ha hb iha ihb =>
    rintro _ _ _ ⟨⟩ A A' hA
    simp only [ftr] at hA
    obtain ⟨h1, h2, B, h3, h4⟩ := holdLoop_fix 6 hA
    have := ((iha _ _ _ rfl A' B h3).le h4).trans (ihb _ _ _ rfl A' A' (h2 5))
    exact fun env m0 m m' hh he => this env m0 m m' (h1 _ _ hh) he
  | @star_end a p q q1 ha iha =>
    rintro _ _ _ ⟨⟩ A A' hA
    simp only [ftr] at hA
    obtain ⟨h1, -⟩ := holdLoop_fix 6 hA
    intro env m0 m m' hh he
    cases he
    exact h1 _ _ hh
  | peek_ok => rintro _ _ _ ⟨⟩ A A' ⟨⟩; exact .nil A
  | peek_no => rintro _ _ _ ⟨⟩
  | npeek_ok => rintro _ _ _ ⟨⟩
  | npeek_no => rintro _ _ _ ⟨⟩ A A' ⟨⟩; exact .nil A
  | @pred_ok x p q q' hp =>
    rintro _ _ _ ⟨⟩ A A' hA
    simp only [ftr] at hA
    cases hx : x.act with
    | none =>
      rw [hx] at hA
      cases hA
      have : recT x p = [] := by cases x <;> first | rfl | cases hx
      rw [this]
      exact .nil A
    | some a =>
      rw [hx] at hA
      have : recT x p = [.act a p] := by cases x <;> cases hx <;> rfl
      rw [this]
      exact .act hA p
  | pred_no => rintro _ _ _ ⟨⟩
  | @act a p q => rintro _ _ _ ⟨⟩ A A' hA; exact .act hA p
  | onfail_ok h ih =>
    rintro _ _ _ ⟨⟩ A A' hA
    simp only [ftr] at hA
    exact ih _ _ _ rfl A A' hA
  | onfail_no => rintro _ _ _ ⟨⟩

end Verif.Cypher
