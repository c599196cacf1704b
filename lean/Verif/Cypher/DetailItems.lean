import Verif.Cypher.Detail
/-!
# Texts that tell what they were made of

The text of most `detailstr` functions is a list of items. `ok` checks that the items can be told apart.
-/
namespace Verif.Cypher
open Verif List

inductive Item where
  | lit (t : List UInt8)
  | arg (i : Nat)
  | opt (i : Nat) (pre post : List UInt8)
  | flag (k : Nat) (t : List UInt8)
  | pick (k : Nat) (ts : List (List UInt8))
  /-- elements of an array with `first` before the first, then `p` and `q` in turn, and `last` after the last -/
  | rep (k : Nat) (first p q last : List UInt8)
  deriving DecidableEq, Repr

/-- Elements with `p` and `q` before them in turn. -/
def altToks : List UInt8 → List UInt8 → List Nat → List Tok
  | _, _, [] => []
  | p, q, x :: xs => lits p ++ .ord x :: altToks q p xs

def Item.toks (g : Given) : Item → List Tok
  | .lit t => lits t
  | .arg i => match g.arg i with | none => [] | some o => [.ord o]
  | .opt i pre post => match g.arg i with | none => [] | some o => lits pre ++ .ord o :: lits post
  | .flag k t => if g.flag k = 0 then [] else lits t
  | .pick k ts => lits (ts[g.flag k]?.getD [])
  | .rep k first p q last =>
    match g.array k with
    | [] => []
    | x :: xs => lits first ++ .ord x :: (altToks p q xs ++ lits last)

def itemToks (g : Given) (is : List Item) : List Tok := is.flatMap (Item.toks g)

@[simp] theorem itemToks_nil {g : Given} : itemToks g [] = [] := rfl
@[simp] theorem itemToks_cons {g : Given} {i : Item} {is : List Item} :
    itemToks g (i :: is) = i.toks g ++ itemToks g is := rfl
theorem itemToks_append {g : Given} {a b : List Item} : itemToks g (a ++ b) = itemToks g a ++ itemToks g b := by
  simp [itemToks]

/-- What must be there is. -/
def Item.Present (g : Given) : Item → Prop
  | .arg i => g.arg i ≠ none
  | .pick k ts => g.flag k < ts.length
  | _ => True

/-- What an item shows is the same. -/
def Item.Agree (g g' : Given) : Item → Prop
  | .lit _ => True
  | .arg i | .opt i _ _ => g.arg i = g'.arg i
  | .flag k _ => g.flag k = 0 ↔ g'.flag k = 0
  | .pick k _ => g.flag k = g'.flag k
  | .rep k _ _ _ _ => g.array k = g'.array k

/-! ## Patterns -/

/-- A byte, or some ordinal. -/
abbrev Sym := Option UInt8

def Tok.sym : Tok → Sym
  | .ord _ => none
  | .ch c => some c

def syms (t : List UInt8) : List Sym := t.map some

theorem map_sym_lits {t : List UInt8} : (lits t).map Tok.sym = syms t := by
  simp [lits, syms, Tok.sym, Function.comp_def]

/-- What is left of a pattern after `t`, if `t` fits. -/
def strip : List Sym → List Sym → Option (List Sym)
  | l, [] => some l
  | [], _ => some []
  | x :: l, y :: t => if x = y then strip l t else none

theorem strip_spec : ∀ {l t s : List Sym}, l <+: t ++ s → ∃ l', strip l t = some l' ∧ l' <+: s
  | l, [], s, h => ⟨l, by cases l <;> rfl, h⟩
  | [], y :: t, s, _ => ⟨[], rfl, nil_prefix⟩
  | x :: l, y :: t, s, h => by
    rw [cons_append, cons_prefix_cons] at h
    obtain ⟨rfl, h⟩ := h
    simpa [strip] using strip_spec h

/-- No text of the items begins with the pattern. -/
def avoids : List Sym → List Item → Bool
  | [], _ => false
  | _ :: _, [] => true
  | l, .lit t :: is => match strip l (syms t) with | none => true | some l => avoids l is
  | l, .arg _ :: is => match strip l [none] with | none => true | some l => avoids l is
  | l, .opt _ pre post :: is =>
    (match strip l (syms pre ++ none :: syms post) with | none => true | some l => avoids l is) && avoids l is
  | l, .flag _ t :: is => (match strip l (syms t) with | none => true | some l => avoids l is) && avoids l is
  | l, .pick _ ts :: is => ts.all fun t => match strip l (syms t) with | none => true | some l => avoids l is
  | l, .rep _ first _ _ _ :: is => (strip l (syms first ++ [none])).isNone && avoids l is

theorem avoids_nil {is : List Item} : avoids [] is = false := by cases is <;> rfl

theorem avoids_strip {l : List Sym} {t : List Sym} {is : List Item} {s : List Sym}
    (h : (match strip l t with | none => true | some l => avoids l is) = true)
    (ih : ∀ l, avoids l is = true → ¬ l <+: s) : ¬ l <+: t ++ s := fun hp => by
  obtain ⟨l', h1, h2⟩ := strip_spec hp
  rw [h1] at h
  exact ih _ h h2

theorem avoids_spec {g : Given} : ∀ {is : List Item} {l : List Sym}, avoids l is = true →
    (∀ i ∈ is, i.Present g) → ¬ l <+: (itemToks g is).map Tok.sym
  | is, [], h, _ => by rw [avoids_nil] at h; cases h
  | [], x :: l, _, _ => by simp
  | i :: is, x :: l, h, hp => by
    have ih : ∀ l, avoids l is = true → ¬ l <+: (itemToks g is).map Tok.sym :=
      fun l hl => avoids_spec hl fun i hi => hp i (mem_cons_of_mem _ hi)
    have hi := hp i mem_cons_self
    rw [itemToks_cons, map_append]
    cases i with
    | lit t =>
      simp only [avoids] at h
      simp only [Item.toks, map_sym_lits]
      exact avoids_strip h ih
    | arg i =>
      simp only [avoids] at h
      simp only [Item.Present] at hi
      simp only [Item.toks]
      cases ha : g.arg i with
      | none => exact absurd ha hi
      | some o => exact avoids_strip h ih
    | opt i pre post =>
      simp only [avoids, Bool.and_eq_true] at h
      simp only [Item.toks]
      cases ha : g.arg i with
      | none => exact ih _ h.2
      | some o =>
        simp only [map_append, map_cons, map_sym_lits, Tok.sym]
        exact avoids_strip h.1 ih
    | flag k t =>
      simp only [avoids, Bool.and_eq_true] at h
      simp only [Item.toks]
      split
      · exact ih _ h.2
      · rw [map_sym_lits]; exact avoids_strip h.1 ih
    | pick k ts =>
      simp only [avoids, all_eq_true] at h
      simp only [Item.Present] at hi
      simp only [Item.toks, map_sym_lits, getElem?_eq_getElem hi, Option.getD_some]
      exact avoids_strip (h _ (getElem_mem hi)) ih
    | rep k first p q last =>
      simp only [avoids, Bool.and_eq_true, Option.isNone_iff_eq_none] at h
      simp only [Item.toks]
      cases ha : g.array k with
      | nil => exact ih _ h.2
      | cons y ys =>
        simp only [map_append, map_cons, map_sym_lits, Tok.sym]
        intro hp
        have e : (syms first ++ none :: (map Tok.sym (altToks p q ys) ++ syms last)) ++
            (itemToks g is).map Tok.sym = (syms first ++ [none]) ++
              (map Tok.sym (altToks p q ys) ++ syms last ++ (itemToks g is).map Tok.sym) := by simp
        rw [e] at hp
        obtain ⟨l', h1, _⟩ := strip_spec hp
        rw [h.1] at h1; cases h1

/-! ## Items that can be told apart -/

def Item.ok (is : List Item) : Item → Bool
  | .lit _ | .arg _ => true
  | .opt _ pre post => avoids (syms pre ++ none :: syms post) is
  | .flag _ t => avoids (syms t) is
  | .pick _ ts => (range ts.length).all fun i => (range ts.length).all fun j =>
      i == j || (strip (syms (ts[i]?.getD [])) (syms (ts[j]?.getD []))).isNone &&
        (strip (syms (ts[j]?.getD [])) (syms (ts[i]?.getD []))).isNone
  | .rep _ first p q last => avoids (syms first ++ [none]) is && avoids (syms p ++ [none]) (.lit last :: is) &&
      avoids (syms q ++ [none]) (.lit last :: is)

def ok : List Item → Bool
  | [] => true
  | i :: is => i.ok is && ok is

theorem prefix_syms {t : List UInt8} {r : List Tok} : syms t <+: (lits t ++ r).map Tok.sym := by
  rw [map_append, map_sym_lits]; exact prefix_append _ _

theorem prefix_syms_ord {t : List UInt8} {o : Nat} {r : List Tok} :
    syms t ++ [none] <+: (lits t ++ .ord o :: r).map Tok.sym := by
  rw [map_append, map_sym_lits, map_cons, prefix_append_right_inj]
  exact cons_prefix_cons.2 ⟨rfl, nil_prefix⟩

theorem prefix_syms_opt {t u : List UInt8} {o : Nat} {r : List Tok} :
    syms t ++ none :: syms u <+: (lits t ++ .ord o :: (lits u ++ r)).map Tok.sym := by
  rw [map_append, map_sym_lits, map_cons, prefix_append_right_inj]
  exact cons_prefix_cons.2 ⟨rfl, prefix_syms⟩

theorem alt_inj {t t' : List Tok} : ∀ {xs ys : List Nat} {p q : List UInt8},
    (∀ r : List UInt8, r = p ∨ r = q → ¬ syms r ++ [none] <+: t.map Tok.sym) →
    (∀ r : List UInt8, r = p ∨ r = q → ¬ syms r ++ [none] <+: t'.map Tok.sym) →
    altToks p q xs ++ t = altToks p q ys ++ t' → xs = ys ∧ t = t'
  | [], [], _, _, _, _, h => ⟨rfl, h⟩
  | [], y :: ys, p, q, h1, _, h => by
    refine absurd ?_ (h1 p (.inl rfl))
    have h' : t = altToks p q (y :: ys) ++ t' := h
    rw [h', altToks, append_assoc]
    exact prefix_syms_ord
  | x :: xs, [], p, q, _, h2, h => by
    refine absurd ?_ (h2 p (.inl rfl))
    have h' : altToks p q (x :: xs) ++ t = t' := h
    rw [← h', altToks, append_assoc]
    exact prefix_syms_ord
  | x :: xs, y :: ys, p, q, h1, h2, h => by
    simp only [altToks, append_assoc, cons_append] at h
    have h := append_cancel_left h
    injection h with ho h
    injection ho with ho
    obtain ⟨h3, h4⟩ := alt_inj (fun r hr => h1 r hr.symm) (fun r hr => h2 r hr.symm) h
    exact ⟨by rw [ho, h3], h4⟩

theorem strip_lits {a b : List UInt8} {t t' : List Tok} (h : lits a ++ t = lits b ++ t') :
    (strip (syms a) (syms b)) ≠ none ∨ strip (syms b) (syms a) ≠ none := by
  have h1 := congrArg (List.map Tok.sym) h
  simp only [map_append, map_sym_lits] at h1
  rcases Nat.le_total a.length b.length with hl | hl
  · left
    have : syms a <+: syms b ++ [] := by
      rw [append_nil]
      exact prefix_of_prefix_length_le ⟨_, h1⟩ (prefix_append _ _) (by simpa [syms] using hl)
    obtain ⟨l, h2, _⟩ := strip_spec this
    rw [h2]; simp
  · right
    have : syms b <+: syms a ++ [] := by
      rw [append_nil]
      exact prefix_of_prefix_length_le ⟨_, h1.symm⟩ (prefix_append _ _) (by simpa [syms] using hl)
    obtain ⟨l, h2, _⟩ := strip_spec this
    rw [h2]; simp

/-- Items that pass the check show the same if they have the same text. -/
theorem items_agree {g g' : Given} : ∀ {is : List Item}, ok is = true → (∀ i ∈ is, i.Present g) →
    (∀ i ∈ is, i.Present g') → itemToks g is = itemToks g' is → ∀ i ∈ is, i.Agree g g'
  | [], _, _, _, _ => by simp
  | i :: is, hok, hp, hp', h => by
    simp only [ok, Bool.and_eq_true] at hok
    have hq : ∀ i ∈ is, i.Present g := fun i hi => hp i (mem_cons_of_mem _ hi)
    have hq' : ∀ i ∈ is, i.Present g' := fun i hi => hp' i (mem_cons_of_mem _ hi)
    have ih := items_agree hok.2 hq hq'
    have av : ∀ l, avoids l is = true → ¬ l <+: (itemToks g is).map Tok.sym := fun l hl => avoids_spec hl hq
    have av' : ∀ l, avoids l is = true → ¬ l <+: (itemToks g' is).map Tok.sym := fun l hl => avoids_spec hl hq'
    have hi := hp i mem_cons_self
    have hi' := hp' i mem_cons_self
    have hk := hok.1
    rw [itemToks_cons, itemToks_cons] at h
    suffices i.Agree g g' ∧ itemToks g is = itemToks g' is by
      intro j hj
      rcases mem_cons.1 hj with rfl | hj
      · exact this.1
      · exact ih this.2 j hj
    cases i with
    | lit t => exact ⟨trivial, append_cancel_left h⟩
    | arg i =>
      simp only [Item.Present] at hi hi'
      simp only [Item.toks, Item.Agree] at h ⊢
      cases ha : g.arg i with
      | none => exact absurd ha hi
      | some o =>
        cases ha' : g'.arg i with
        | none => exact absurd ha' hi'
        | some o' =>
          simp only [ha, ha'] at h
          injection h with ho h
          injection ho with ho
          exact ⟨by rw [ho], h⟩
    | opt i pre post =>
      simp only [Item.ok] at hk
      simp only [Item.toks, Item.Agree] at h ⊢
      cases ha : g.arg i with
      | none =>
        cases ha' : g'.arg i with
        | none => simp only [ha, ha'] at h; exact ⟨rfl, h⟩
        | some o' =>
          simp only [ha, ha', nil_append] at h
          refine absurd ?_ (av _ hk)
          rw [h, append_assoc, cons_append]; exact prefix_syms_opt
      | some o =>
        cases ha' : g'.arg i with
        | none =>
          simp only [ha, ha', nil_append] at h
          refine absurd ?_ (av' _ hk)
          rw [← h, append_assoc, cons_append]; exact prefix_syms_opt
        | some o' =>
          simp only [ha, ha', append_assoc, cons_append] at h
          have h := append_cancel_left h
          injection h with ho h
          injection ho with ho
          exact ⟨by rw [ho], append_cancel_left h⟩
    | flag k t =>
      simp only [Item.ok] at hk
      simp only [Item.toks, Item.Agree] at h ⊢
      by_cases ha : g.flag k = 0 <;> by_cases ha' : g'.flag k = 0
      · simp only [ha, ha', if_true] at h; exact ⟨by simp [ha, ha'], h⟩
      · simp only [ha, ha', if_true, if_false, nil_append] at h
        refine absurd ?_ (av _ hk)
        rw [h]; exact prefix_syms
      · simp only [ha, ha', if_true, if_false, nil_append] at h
        refine absurd ?_ (av' _ hk)
        rw [← h]; exact prefix_syms
      · simp only [ha, ha', if_false] at h; exact ⟨by simp [ha, ha'], append_cancel_left h⟩
    | pick k ts =>
      simp only [Item.Present] at hi hi'
      simp only [Item.toks, Item.Agree] at h ⊢
      by_cases e : g.flag k = g'.flag k
      · rw [e] at h; exact ⟨e, append_cancel_left h⟩
      · simp only [Item.ok, all_eq_true, mem_range, Bool.or_eq_true, beq_iff_eq, Bool.and_eq_true,
          Option.isNone_iff_eq_none] at hk
        rcases hk _ hi _ hi' with h1 | h1
        · exact absurd h1 e
        · rcases strip_lits h with h2 | h2
          · exact absurd h1.1 h2
          · exact absurd h1.2 h2
    | rep k first p q last =>
      simp only [Item.ok, Bool.and_eq_true] at hk
      simp only [Item.toks, Item.Agree] at h ⊢
      have sp : ∀ {l : List Sym}, avoids l (.lit last :: is) = true →
          ¬ l <+: (lits last ++ itemToks g is).map Tok.sym := fun hl =>
        avoids_spec (is := .lit last :: is) hl (by simpa [Item.Present] using hq)
      have sp' : ∀ {l : List Sym}, avoids l (.lit last :: is) = true →
          ¬ l <+: (lits last ++ itemToks g' is).map Tok.sym := fun hl =>
        avoids_spec (is := .lit last :: is) hl (by simpa [Item.Present] using hq')
      cases ha : g.array k with
      | nil =>
        cases ha' : g'.array k with
        | nil => simp only [ha, ha'] at h; exact ⟨rfl, h⟩
        | cons y ys =>
          simp only [ha, ha', nil_append] at h
          refine absurd ?_ (av _ hk.1.1)
          rw [h, append_assoc]; exact prefix_syms_ord
      | cons x xs =>
        cases ha' : g'.array k with
        | nil =>
          simp only [ha, ha', nil_append] at h
          refine absurd ?_ (av' _ hk.1.1)
          rw [← h, append_assoc]; exact prefix_syms_ord
        | cons y ys =>
          simp only [ha, ha', append_assoc, cons_append] at h
          have h := append_cancel_left h
          injection h with ho h
          injection ho with ho
          obtain ⟨h3, h4⟩ := alt_inj (by rintro r (rfl | rfl); exacts [sp hk.1.2, sp hk.2])
            (by rintro r (rfl | rfl); exacts [sp' hk.1.2, sp' hk.2]) h
          exact ⟨by rw [ho, h3], append_cancel_left h4⟩

end Verif.Cypher
