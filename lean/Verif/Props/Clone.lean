import Verif.Cypher.Clone
import Verif.Cypher.Nesting
import Verif.Cypher.AbsBuild
import Verif.Props.Cypher
import Verif.Props.Quick
/-!
# Property C12: copies of trees

What a faithful copy is, when `cypher_ast_clone` returns one, and when it does not.
-/
namespace Verif
open Verif.Cypher Verif.Peg

variable {σ : Type}

/-- The field `y` of the copy is what the field `x` of the original is: both absent, or both the child at
the same position. -/
def FieldCopied (old new : List Node) : Option Ref → Option Ref → Prop
  | none, none => True
  | some r, some r' => ∃ (i : Nat) (a b : Node), old[i]? = some a ∧ a.ref = r ∧ new[i]? = some b ∧ b.ref = r'
  | _, _ => False

/-- The second tree is a copy of the first: the same kinds of nodes with the same operators, texts and
ranges, and the same fields. -/
inductive Copied : Node → Node → Prop
  | mk {n n' : Node} : n'.ctor = n.ctor → n'.ops = n.ops → n'.range = n.range →
      (n.ctor.terminal.isSome → n'.text = n.text) →
      List.Forall₂ (FieldCopied n.children n'.children) n.args n'.args →
      List.Forall₂ (fun r r' => FieldCopied n.children n'.children (some r) (some r')) n.seq n'.seq →
      n'.children.length = n.children.length →
      (∀ (i : Nat) (a b : Node), n.children[i]? = some a → n'.children[i]? = some b → Copied a b) → Copied n n'

/-- What is found is what was looked for. -/
def Find.Sound (find : Find) : Prop :=
  ∀ old x i, find old x = .ok i → ∃ a, old[i]? = some a ∧ x = some a.ref

theorem childIndex_sound : Find.Sound childIndex := by
  intro old x i h
  cases old with
  | nil => cases h
  | cons c old =>
    simp only [childIndex] at h
    split at h
    · rename_i e
      cases h
      exact ⟨c, rfl, e.symm⟩
    · cases h

/-- The fields lost by clone functions, by their position among the arguments of the builders: the predicate of
START, SKIP and LIMIT of WITH and RETURN, and the predicates of pattern comprehensions and of NONE. -/
def lostField : Ctor → Nat → Bool
  | .startClause, 0 => true
  | .withClause _ _, 1 | .withClause _ _, 2 => true
  | .returnClause _ _, 1 | .returnClause _ _, 2 => true
  | .patternComprehension, 2 => true
  | .nonePredicate, 2 => true
  | _, _ => false

theorem lostField_iff (c : Ctor) (i : Nat) : lostField c i = true ↔ c.keeps[i]? = some .inverted := by
  cases c <;> (
    rcases i with _ | _ | _ | _ | _ | i <;> simp [lostField, Ctor.keeps])

/-- The nodes that the clone functions treat as they should, leaving `child_index` aside: the text has no
NUL, no field gets lost, and the constructor is the right one. -/
def Plain (n : Node) : Prop :=
  0 ∉ n.text ∧ (∀ i, lostField n.ctor i = false) ∧ ∀ b, n.ctor ≠ .dropRelPropConstraint b

theorem Plain.keeps {n : Node} (h : Plain n) : Keep.inverted ∉ n.ctor.keeps := fun hm => by
  obtain ⟨i, hi⟩ := List.getElem?_of_mem hm
  have := (lostField_iff _ _).2 hi
  rw [h.2.1 i] at this
  cases this

theorem Plain.cloned {n : Node} (h : Plain n) : n.ctor.cloned = n.ctor := by
  have h3 := h.2.2
  revert h3
  cases n.ctor <;> intro h3 <;> first | rfl | exact absurd rfl (h3 _)

/-! ## Inversion -/

section
variable {find : Find} {old new : List Node}

theorem fieldOf_ok (hs : Find.Sound find) {x y : Option Ref} (h : fieldOf find old new x = .ok y) :
    FieldCopied old new x y ∧ x.isSome = true ∧ ∃ i, find old x = .ok i := by
  unfold fieldOf at h
  cases hf : find old x with
  | error e => rw [hf] at h; cases h
  | ok i =>
    rw [hf] at h
    simp only [bind, Except.bind] at h
    split at h
    · rename_i n hn
      cases h
      obtain ⟨a, h1, h2⟩ := hs _ _ _ hf
      subst h2
      exact ⟨⟨i, a, n, h1, rfl, hn, rfl⟩, rfl, i, rfl⟩
    · cases h

theorem copyArgs_ok (hs : Find.Sound find) : ∀ {ks : List Keep} {xs ys : List (Option Ref)}, ks.length = xs.length →
    copyArgs find old new ks xs = .ok ys →
    (Keep.inverted ∉ ks → List.Forall₂ (FieldCopied old new) xs ys) ∧
    List.Forall₂ (fun k x => match k with
      | .plain => ∃ i, find old x = .ok i
      | .opt => x = none ∨ ∃ i, find old x = .ok i
      | .inverted => x.isSome = true) ks xs := by
  intro ks
  induction ks with
  | nil =>
    intro xs ys hl h
    cases xs with
    | nil => cases h; exact ⟨fun _ => .nil, .nil⟩
    | cons x xs => simp at hl
  | cons k ks ih =>
    intro xs ys hl h
    cases xs with
    | nil => simp at hl
    | cons x xs =>
      simp only [copyArgs, bind, Except.bind] at h
      split at h
      · cases h
      · rename_i y hy
        split at h
        · cases h
        · rename_i ys' hys
          cases h
          obtain ⟨h1, h2⟩ := ih (by simpa using hl) hys
          constructor
          · intro hk
            refine .cons ?_ (h1 fun hm => hk (List.mem_cons_of_mem _ hm))
            cases k with
            | plain => exact (fieldOf_ok hs hy).1
            | opt =>
              cases x with
              | none => cases hy; trivial
              | some r => exact (fieldOf_ok hs hy).1
            | inverted => exact absurd (List.mem_cons_self ..) hk
          · refine .cons ?_ h2
            cases k with
            | plain => exact (fieldOf_ok hs hy).2.2
            | opt =>
              cases x with
              | none => exact .inl rfl
              | some r => exact .inr (fieldOf_ok hs hy).2.2
            | inverted =>
              cases x with
              | none =>
                have := (fieldOf_ok hs hy).2.1
                cases this
              | some r => rfl

theorem copySeq_ok (hs : Find.Sound find) : ∀ {xs ys : List Ref}, copySeq find old new xs = .ok ys →
    List.Forall₂ (fun r r' => FieldCopied old new (some r) (some r')) xs ys ∧
    ∀ r ∈ xs, ∃ i, find old (some r) = .ok i := by
  intro xs
  induction xs with
  | nil => intro ys h; cases h; exact ⟨.nil, by simp⟩
  | cons x xs ih =>
    intro ys h
    simp only [copySeq, bind, Except.bind] at h
    split at h
    · cases h
    · rename_i y hy
      split at h
      · cases h
      · rename_i ys' hys
        split at h
        · rename_i y'
          cases h
          obtain ⟨h1, h2⟩ := ih hys
          obtain ⟨h3, -, h4⟩ := fieldOf_ok hs hy
          refine ⟨.cons h3 h1, ?_⟩
          intro r hr
          rcases List.mem_cons.1 hr with rfl | hr
          · exact h4
          · exact h2 r hr
        · cases h

end

theorem construct_ok {id : Nat} {c : Ctor} {ops : List Op} {args : List (Option Ref)} {seq : List Ref}
    {range : Range} {children : List Node} {n : Node}
    (h : construct id c ops args seq range children = .ok n) : n = .mk id c ops args seq [] range children := by
  unfold construct at h
  split at h
  · split at h
    · cases h
    · cases h
    · cases h; rfl
  · cases h

theorem takeWhile_of_all {α : Type} {p : α → Bool} : ∀ {xs : List α}, (∀ x ∈ xs, p x = true) → xs.takeWhile p = xs
  | [], _ => rfl
  | x :: xs, h => by
    rw [List.takeWhile_cons, if_pos (h x (by simp)), takeWhile_of_all fun y hy => h y (by simp [hy])]

theorem rebuild_mk {find : Find} {id i : Nat} {c : Ctor} {ops : List Op} {args : List (Option Ref)}
    {seq : List Ref} {text : List UInt8} {range : Range} {children new : List Node} :
    rebuild find id (.mk i c ops args seq text range children) new =
      if c.terminal.isSome then .ok (.mk id c ops args seq (text.takeWhile (· ≠ 0)) range [])
      else (do
        let args ← copyArgs find children new c.keeps args
        if c.halved then
          let half ← copySeq find children new (seq.take (seq.length / 2))
          if half ≠ [] then .error .bounds
          else construct id c.cloned ops args [] range new
        else
          let seq ← copySeq find children new seq
          construct id c.cloned ops args seq range new) := rfl

theorem keeps_length (c : Ctor) : c.keeps.length = c.wants.1.length := by
  cases c <;> rfl

theorem _root_.Verif.Cypher.Fits.length {children : List Node} : ∀ {ws : List Want} {xs : List (Option Ref)}, Fits children ws xs →
    ws.length = xs.length
  | [], [], _ => rfl
  | [], _ :: _, h => h.elim
  | _ :: _, [], h => h.elim
  | _ :: _, _ :: _, h => by simpa using Fits.length h.2

theorem halved_even {c : Ctor} (hc : c.halved = true) {s : List Ref} (h : c.wants.2.Typed s) :
    s.length % 2 = 0 := by
  cases c <;> first | cases hc | skip
  · exact h.2.1
  · exact h.1

/-! ## Copies are faithful -/

section
variable {find : Find}

mutual
theorem cloneWith_copied (hs : Find.Sound find) : ∀ (n : Node) {next : Nat} {r : Node × Nat},
    cloneWith find n next = .ok r → WellTyped n → Everywhere Plain n → Copied n r.1
  | .mk id c ops args seq text range children, next, r, h, hw, hp => by
    simp only [cloneWith] at h
    split at h
    · cases h
    · rename_i new next' hc
      split at h
      · cases h
      · rename_i n' hr
        cases h
        cases hw with
        | mk w1 w2 w3 w4 w5 w6 =>
        cases hp with
        | mk p1 p2 =>
        obtain ⟨hl, hch⟩ := cloneAll_copied hs children hc w6 p2
        obtain ⟨q1, q2, q3⟩ := (⟨p1.1, p1.keeps, p1.cloned⟩ : _ ∧ _ ∧ _)
        simp only [Node.text, Node.ctor] at q1 q2 q3
        rw [rebuild_mk] at hr
        split at hr
        · rename_i ht
          cases hr
          have he : children = [] := w4 ht
          subst he
          have hwt : c.wants = ([], .none) := by cases c <;> first | rfl | cases ht
          have ha : args = [] := by
            rw [hwt] at w1
            cases args with
            | nil => rfl
            | cons _ _ => exact w1.elim
          have hq : seq = [] := by
            have := w2.1
            rw [hwt] at this
            exact this
          subst ha; subst hq
          refine .mk rfl rfl rfl ?_ .nil .nil rfl (by intro i a b h; simp [Node.children] at h)
          intro _
          simp only [Node.text]
          apply takeWhile_of_all
          intro x hx
          simp only [ne_eq, decide_eq_true_eq]
          rintro rfl
          exact q1 hx
        · rename_i ht
          have hkl : c.keeps.length = args.length := by rw [keeps_length, w1.length]
          cases ha : copyArgs find children new c.keeps args with
          | error e => rw [ha] at hr; cases hr
          | ok args' =>
            rw [ha] at hr
            simp only [bind, Except.bind] at hr
            have hargs := (copyArgs_ok hs hkl ha).1 q2
            split at hr
            · rename_i hh
              cases hq : copySeq find children new (seq.take (seq.length / 2)) with
              | error e => rw [hq] at hr; cases hr
              | ok half =>
                rw [hq] at hr
                simp only at hr
                split at hr
                · cases hr
                · rename_i hne
                  have hne : half = [] := by simpa using hne
                  subst hne
                  have hf := (copySeq_ok hs hq).1
                  have hlen := hf.length_eq
                  have := halved_even hh w2.1
                  have hq0 : seq = [] := by
                    apply List.eq_nil_of_length_eq_zero
                    rw [List.length_take, List.length_nil] at hlen
                    omega
                  subst hq0
                  have := construct_ok hr
                  subst this
                  rw [q3]
                  exact .mk rfl rfl rfl (fun h => absurd h ht) hargs .nil hl hch
            · cases hq : copySeq find children new seq with
              | error e => rw [hq] at hr; cases hr
              | ok seq' =>
                rw [hq] at hr
                have := construct_ok hr
                subst this
                rw [q3]
                exact .mk rfl rfl rfl (fun h => absurd h ht) hargs (copySeq_ok hs hq).1 hl hch
theorem cloneAll_copied (hs : Find.Sound find) : ∀ (xs : List Node) {next : Nat} {r : List Node × Nat},
    cloneAll find xs next = .ok r → (∀ x ∈ xs, WellTyped x) → (∀ x ∈ xs, Everywhere Plain x) →
    r.1.length = xs.length ∧ ∀ (i : Nat) (a b : Node), xs[i]? = some a → r.1[i]? = some b → Copied a b
  | [], next, r, h, _, _ => by
    cases h
    exact ⟨rfl, by simp⟩
  | x :: xs, next, r, h, hw, hp => by
    simp only [cloneAll] at h
    split at h
    · cases h
    · rename_i y next1 hy
      split at h
      · cases h
      · rename_i ys next2 hys
        cases h
        have h1 := cloneWith_copied hs x hy (hw x (by simp)) (hp x (by simp))
        obtain ⟨h2, h3⟩ := cloneAll_copied hs xs hys (fun z hz => hw z (by simp [hz])) (fun z hz => hp z (by simp [hz]))
        refine ⟨by simp [h2], ?_⟩
        intro i a b ha hb
        cases i with
        | zero =>
          simp at ha hb
          subst ha; subst hb
          exact h1
        | succ i =>
          simp at ha hb
          exact h3 i a b ha hb
end

end

/-! ## When there is a copy -/

/-- The field is the first child. -/
def IsFirst (n : Node) (x : Option Ref) : Prop := ∃ c, n.children.head? = some c ∧ x = some c.ref

/-- What `cypher_ast_clone` needs of a node: every field that is looked up is the first child, those with
the inverted test are present, and there are no pairs. -/
def Clonable (n : Node) : Prop :=
  n.ctor.terminal.isSome = true ∨
  (n.ctor.halved = true → n.seq = []) ∧ (∀ r ∈ n.seq, IsFirst n (some r)) ∧
  List.Forall₂ (fun k x => match k with
    | .plain => IsFirst n x
    | .opt => x = none ∨ IsFirst n x
    | .inverted => x.isSome = true) n.ctor.keeps n.args

theorem childIndex_ok {old : List Node} {x : Option Ref} {i : Nat} (h : childIndex old x = .ok i) :
    ∃ c, old.head? = some c ∧ x = some c.ref := by
  cases old with
  | nil => cases h
  | cons c old =>
    simp only [childIndex] at h
    split at h
    · rename_i e
      exact ⟨c, rfl, e.symm⟩
    · cases h

theorem rebuild_ctor {find : Find} {id : Nat} {n m : Node} {new : List Node} (h : rebuild find id n new = .ok m) :
    m.ctor = n.ctor.cloned := by
  unfold rebuild at h
  split at h
  · rename_i ht
    cases h
    simp only [Node.ctor]
    have : ∀ c : Ctor, c.terminal.isSome = true → c.cloned = c := by
      intro c hc
      cases c <;> first | rfl | cases hc
    exact (this _ ht).symm
  · simp only [bind, Except.bind] at h
    split at h
    · cases h
    · split at h
      · split at h
        · cases h
        · split at h
          · cases h
          · have := construct_ok h; subst this; rfl
      · split at h
        · cases h
        · have := construct_ok h; subst this; rfl

/-- A relationship constraint has two fields of different types, so one is not the first child. -/
theorem Clonable.cloned {n : Node} (h : Clonable n) (hw : WellTyped n) : n.ctor.cloned = n.ctor := by
  cases hw with
  | @mk id c ops args seq text range children w1 w2 w3 w4 w5 w6 =>
  simp only [Node.ctor]
  rcases h with h | ⟨-, -, h⟩
  · cases c <;> first | rfl | cases h
  · cases c <;> first | rfl | skip
    simp only [Node.ctor, Node.args, Ctor.keeps] at h
    cases h with
    | cons a1 h =>
    cases h with
    | cons a2 h =>
    obtain ⟨c1, b1, rfl⟩ := a1
    obtain ⟨c2, b2, rfl⟩ := a2
    rw [b1] at b2
    cases b2
    have g1 := w1.1.1
    have g2 := w1.2.1.1
    exfalso
    revert g1 g2
    generalize c1.ref.ty = ty
    have : ∀ ty : AstType, isA ⟨0, ty⟩ .identifier = true → isA ⟨0, ty⟩ .reltype = true → False := by
      intro ty; cases ty <;> decide +kernel
    intro g1 g2
    exact this ty (sub_isA (by decide +kernel) g1) (sub_isA (by decide +kernel) g2)

/-- The heads of both lists have the same type. -/
def Heads (old new : List Node) : Prop :=
  old.length = new.length ∧ ∀ a, old.head? = some a → ∃ b, new.head? = some b ∧ b.ty = a.ty

theorem fieldOf_first {old new : List Node} {a b : Node} (ha : old.head? = some a) (hb : new.head? = some b) :
    fieldOf childIndex old new (some a.ref) = .ok (some b.ref) := by
  cases old with
  | nil => cases ha
  | cons x old =>
    cases ha
    cases new with
    | nil => cases hb
    | cons y new =>
      cases hb
      simp [fieldOf, childIndex, bind, Except.bind]

theorem _root_.Verif.Cypher.Want.Holds.first {old new : List Node} {a b : Node} {w : Want} (h : w.Holds old (some a.ref))
    (hb : new.head? = some b) (ht : b.ty = a.ty) : w.Holds new (some b.ref) := by
  have hm : ∃ n ∈ new, n.ref = b.ref := ⟨b, List.mem_of_mem_head? hb, rfl⟩
  have hr : b.ref.ty = a.ref.ty := ht
  cases w <;> simp only [Want.Holds] at h ⊢ <;> rw [hr] <;> exact ⟨h.1, hm⟩

/-- The inverted fields are optional. -/
theorem keeps_wants (c : Ctor) : List.Forall₂ (fun k w => k = Keep.inverted → ∃ t, w = Want.maybe t) c.keeps c.wants.1 := by
  cases c <;> (
    simp only [Ctor.keeps, Ctor.wants]
    repeat' (first | exact List.Forall₂.nil | refine List.Forall₂.cons ?_ ?_)
    all_goals (intro h; first | exact ⟨_, rfl⟩ | cases h))

theorem copyArgs_first {old new : List Node} {ht : Heads old new} {n : Node} (hn : n.children = old) :
    ∀ {ks : List Keep} {ws : List Want} {xs : List (Option Ref)},
    List.Forall₂ (fun k w => k = Keep.inverted → ∃ t, w = Want.maybe t) ks ws →
    List.Forall₂ (fun k x => match k with
      | .plain => IsFirst n x
      | .opt => x = none ∨ IsFirst n x
      | .inverted => x.isSome = true) ks xs → Fits old ws xs →
    ∃ ys, copyArgs childIndex old new ks xs = .ok ys ∧ Fits new ws ys := by
  have first : ∀ {x : Option Ref} {w : Want}, IsFirst n x → w.Holds old x →
      ∃ y, fieldOf childIndex old new x = .ok y ∧ w.Holds new y := by
    rintro x w ⟨a, h1, rfl⟩ h2
    rw [hn] at h1
    obtain ⟨b, h3, h4⟩ := ht.2 a h1
    exact ⟨_, fieldOf_first h1 h3, Want.Holds.first h2 h3 h4⟩
  intro ks ws xs h1
  induction h1 generalizing xs with
  | nil =>
    intro h2 h3
    cases h2
    exact ⟨[], rfl, trivial⟩
  | @cons k w ks ws hkw _ ih =>
    intro h2 h3
    cases h2 with
    | @cons _ x _ xs hkx h2 =>
    obtain ⟨ys, h4, h5⟩ := ih h2 h3.2
    have : ∃ y, k.copy childIndex old new x = .ok y ∧ w.Holds new y := by
      cases k with
      | plain => exact first hkx h3.1
      | opt =>
        cases x with
        | none =>
          refine ⟨none, rfl, ?_⟩
          have := h3.1
          cases w <;> first | exact this.elim | trivial
        | some r => exact first (hkx.resolve_left (by simp)) h3.1
      | inverted =>
        cases x with
        | none => cases hkx
        | some r =>
          obtain ⟨t, rfl⟩ := hkw rfl
          exact ⟨none, rfl, trivial⟩
    obtain ⟨y, h6, h7⟩ := this
    refine ⟨y :: ys, ?_, h7, h5⟩
    simp only [copyArgs, h6, h4, bind, Except.bind]

/-- The same type, another identity. -/
def retype (i : Nat) (r : Ref) : Ref := ⟨i, r.ty⟩

theorem copySeq_first {old new : List Node} {a b : Node} (ha : old.head? = some a) (hb : new.head? = some b)
    (ht : b.ty = a.ty) : ∀ {xs : List Ref}, (∀ r ∈ xs, r = a.ref) →
    copySeq childIndex old new xs = .ok (xs.map (retype b.id)) := by
  intro xs
  induction xs with
  | nil => intro _; rfl
  | cons x xs ih =>
    intro h
    have hx := h x (by simp)
    subst hx
    simp only [copySeq, fieldOf_first ha hb, ih fun r hr => h r (by simp [hr]), bind, Except.bind, List.map_cons]
    have : b.ref = retype b.id a.ref := by
      simp only [Node.ref, retype, ht]
    rw [this]

theorem isA_retype (i : Nat) (t : AstType) : (fun r => isA (retype i r) t) = fun r => isA r t := rfl

theorem childAll_retype {old new : List Node} (hl : old.length = new.length) (i : Nat) (xs : List Ref) (t : AstType) :
    childAll new (xs.map (retype i)) t = childAll old xs t := by
  simp only [childAll, List.all_map, List.length_map, hl]
  rfl

theorem alternating_retype (i : Nat) (s t : AstType) : ∀ xs : List Ref,
    alternating s t (xs.map (retype i)) = alternating s t xs
  | [] => rfl
  | [_] => rfl
  | a :: b :: rest => by
    simp only [List.map_cons, alternating, alternating_retype i s t rest]
    rfl

theorem check_retype {old new : List Node} {a b : Node} (ha : old.head? = some a) (hb : new.head? = some b)
    (hl : old.length = new.length) {xs : List Ref} {q : SeqReq} (h : q.check old xs = .pass) :
    q.check new (xs.map (retype b.id)) = .pass := by
  have tw : ∀ p : Ref → Bool, (∀ r, p (retype b.id r) = p r) →
      (xs.map (retype b.id)).takeWhile p = (xs.takeWhile p).map (retype b.id) ∧
      (xs.map (retype b.id)).dropWhile p = (xs.dropWhile p).map (retype b.id) := by
    intro p hp
    have : (p ∘ retype b.id) = p := funext hp
    rw [List.takeWhile_map, List.dropWhile_map, this]
    exact ⟨rfl, rfl⟩
  cases q with
  | none => rfl
  | any => rfl
  | all t min =>
    simp only [SeqReq.check, List.length_map, childAll_retype hl] at h ⊢
    exact h
  | query =>
    obtain ⟨h1, h2⟩ := tw (isA · .queryOption) fun _ => rfl
    simp only [SeqReq.check, h1, h2, List.length_map, childAll_retype hl] at h ⊢
    exact h
  | call =>
    obtain ⟨h1, h2⟩ := tw (! isA · .projection) fun _ => rfl
    simp only [SeqReq.check, h1, h2, childAll_retype hl] at h ⊢
    exact h
  | cases =>
    simp only [SeqReq.check, List.length_map, ← List.map_take, childAll_retype hl] at h ⊢
    exact h
  | pairs =>
    simp only [SeqReq.check, List.length_map, alternating_retype] at h ⊢
    exact h
  | path =>
    simp only [SeqReq.check, List.length_map, alternating_retype] at h ⊢
    cases xs with
    | nil => simp at h
    | cons x xs =>
      cases new with
      | nil => cases hb
      | cons y new =>
        cases hb
        have : agreeSomewhere (b :: new) (List.map (retype b.id) (x :: xs)) = .pass := by
          simp [agreeSomewhere, retype]
        rw [this]
        split at h
        · split at h
          · rename_i h1 h2
            have h2' : (Option.map (fun x => isA x AstType.nodePattern) (List.map (retype b.id) (x :: xs)).head?).getD false = true := h2
            rw [if_pos h1, if_pos h2']
            split at h
            · exact h
            · rename_i hne; exact absurd h hne
          · cases h
        · cases h
  | comparison =>
    simp only [SeqReq.check, childAll_retype hl] at h ⊢
    exact h

mutual
theorem cloneWith_clonable : ∀ (n : Node) {next : Nat} {r : Node × Nat},
    cloneWith childIndex n next = .ok r → WellTyped n → Everywhere Clonable n
  | .mk id c ops args seq text range children, next, r, h, hw => by
    simp only [cloneWith] at h
    split at h
    · cases h
    · rename_i new next' hc
      split at h
      · cases h
      · rename_i n' hr
        cases h
        cases hw with
        | mk w1 w2 w3 w4 w5 w6 =>
        refine .mk ?_ (cloneAll_clonable children hc w6)
        rw [rebuild_mk] at hr
        split at hr
        · rename_i ht
          exact .inl ht
        · refine .inr ?_
          simp only [Node.ctor, Node.args, Node.seq]
          have hkl : c.keeps.length = args.length := by rw [keeps_length, w1.length]
          cases ha : copyArgs childIndex children new c.keeps args with
          | error e => rw [ha] at hr; cases hr
          | ok args' =>
            rw [ha] at hr
            simp only [bind, Except.bind] at hr
            have hargs := (copyArgs_ok childIndex_sound hkl ha).2
            have hkeep : List.Forall₂ (fun k x => match k with
                | .plain => IsFirst (.mk id c ops args seq text range children) x
                | .opt => x = none ∨ IsFirst (.mk id c ops args seq text range children) x
                | .inverted => x.isSome = true) c.keeps args := by
              refine hargs.imp fun k x hkx => ?_
              cases k with
              | plain => exact childIndex_ok hkx.choose_spec
              | opt => exact hkx.imp_right fun h => childIndex_ok h.choose_spec
              | inverted => exact hkx
            split at hr
            · rename_i hh
              cases hq : copySeq childIndex children new (seq.take (seq.length / 2)) with
              | error e => rw [hq] at hr; cases hr
              | ok half =>
                rw [hq] at hr
                simp only at hr
                split at hr
                · cases hr
                · rename_i hne
                  have hne : half = [] := by simpa using hne
                  subst hne
                  have hlen := (copySeq_ok childIndex_sound hq).1.length_eq
                  have := halved_even hh w2.1
                  have hq0 : seq = [] := by
                    apply List.eq_nil_of_length_eq_zero
                    rw [List.length_take, List.length_nil] at hlen
                    omega
                  subst hq0
                  exact ⟨fun _ => rfl, by simp, hkeep⟩
            · rename_i hh
              cases hq : copySeq childIndex children new seq with
              | error e => rw [hq] at hr; cases hr
              | ok seq' =>
                refine ⟨fun h => absurd h hh, fun r hr => ?_, hkeep⟩
                exact childIndex_ok ((copySeq_ok childIndex_sound hq).2 r hr).choose_spec
theorem cloneAll_clonable : ∀ (xs : List Node) {next : Nat} {r : List Node × Nat},
    cloneAll childIndex xs next = .ok r → (∀ x ∈ xs, WellTyped x) → ∀ x ∈ xs, Everywhere Clonable x
  | [], _, _, _, _ => by simp
  | x :: xs, next, r, h, hw => by
    simp only [cloneAll] at h
    split at h
    · cases h
    · rename_i y next1 hy
      split at h
      · cases h
      · rename_i ys next2 hys
        intro z hz
        rcases List.mem_cons.1 hz with e | hz
        · rw [e]
          exact cloneWith_clonable x hy (hw x (by simp))
        · exact cloneAll_clonable xs hys (fun z hz => hw z (by simp [hz])) z hz
end

theorem rebuild_clonable {n : Node} {new : List Node} (hw : WellTyped n) (hc : Clonable n)
    (hn : Heads n.children new) (id : Nat) : ∃ m, rebuild childIndex id n new = .ok m := by
  have hcl := hc.cloned hw
  cases hw with
  | @mk i c ops args seq text range children w1 w2 w3 w4 w5 w6 =>
  simp only [Node.ctor, Node.children] at hcl hn
  rw [rebuild_mk]
  split
  · exact ⟨_, rfl⟩
  · rename_i ht
    obtain ⟨h1, h2, h3⟩ := hc.resolve_left ht
    simp only [Node.ctor, Node.args, Node.seq] at h1 h2 h3
    obtain ⟨args', h4, h5⟩ := copyArgs_first (ht := hn) (n := .mk i c ops args seq text range children) rfl
      (keeps_wants c) h3 w1
    obtain ⟨k1, k2⟩ := args_check (checks_covered c).1 h5
    simp only [h4, bind, Except.bind, hcl]
    -- the array
    have hseq : ∃ seq', copySeq childIndex children new seq = .ok seq' ∧ c.checks.2.check new seq' = .pass := by
      cases hs : seq with
      | nil =>
        subst hs
        refine ⟨[], rfl, ?_⟩
        cases hch : children with
        | nil =>
          subst hch
          have : new = [] := List.eq_nil_of_length_eq_zero (by have := hn.1; simp at this; exact this.symm)
          subst this
          exact w5
        | cons a cs =>
          subst hch
          obtain ⟨b, hb, -⟩ := hn.2 a rfl
          exact check_retype (xs := []) rfl hb hn.1 w5
      | cons x xs =>
        obtain ⟨a, ha, -⟩ := h2 x (by simp [hs])
        obtain ⟨b, hb, hty⟩ := hn.2 a ha
        rw [← hs]
        refine ⟨_, copySeq_first ha hb hty ?_, check_retype ha hb hn.1 w5⟩
        intro r hr
        obtain ⟨a', ha', he⟩ := h2 r hr
        rw [ha] at ha'
        cases ha'
        exact Option.some.inj he
    obtain ⟨seq', hs1, hs2⟩ := hseq
    split
    · rename_i hh
      have := h1 hh
      subst this
      cases hs1
      simp only [List.take_nil, copySeq, ne_eq, not_true, if_false]
      refine ⟨.mk id c ops args' [] [] range new, ?_⟩
      unfold construct
      rw [if_pos ⟨k1, k2⟩, hs2]
    · rw [hs1]
      refine ⟨.mk id c ops args' seq' [] range new, ?_⟩
      simp only
      unfold construct
      rw [if_pos ⟨k1, k2⟩, hs2]

mutual
theorem clonable_cloneWith : ∀ (n : Node) (next : Nat), WellTyped n → Everywhere Clonable n →
    ∃ r, cloneWith childIndex n next = .ok r ∧ r.1.ctor = n.ctor
  | .mk id c ops args seq text range children, next, hw, he => by
    have hch : ∀ x ∈ children, WellTyped x := by cases hw with | mk w1 w2 w3 w4 w5 w6 => exact w6
    cases he with
    | mk e1 e2 =>
    obtain ⟨⟨new, next'⟩, h1, h2⟩ := clonable_cloneAll children next hch e2
    obtain ⟨m, hm⟩ := rebuild_clonable hw e1 h2 next'
    refine ⟨(m, next' + 1), ?_, ?_⟩
    · simp only [cloneWith, h1, hm]
    · rw [rebuild_ctor hm, e1.cloned hw]
theorem clonable_cloneAll : ∀ (xs : List Node) (next : Nat), (∀ x ∈ xs, WellTyped x) →
    (∀ x ∈ xs, Everywhere Clonable x) → ∃ r, cloneAll childIndex xs next = .ok r ∧ Heads xs r.1
  | [], next, _, _ => ⟨_, rfl, rfl, by simp⟩
  | x :: xs, next, hw, he => by
    obtain ⟨⟨y, k1⟩, h1, h2⟩ := clonable_cloneWith x next (hw x (by simp)) (he x (by simp))
    obtain ⟨⟨ys, k2⟩, h3, h4⟩ := clonable_cloneAll xs k1 (fun z hz => hw z (by simp [hz])) (fun z hz => he z (by simp [hz]))
    refine ⟨(y :: ys, k2), ?_, ?_, ?_⟩
    · simp only [cloneAll, h1, h3]
    · simp [h4.1]
    · intro a ha
      cases ha
      refine ⟨y, rfl, ?_⟩
      simp only [Node.ty]
      rw [h2]
end

/-! ## C12 -/

/-- C12, part. Whatever way children are found, as long as it is right, a copy is faithful, except for
nodes of certain kinds (`Plain`): the missing ones are `RETURN`, `WITH`, `START`, `NONE(..)` and pattern
comprehensions, which lose a field, relationship constraints that are dropped, and texts with a NUL. -/
theorem clone_faithful_partial {find : Find} (hs : Find.Sound find) {n : Node} {next : Nat} {r : Node × Nat}
    (h : cloneWith find n next = .ok r) (hw : WellTyped n) (hp : Everywhere Plain n) : Copied n r.1 :=
  cloneWith_copied hs n h hw hp

/-- When `cypher_ast_clone` returns a tree: only if no node has a field that is not its first child. -/
theorem clone_returns_iff {n : Node} (hw : WellTyped n) : (∃ n', clone n = .ok n') ↔ Everywhere Clonable n := by
  constructor
  · rintro ⟨n', h⟩
    unfold clone at h
    split at h
    · cases h
    · rename_i m k hm
      exact cloneWith_clonable n hm hw
  · intro h
    obtain ⟨⟨m, k⟩, h1, -⟩ := clonable_cloneWith n 0 hw h
    exact ⟨m, by simp [clone, h1]⟩

/-- Whether a field may be absent. -/
def _root_.Verif.Cypher.Want.optional : Want → Bool
  | .maybe _ | .maybeOneOf _ _ => true
  | _ => false

/-- The clone functions look for a field without testing for NULL exactly if it has to be there. -/
theorem keeps_optional (c : Ctor) :
    List.Forall₂ (fun k w => (k = Keep.plain ↔ Want.optional w = false)) c.keeps c.wants.1 := by
  cases c <;> (
    simp only [Ctor.keeps, Ctor.wants]
    repeat' (first | exact List.Forall₂.nil | refine List.Forall₂.cons ?_ ?_)
    all_goals decide)

theorem copyArgs_inverted {find : Find} {old new : List Node} : ∀ {ks : List Keep} {xs ys : List (Option Ref)},
    copyArgs find old new ks xs = .ok ys → ∀ {i : Nat} {r : Ref}, ks[i]? = some .inverted →
    xs[i]? = some (some r) → ys[i]? = some none := by
  intro ks
  induction ks with
  | nil => intro xs ys h i r hk; simp at hk
  | cons k ks ih =>
    intro xs ys h i r hk hx
    cases xs with
    | nil => simp at hx
    | cons x xs =>
      simp only [copyArgs, bind, Except.bind] at h
      split at h
      · cases h
      · rename_i y hy
        split at h
        · cases h
        · rename_i ys' hys
          cases h
          cases i with
          | zero =>
            simp only [List.getElem?_cons_zero, Option.some.injEq] at hk hx ⊢
            subst hk; subst hx
            cases hy; rfl
          | succ i =>
            simp only [List.getElem?_cons_succ] at hk hx ⊢
            exact ih hys hk hx

/-- Those fields are lost in every copy, however children are found. -/
theorem clone_drops {find : Find} {n : Node} {i : Nat} {x : Ref} (hl : lostField n.ctor i = true)
    (hx : n.args[i]? = some (some x)) {next : Nat} {r : Node × Nat} (h : cloneWith find n next = .ok r) :
    r.1.args[i]? = some none := by
  have hk := (lostField_iff _ _).1 hl
  cases n with
  | mk id c ops args seq text range children =>
  simp only [Node.ctor, Node.args] at hl hk hx
  have ht : ¬ c.terminal.isSome = true := by
    intro ht
    cases c <;> first | (cases ht; done) | (simp [lostField] at hl; done)
  have hh : c.halved = false := by cases c <;> first | rfl | (simp [lostField] at hl; done)
  simp only [cloneWith] at h
  split at h
  · cases h
  · split at h
    · cases h
    · rename_i n' hr
      cases h
      rw [rebuild_mk, if_neg ht] at hr
      rename_i new _ _ _
      cases ha : copyArgs find children new c.keeps args with
      | error e => rw [ha] at hr; cases hr
      | ok args' =>
        rw [ha] at hr
        simp only [bind, Except.bind, hh] at hr
        split at hr
        · rename_i hf; cases hf
        · split at hr
          · cases hr
          · have := construct_ok hr
            subst this
            exact copyArgs_inverted ha hk hx

/-- A test for `Plain`, everywhere. -/
def plainB : Nat → Node → Bool
  | 0, _ => false
  | k + 1, n => decide (0 ∉ n.text) && decide (Keep.inverted ∉ n.ctor.keeps) && decide (n.ctor.cloned = n.ctor) &&
    n.children.all (plainB k)

theorem plainB_spec {k : Nat} {n : Node} (h : plainB k n = true) : Everywhere Plain n := by
  induction k generalizing n with
  | zero => cases h
  | succ k ih =>
    simp only [plainB, Bool.and_eq_true, decide_eq_true_eq, List.all_eq_true] at h
    refine .mk ⟨h.1.1.1, fun i => ?_, fun b e => ?_⟩ fun c hc => ih (h.2 c hc)
    · refine Bool.eq_false_iff.2 fun hl => h.1.1.2 ?_
      exact List.mem_of_getElem? ((lostField_iff _ _).1 hl)
    · have := h.1.2
      rw [e] at this
      cases this

/-- The node at a path. -/
def _root_.Verif.Cypher.Node.down : List Nat → Node → Option Node
  | [], n => some n
  | i :: p, n => (n.children[i]?).bind (Node.down p)

theorem Copied.down {p : List Nat} {n n' a : Node} (h : Copied n n') (ha : n.down p = some a) :
    ∃ b, n'.down p = some b ∧ Copied a b := by
  induction p generalizing n n' with
  | nil => cases ha; exact ⟨n', rfl, h⟩
  | cons i p ih =>
    cases h with
    | mk h1 h2 h3 h4 h5 h6 h7 h8 =>
    simp only [Node.down] at ha ⊢
    cases hc : n.children[i]? with
    | none => rw [hc] at ha; cases ha
    | some c =>
      rw [hc] at ha
      have hi : i < n'.children.length := by
        rw [h7]
        exact (List.getElem?_eq_some_iff.1 hc).1
      rw [List.getElem?_eq_getElem hi]
      exact ih (h8 i c _ hc (List.getElem?_eq_getElem hi)) ha

theorem _root_.Verif.Cypher.Everywhere.down {P : Node → Prop} {p : List Nat} {n a : Node} (h : Everywhere P n)
    (ha : n.down p = some a) : P a := by
  induction p generalizing n with
  | nil => cases ha; cases h with | mk h _ => exact h
  | cons i p ih =>
    cases h with
    | mk h1 h2 =>
    simp only [Node.down] at ha
    cases hc : n.children[i]? with
    | none => rw [hc] at ha; cases ha
    | some c =>
      rw [hc] at ha
      exact ih (h2 c (List.mem_of_getElem? hc)) ha

/-- No tree with a `RETURN` that lacks `SKIP` or `LIMIT` is ever copied. -/
theorem clone_return_fails {n r : Node} (hw : WellTyped n) {p : List Nat} (hp : n.down p = some r)
    {distinct existing : Bool} (hr : r.ctor = .returnClause distinct existing)
    (hn : r.args[1]? = some none ∨ r.args[2]? = some none) : ∀ n', clone n ≠ .ok n' := by
  intro n' hc
  have := ((clone_returns_iff hw).1 ⟨n', hc⟩).down hp
  rcases this with h1 | ⟨-, -, h1⟩
  · rw [hr] at h1; cases h1
  · rw [hr] at h1
    simp only [Ctor.keeps] at h1
    cases ha : r.args with
    | nil => rw [ha] at h1; cases h1
    | cons x xs =>
      rw [ha] at h1 hn
      cases h1 with
      | cons _ h1 =>
      cases h1 with
      | cons h2 h1 =>
      cases h1 with
      | cons h3 h1 =>
      rcases hn with hn | hn <;> simp at hn <;> subst hn
      · cases h2
      · cases h3

/-- C12 is false: the copy of `RETURN 1;` never comes. -/
theorem clone_stuck : ∃ L, YieldsP streamSource (ascii "RETURN 1;") plainCfg false L ∧
    ∃ s ∈ L, ∃ x ∈ s.roots, clone x = .error .stuck := by
  obtain ⟨L, h1, h2⟩ := yields_of_test (S := streamSource)
    (src := ascii "RETURN 1;") (cfg := plainCfg) (only := false) (fuel := 150)
    (fun L => L.any fun s => s.roots.any fun x => match clone x with | .error .stuck => true | _ => false)
    (by decide +kernel)
  simp only [List.any_eq_true] at h2
  obtain ⟨s, hs, x, hx, h⟩ := h2
  refine ⟨L, h1, s, hs, x, hx, ?_⟩
  split at h
  · assumption
  · cases h

/-- C12 is false also where there is a copy: that of `RETURN * SKIP 1 LIMIT 2;` has neither. -/
theorem clone_loses_fields : ∃ L, YieldsP streamSource (ascii "RETURN * SKIP 1 LIMIT 2;") plainCfg false L ∧
    ∃ s ∈ L, ∃ x ∈ s.roots, ∃ x', clone x = .ok x' ∧ ¬ Copied x x' := by
  obtain ⟨L, h1, h2⟩ := yields_of_test (S := streamSource)
    (src := ascii "RETURN * SKIP 1 LIMIT 2;") (cfg := plainCfg) (only := false) (fuel := 150)
    (fun L => L.any fun s => s.roots.any fun x => match clone x with
      | .ok x' => match x.down [0, 0], x'.down [0, 0] with
        | some a, some b => a.args.map Option.isSome == [false, true, true] &&
            b.args.map Option.isSome == [false, false, false]
        | _, _ => false
      | _ => false)
    (by decide +kernel)
  simp only [List.any_eq_true] at h2
  obtain ⟨s, hs, x, hx, h⟩ := h2
  refine ⟨L, h1, s, hs, x, hx, ?_⟩
  split at h
  · rename_i x' hx'
    refine ⟨x', hx', fun hc => ?_⟩
    split at h
    · rename_i a b ha hb
      obtain ⟨b', hb', hcp⟩ := hc.down ha
      rw [hb] at hb'
      cases hb'
      simp only [Bool.and_eq_true, beq_iff_eq] at h
      obtain ⟨g1, g2⟩ := h
      cases hcp with
      | mk _ _ _ _ h5 _ _ _ =>
      revert g1 g2 h5
      generalize a.args = xs
      generalize b.args = ys
      intro g1 g2 h5
      cases h5 with
      | nil => cases g1
      | cons _ h5 =>
      cases h5 with
      | nil => simp at g1
      | @cons x y _ _ h _ =>
      cases x with
      | none => simp at g1
      | some x =>
        cases y with
        | none => exact h
        | some y => simp at g2
    · cases h
  · cases h

/-- The copy of a map reads beyond the array it was given. -/
theorem clone_reads_beyond : ∃ L, YieldsP streamSource (ascii "CREATE ({a:1});") plainCfg false L ∧
    ∃ s ∈ L, ∃ x ∈ s.roots, clone x = .error .bounds := by
  obtain ⟨L, h1, h2⟩ := yields_of_test (S := streamSource)
    (src := ascii "CREATE ({a:1});") (cfg := plainCfg) (only := false) (fuel := 150)
    (fun L => L.any fun s => s.roots.any fun x => match clone x with | .error .bounds => true | _ => false)
    (by decide +kernel)
  simp only [List.any_eq_true] at h2
  obtain ⟨s, hs, x, hx, h⟩ := h2
  refine ⟨L, h1, s, hs, x, hx, ?_⟩
  split at h
  · assumption
  · cases h

/-- The copy of a name with a NUL is shorter. -/
theorem clone_truncates : ∃ L, YieldsP streamSource (ascii "CREATE (`a" ++ [0] ++ ascii "b`);") plainCfg false L ∧
    ∃ s ∈ L, ∃ x ∈ s.roots, ∃ x', clone x = .ok x' ∧ ¬ Copied x x' := by
  obtain ⟨L, h1, h2⟩ := yields_of_test (S := streamSource)
    (src := ascii "CREATE (`a" ++ [0] ++ ascii "b`);") (cfg := plainCfg) (only := false) (fuel := 150)
    (fun L => L.any fun s => s.roots.any fun x => match clone x with
      | .ok x' => match x.down [0, 0, 0, 0, 0, 0], x'.down [0, 0, 0, 0, 0, 0] with
        | some a, some b => a.ctor.terminal.isSome && a.text == [97, 0, 98] && b.text == [97]
        | _, _ => false
      | _ => false)
    (by decide +kernel)
  simp only [List.any_eq_true] at h2
  obtain ⟨s, hs, x, hx, h⟩ := h2
  refine ⟨L, h1, s, hs, x, hx, ?_⟩
  split at h
  · rename_i x' hx'
    refine ⟨x', hx', fun hc => ?_⟩
    split at h
    · rename_i a b ha hb
      obtain ⟨b', hb', hcp⟩ := hc.down ha
      rw [hb] at hb'
      cases hb'
      simp only [Bool.and_eq_true, beq_iff_eq] at h
      obtain ⟨⟨g0, g1⟩, g2⟩ := h
      cases hcp with
      | mk _ _ _ h4 _ _ _ _ =>
      have := h4 g0
      rw [g1, g2] at this
      cases this
    · cases h
  · cases h

/-- There are trees with faithful copies: that of `CREATE (n);`. -/
example : ∃ L, YieldsP streamSource (ascii "CREATE (n);") plainCfg false L ∧
    ∃ s ∈ L, ∃ x ∈ s.roots, ∃ x', clone x = .ok x' ∧ Copied x x' := by
  obtain ⟨L, h1, h2⟩ := yields_of_test (S := streamSource)
    (src := ascii "CREATE (n);") (cfg := plainCfg) (only := false) (fuel := 150)
    (fun L => L.any fun s => s.roots.any fun x => (match clone x with | .ok _ => true | _ => false) &&
      plainB 10 x)
    (by decide +kernel)
  simp only [List.any_eq_true, Bool.and_eq_true] at h2
  obtain ⟨s, hs, x, hx, h, hp⟩ := h2
  refine ⟨L, h1, s, hs, x, hx, ?_⟩
  have hw : WellTyped x := cypher_well_typed (stream_delivers _) plainCfg false h1 s hs x hx
  split at h
  · rename_i x' hx'
    refine ⟨x', hx', ?_⟩
    unfold clone at hx'
    split at hx'
    · cases hx'
    · rename_i m k hm
      cases hx'
      exact clone_faithful_partial childIndex_sound hm hw (plainB_spec hp)
  · cases h

end Verif
