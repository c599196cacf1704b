import Verif.Cypher.Pair
import Verif.Props.Cypher
/-!
# Properties C18, C34 and C38 of the main parser

What the result does not depend on: the portions in which the input arrives, the initial position and
ordinal (which only shift it), and the case of letters (except in what is copied from the input).
-/
namespace Verif
open Verif.Peg Verif.Cypher List

variable {σ τ κ : Type}

/-! ## Changing positions, text and contexts of a segment -/

mutual
/-- The node with positions changed by `g` and bytes of texts by `f`. -/
def _root_.Verif.Cypher.Node.image (g : Pos → Pos) (f : UInt8 → UInt8) : Node → Node
  | .mk i c o a s t r l => .mk i c o a s (t.map f) ⟨g r.start, g r.stop⟩ (Node.images g f l)
def _root_.Verif.Cypher.Node.images (g : Pos → Pos) (f : UInt8 → UInt8) : List Node → List Node
  | [] => []
  | n :: l => n.image g f :: Node.images g f l
end

/-- The error with, besides, its context changed by `h`. -/
def PErr.image (g : Pos → Pos) (f : UInt8 → UInt8)
    (h : Option (List UInt8 × Nat) → Option (List UInt8 × Nat)) (e : PErr) : PErr :=
  ⟨g e.position, e.msg.map f, h e.context⟩

/-- The segment with, besides, its ordinal changed by `o`. -/
def _root_.Verif.Cypher.PSeg.image (g : Pos → Pos) (f : UInt8 → UInt8)
    (h : Option (List UInt8 × Nat) → Option (List UInt8 × Nat)) (o : Nat → Nat) (s : PSeg) : PSeg :=
  ⟨o s.ordinal, ⟨g s.range.start, g s.range.stop⟩, s.errors.map (·.image g f h),
    Node.images g f s.roots, s.directive, s.eof⟩

mutual
theorem image_rel {K : Link} {g g' : Pos → Pos} {f f' : UInt8 → UInt8}
    (hg : ∀ x y, PosRel K x y → g x = g' y) (hf : ∀ c d, K.B c d → f c = f' d) :
    ∀ {n n' : Node}, NodeRel K n n' → n.image g f = n'.image g' f'
  | .mk _ _ _ _ _ _ _ _, _, .mk ht h1 h2 hl => by
    simp only [Node.image, hg _ _ h1, hg _ _ h2, images_rel hg hf hl]
    congr 1
    exact forall₂_eq_eq_eq ▸ forall₂_map_left_iff.2 (forall₂_map_right_iff.2 (ht.imp hf))
theorem images_rel {K : Link} {g g' : Pos → Pos} {f f' : UInt8 → UInt8}
    (hg : ∀ x y, PosRel K x y → g x = g' y) (hf : ∀ c d, K.B c d → f c = f' d) :
    ∀ {l l' : List Node}, Forall₂ (NodeRel K) l l' → Node.images g f l = Node.images g' f' l'
  | [], _, .nil => rfl
  | _ :: _, _, .cons h t => by simp only [Node.images, image_rel hg hf h, images_rel hg hf t]
end

theorem map_rel {α β γ : Type} {R : α → β → Prop} {f : α → γ} {f' : β → γ} (hf : ∀ a b, R a b → f a = f' b) :
    ∀ {l : List α} {l' : List β}, Forall₂ R l l' → l.map f = l'.map f'
  | _, _, .nil => rfl
  | _, _, .cons h t => by simp only [List.map_cons, hf _ _ h, map_rel hf t]

theorem segImage_rel {K : Link} {o₁ o₂ : Nat} {s s' : PSeg} (hs : SegRel K o₁ o₂ s s') {g g' : Pos → Pos}
    {f f' : UInt8 → UInt8} {h h' : Option (List UInt8 × Nat) → Option (List UInt8 × Nat)} {o o' : Nat → Nat}
    (hg : ∀ x y, PosRel K x y → g x = g' y) (hf : ∀ c d, K.B c d → f c = f' d)
    (hh : ∀ c d, Option.Rel K.C c d → h c = h' d) (ho : ∀ n, o (o₁ + n) = o' (o₂ + n))
    (hm : ∀ a b, K.M a b → Forall₂ K.B a b) : s.image g f h o = s'.image g' f' h' o' := by
  obtain ⟨n, e1, e2⟩ := hs.ordinal
  simp only [PSeg.image, e1, e2, ho, hg _ _ hs.start, hg _ _ hs.stop, images_rel hg hf hs.roots,
    hs.directive, hs.eof]
  congr 1
  refine map_rel (fun a b hab => ?_) hs.errors
  simp only [PErr.image, hg _ _ hab.position, hh _ _ hab.context, map_rel hf (hm _ _ hab.msg)]

mutual
theorem image_id : ∀ n : Node, n.image id id = n
  | .mk _ _ _ _ _ _ _ l => by simp only [Node.image, id_eq, List.map_id, images_id l]
theorem images_id : ∀ l : List Node, Node.images id id l = l
  | [] => rfl
  | n :: l => by simp only [Node.images, image_id n, images_id l]
end

theorem segImage_id (s : PSeg) : s.image id id id id = s := by
  obtain ⟨o, ⟨a, b⟩, es, rs, d, e⟩ := s
  simp only [PSeg.image, images_id, id_eq]
  congr 1
  have : (fun e : PErr => e.image id id id) = id := by
    funext e; obtain ⟨p, m, c⟩ := e; simp [PErr.image]
  rw [this, List.map_id]

/-! ## C18 -/

/-- A segment without the contexts of its errors. -/
def _root_.Verif.Cypher.PSeg.bare (s : PSeg) : PSeg := s.image id id (fun _ => none) id

theorem posRel_same {K : Link} (h : K.P₁ = K.P₂) {x y : Pos} (hxy : PosRel K x y) : x = y := by
  obtain ⟨d, c, n, rfl, rfl⟩ := hxy
  rw [h]

theorem optRel_same {K : Link} (h : K.P₁ = K.P₂) {x y : Option Pos} (hxy : Option.Rel (PosRel K) x y) :
    x = y := by
  cases hxy with
  | some h' => rw [posRel_same h h']
  | none => rfl

/-- C18 for the main parser. Two sources that deliver the same bytes, however portioned, give the same
results: for every configuration, both flags, and every callback that does not look at the contexts of
errors. (Full property: every callback. It is false, see `contexts_depend_on_chunks`: the context of an
error is cut off where the bytes read so far end.) -/
theorem cypher_chunk_independent_partial {S : Source σ} {src : σ} {T : Source τ} {src' : τ}
    {w : List UInt8} (h : Delivers S src w) (h' : Delivers T src' w) (cb : κ → PSeg → Int × κ) (k : κ)
    (cfg : Config) (only single : Bool) : ∃ r,
      StopsWith S src (fun k s => cb k s.bare) k cfg only single r ∧
      StopsWith T src' (fun k s => cb k s.bare) k cfg only single r := by
  obtain ⟨D, hf, hi⟩ := h
  obtain ⟨D', hf', hi'⟩ := h'
  have hself : ∀ l : List UInt8, Forall₂ Eq l l := fun l => forall₂_same.2 fun _ _ => rfl
  have hK : Link.Ok ⟨cfg.position, cfg.position, Eq, fun _ _ => True, Forall₂ Eq, cfg.colorization,
      cfg.colorization⟩ :=
    ⟨fun _ => rfl, fun _ _ h => by cases h; rfl, fun _ _ _ h _ => by cases h; exact hself _⟩
  obtain ⟨N, r, r', h1, h2⟩ := parseEach_pair (κ := κ) (κ' := κ) hK hf hf' (X := fun _ _ => True)
    ⟨fun _ _ => trivial, fun _ _ => trivial, fun _ _ _ _ _ _ => trivial⟩ only single (Q := Eq)
    (cb := fun k s => cb k s.bare) (cb' := fun k s => cb k s.bare) (cfg := cfg) (cfg' := cfg)
    (by
      rintro k _ s s' rfl hs
      have : s.bare = s'.bare := segImage_rel hs (fun _ _ h => posRel_same rfl h) (fun _ _ h => h)
        (fun _ _ _ => rfl) (fun _ => rfl) (fun _ _ h => h)
      simp only [this, and_self])
    rfl rfl rfl rfl hi hi' trivial (hself w) (fun _ => Same.refl _ _) (k := k) (k' := k) rfl
  have e : r = r' := by
    cases r with
    | error e => cases r' with
      | error e' => exact congrArg _ h2
      | ok b => exact h2.elim
    | ok a => cases r' with
      | error e' => exact h2.elim
      | ok b =>
        obtain ⟨a1, a2, a3⟩ := a
        obtain ⟨b1, b2, b3⟩ := b
        obtain ⟨h3, h4, h5⟩ := h2
        simp only at h3 h4 h5
        rw [h3, h5, optRel_same rfl h4]
  subst e
  exact ⟨r, ⟨N, fun fuel hle => (h1 fuel hle).1⟩, ⟨N, fun fuel hle => (h1 fuel hle).2⟩⟩

/-! ## C34 -/

/-- Where a position counted from line 1, column 1, offset 0 is when counting starts at `P`. -/
def Pos.from (P p : Pos) : Pos :=
  ⟨p.line - 1 + P.line, if p.line = 1 then p.column - 1 + P.column else p.column, p.offset + P.offset⟩

/-- C34. Starting at another position and ordinal gives the same results, positions and ordinals
shifted; everything else, including error messages and contexts, is the same. -/
theorem cypher_shift {S : Source σ} {src : σ} {w : List UInt8} (h : Delivers S src w)
    (cb : κ → PSeg → Int × κ) (k : κ) (P : Pos) (o : Nat) (color : Colorization) (only single : Bool) :
    (∃ e, StopsWith S src (fun k s => cb k (s.image (Pos.from P) id id (· + o))) k ⟨⟨1, 1, 0⟩, 0, color⟩
        only single (.error e) ∧ StopsWith S src cb k ⟨P, o, color⟩ only single (.error e)) ∨
    ∃ ret last k', StopsWith S src (fun k s => cb k (s.image (Pos.from P) id id (· + o))) k
        ⟨⟨1, 1, 0⟩, 0, color⟩ only single (.ok (ret, last, k')) ∧
      StopsWith S src cb k ⟨P, o, color⟩ only single (.ok (ret, last.map (Pos.from P), k')) := by
  obtain ⟨D, hf, hi⟩ := h
  have hself : ∀ l : List UInt8, Forall₂ Eq l l := fun l => forall₂_same.2 fun _ _ => rfl
  have hK : Link.Ok ⟨⟨1, 1, 0⟩, P, Eq, Eq, Forall₂ Eq, color, color⟩ :=
    ⟨fun _ => rfl, fun _ _ h => by cases h; rfl, fun _ _ _ h _ => by cases h; exact hself _⟩
  have hpos : ∀ x y, PosRel ⟨⟨1, 1, 0⟩, P, Eq, Eq, Forall₂ Eq, color, color⟩ x y → Pos.from P x = id y := by
    rintro x y ⟨d, c, n, rfl, rfl⟩
    simp only [Pos.from, Pos.move, id_eq, Pos.mk.injEq]
    refine ⟨by omega, ?_, by omega⟩
    by_cases hd : d = 0
    · simp [hd]; omega
    · simp [hd]
  obtain ⟨N, r, r', h1, h2⟩ := parseEach_pair (κ := κ) (κ' := κ) hK hf hf (X := Eq)
    ⟨fun _ h => by cases h; rfl, fun _ h => by cases h; rfl,
      fun h n c c' e1 e2 => by cases h; rw [e1] at e2; simpa using e2⟩ only single (Q := Eq)
    (cb := fun k s => cb k (s.image (Pos.from P) id id (· + o))) (cb' := cb)
    (cfg := ⟨⟨1, 1, 0⟩, 0, color⟩) (cfg' := ⟨P, o, color⟩)
    (by
      rintro k _ s s' rfl hs
      have : s.image (Pos.from P) id id (· + o) = s' := by
        rw [← segImage_id s']
        refine segImage_rel hs hpos (fun _ _ h => h) (fun c d h => ?_) (fun n => ?_) (fun _ _ h => h)
        · cases h with
          | some h => cases h; rfl
          | none => rfl
        · simp only [id_eq]; omega
      simp only [this, and_self])
    rfl rfl rfl rfl hi hi rfl (hself w) (fun _ => Same.refl _ _) (k := k) (k' := k) rfl
  cases r with
  | error e => cases r' with
    | error e' =>
      cases h2
      exact .inl ⟨e, ⟨N, fun fuel hle => (h1 fuel hle).1⟩, ⟨N, fun fuel hle => (h1 fuel hle).2⟩⟩
    | ok b => exact h2.elim
  | ok a => cases r' with
    | error e' => exact h2.elim
    | ok b =>
      obtain ⟨a1, a2, a3⟩ := a
      obtain ⟨b1, b2, b3⟩ := b
      obtain ⟨h3, h4, h5⟩ := h2
      simp only at h3 h4 h5
      subst h3 h5
      have : b2 = a2.map (Pos.from P) := by
        cases h4 with
        | some h => rw [Option.map_some, hpos _ _ h]; rfl
        | none => rfl
      subst this
      exact .inr ⟨_, _, _, ⟨N, fun fuel hle => (h1 fuel hle).1⟩, ⟨N, fun fuel hle => (h1 fuel hle).2⟩⟩

/-! ## C38 -/

/-- Lower case of ASCII letters. -/
def lower (c : UInt8) : UInt8 := if 65 ≤ c ∧ c ≤ 90 then c + 32 else c

/-- The same text but for the case of letters that do not follow a backslash. -/
structure CaseEq (w w' : List UInt8) : Prop where
  fold : w.map lower = w'.map lower
  escapes : ∀ i : Nat, w[i]? = some 92 → w[i + 1]? = w'[i + 1]?

/-- A terminal does not distinguish the cases of a letter. -/
def setFolds (m : CharSet) : Bool :=
  (List.range 26).all fun i => m.mask.testBit (65 + i) == m.mask.testBit (97 + i)

def isLetter (c : UInt8) : Bool := decide (65 ≤ c ∧ c ≤ 90) || decide (97 ≤ c ∧ c ≤ 122)

/-- Letters in a literal come after a backslash. -/
def strFolds : Bool → List UInt8 → Bool
  | _, [] => true
  | b, c :: cs => (b || !isLetter c) && strFolds (c == 92) cs

/-- No terminal of the expression distinguishes the cases of a letter, unless after a backslash. -/
def folds {R P A : Type} : Expr R P A → Bool
  | .one m => setFolds m
  | .str l => strFolds false l
  | .seq a b | .alt a b => folds a && folds b
  | .star a | .peek a | .npeek a | .onfail a _ => folds a
  | .eps | .nt _ _ | .pred _ | .act _ => true

theorem folds_all : ∀ r, folds (grammar r).body = true := by
  have h : ∀ r ∈ Rule.all, folds (grammar r).body = true := by decide +kernel
  exact fun r => h r (Rule.mem_all r)

theorem lower_cases : ∀ n : Fin 256, ∀ m : Fin 256, lower (UInt8.ofNat n) = lower (UInt8.ofNat m) →
    n = m ∨ (65 ≤ n.1 ∧ n.1 ≤ 90 ∧ m.1 = n.1 + 32) ∨ (65 ≤ m.1 ∧ m.1 ≤ 90 ∧ n.1 = m.1 + 32) := by
  decide +kernel

theorem lower_eq {c d : UInt8} (h : lower c = lower d) :
    c = d ∨ ∃ i < 26, (c.toNat = 65 + i ∧ d.toNat = 97 + i) ∨ (c.toNat = 97 + i ∧ d.toNat = 65 + i) := by
  have := lower_cases ⟨c.toNat, c.toNat_lt⟩ ⟨d.toNat, d.toNat_lt⟩ (by simpa using h)
  rcases this with e | ⟨h1, h2, h3⟩ | ⟨h1, h2, h3⟩
  · left
    have : c.toNat = d.toNat := congrArg Fin.val e
    exact UInt8.toNat_inj.1 this
  · simp only at h1 h2 h3
    exact .inr ⟨c.toNat - 65, by omega, .inl ⟨by omega, by omega⟩⟩
  · simp only at h1 h2 h3
    exact .inr ⟨d.toNat - 65, by omega, .inr ⟨by omega, by omega⟩⟩

theorem setFolds_mem {m : CharSet} (h : setFolds m = true) {c d : UInt8} (e : lower c = lower d) :
    m.mem c = m.mem d := by
  rcases lower_eq e with rfl | ⟨i, hi, ⟨h1, h2⟩ | ⟨h1, h2⟩⟩
  · rfl
  all_goals
    unfold setFolds at h
    rw [List.all_eq_true] at h
    have := h i (List.mem_range.2 hi)
    simp only [beq_iff_eq] at this
    simp only [CharSet.mem, h1, h2, this]

theorem letter_eq {c d : UInt8} (h : isLetter c = false) (e : lower d = lower c) : d = c := by
  rcases lower_eq e with rfl | ⟨i, hi, h'⟩
  · rfl
  · exfalso
    have hc : (65 ≤ c.toNat ∧ c.toNat ≤ 90) ∨ (97 ≤ c.toNat ∧ c.toNat ≤ 122) := by omega
    unfold isLetter at h
    simp only [Bool.or_eq_false_iff, decide_eq_false_iff_not, UInt8.le_iff_toNat_le] at h
    have e1 : (65 : UInt8).toNat = 65 := rfl
    have e2 : (90 : UInt8).toNat = 90 := rfl
    have e3 : (97 : UInt8).toNat = 97 := rfl
    have e4 : (122 : UInt8).toNat = 122 := rfl
    omega

theorem CaseEq.at {w w' : List UInt8} (h : CaseEq w w') (i : Nat) :
    (w[i]?).map lower = (w'[i]?).map lower := by
  rw [← List.getElem?_map, ← List.getElem?_map, h.fold]

theorem CaseEq.str {w w' : List UInt8} (h : CaseEq w w') : ∀ (l : List UInt8) (b : Bool) (p : Nat),
    strFolds b l = true → (b = true → w[p]? = w'[p]?) → StrSame w w' l p
  | [], _, _, _, _ => trivial
  | c :: cs, b, p, hl, hb => by
    simp only [strFolds, Bool.and_eq_true, Bool.or_eq_true, Bool.not_eq_true'] at hl
    have hat := h.at p
    refine ⟨?_, fun hc => h.str cs (c == 92) (p + 1) hl.2 fun hq => ?_⟩
    · rcases hl.1 with hl | hl
      · rw [hb hl]
      · constructor
        · intro e
          rw [e] at hat
          cases e' : w'[p]? with
          | none => rw [e'] at hat; cases hat
          | some d =>
            rw [e'] at hat
            rw [letter_eq hl (Option.some.inj hat).symm]
        · intro e
          rw [e] at hat
          cases e' : w[p]? with
          | none => rw [e'] at hat; cases hat
          | some d =>
            rw [e'] at hat
            rw [letter_eq hl (Option.some.inj hat)]
    · rw [beq_iff_eq.1 hq] at hc
      exact h.escapes p hc

theorem CaseEq.same {R P A : Type} {w w' : List UInt8} (h : CaseEq w w') (e : Expr R P A)
    (he : folds e = true) : Same w w' e := by
  induction e with
  | one m =>
    intro p
    have hat := h.at p
    cases e1 : w[p]? <;> cases e2 : w'[p]? <;> rw [e1, e2] at hat
    · cases hat
    · cases hat
    · exact congrArg some (setFolds_mem he (Option.some.inj hat))
  | str l => exact fun p => h.str l false p he (by simp)
  | seq a b iha ihb | alt a b iha ihb =>
    simp only [folds, Bool.and_eq_true] at he
    exact ⟨iha he.1, ihb he.2⟩
  | star a ih | peek a ih | npeek a ih | onfail a _ ih => exact ih he
  | _ => trivial

theorem fold_space : ∀ n : Fin 256, Mach.isSpace (UInt8.ofNat n) = Mach.isSpace (lower (UInt8.ofNat n)) := by
  decide +kernel

theorem fold_desc : ∀ n : Fin 256,
    (chardesc (UInt8.ofNat n)).map lower = (chardesc (lower (UInt8.ofNat n))).map lower := by
  decide +kernel

theorem forall₂_of_map : ∀ {l l' : List UInt8}, l.map lower = l'.map lower →
    Forall₂ (fun c d => lower c = lower d) l l'
  | [], [], _ => .nil
  | [], _ :: _, h => by cases h
  | _ :: _, [], h => by cases h
  | _ :: _, _ :: _, h => .cons (List.cons.inj h).1 (forall₂_of_map (List.cons.inj h).2)

/-- A segment with its texts and messages in lower case, without contexts. -/
def _root_.Verif.Cypher.PSeg.folded (s : PSeg) : PSeg := s.image id lower (fun _ => none) id

/-- C38. The case of letters does not matter: if two texts differ only in the case of letters, other
than letters that follow a backslash, then they have the same segments, up to the case of letters in
what is copied from the text.  In particular every keyword is recognised in any case. -/
theorem cypher_case_insensitive {S : Source σ} {src : σ} {T : Source τ} {src' : τ}
    {w w' : List UInt8} (hw : CaseEq w w') (h : Delivers S src w) (h' : Delivers T src' w')
    (cb : κ → PSeg → Int × κ) (k : κ) (cfg : Config) (only single : Bool) : ∃ r,
      StopsWith S src (fun k s => cb k s.folded) k cfg only single r ∧
      StopsWith T src' (fun k s => cb k s.folded) k cfg only single r := by
  obtain ⟨D, hf, hi⟩ := h
  obtain ⟨D', hf', hi'⟩ := h'
  have hself : ∀ l : List UInt8, Forall₂ (fun c d => lower c = lower d) l l :=
    fun l => forall₂_same.2 fun _ _ => rfl
  have hK : Link.Ok ⟨cfg.position, cfg.position, fun c d => lower c = lower d, fun _ _ => True,
      Forall₂ fun c d => lower c = lower d, cfg.colorization, cfg.colorization⟩ := by
    refine ⟨fun _ => rfl, fun c d h => ?_, fun c d ls h _ => message_rel
      (B := fun c d => lower c = lower d) (fun _ => rfl) ?_ _ _⟩
    · have h1 := fold_space ⟨c.toNat, c.toNat_lt⟩
      have h2 := fold_space ⟨d.toNat, d.toNat_lt⟩
      simp only [UInt8.ofNat_toNat] at h1 h2
      rw [h1, h2, h]
    · have h1 := fold_desc ⟨c.toNat, c.toNat_lt⟩
      have h2 := fold_desc ⟨d.toNat, d.toNat_lt⟩
      simp only [UInt8.ofNat_toNat] at h1 h2
      exact forall₂_of_map (by rw [h1, h2, h])
  have hww : Forall₂ (fun c d => lower c = lower d) w w' :=
    forall₂_of_map hw.fold
  obtain ⟨N, r, r', h1, h2⟩ := parseEach_pair (κ := κ) (κ' := κ) hK hf hf' (X := fun _ _ => True)
    ⟨fun _ _ => trivial, fun _ _ => trivial, fun _ _ _ _ _ _ => trivial⟩ only single (Q := Eq)
    (cb := fun k s => cb k s.folded) (cb' := fun k s => cb k s.folded) (cfg := cfg) (cfg' := cfg)
    (by
      rintro k _ s s' rfl hs
      have : s.folded = s'.folded := segImage_rel hs (fun _ _ h => posRel_same rfl h) (fun _ _ h => h)
        (fun _ _ _ => rfl) (fun _ => rfl) (fun _ _ h => h)
      simp only [this, and_self])
    rfl rfl rfl rfl hi hi' trivial hww (fun r => hw.same _ (folds_all r)) (k := k) (k' := k) rfl
  have e : r = r' := by
    cases r with
    | error e => cases r' with
      | error e' => exact congrArg _ h2
      | ok b => exact h2.elim
    | ok a => cases r' with
      | error e' => exact h2.elim
      | ok b =>
        obtain ⟨a1, a2, a3⟩ := a
        obtain ⟨b1, b2, b3⟩ := b
        obtain ⟨h3, h4, h5⟩ := h2
        simp only at h3 h4 h5
        rw [h3, h5, optRel_same rfl h4]
  subst e
  exact ⟨r, ⟨N, fun fuel hle => (h1 fuel hle).1⟩, ⟨N, fun fuel hle => (h1 fuel hle).2⟩⟩

/-! ## Witnesses and examples -/

/-- C18 is false for the contexts of errors: of `x; y` a stream has delivered `x;` when the context of
the error in the first segment is taken; a buffer has delivered everything. -/
theorem contexts_depend_on_chunks : ∃ L L', YieldsP streamSource (ascii "x; y") plainCfg false L ∧
    YieldsP portions (ascii "x; y", [9]) plainCfg false L' ∧
    L.map (fun s => s.errors.map (·.context)) ≠ L'.map (fun s => s.errors.map (·.context)) := by
  obtain ⟨L, h1, h2⟩ := yields_of_test
    (fun L => L.map (fun s => s.errors.map (·.context)) ==
      [[some (ascii "x;", 0)], [some (ascii " y", 1)]])
    (S := streamSource) (src := ascii "x; y") (cfg := plainCfg) (only := false) (fuel := 80)
    (by decide +kernel)
  obtain ⟨L', h1', h2'⟩ := yields_of_test
    (fun L => L.map (fun s => s.errors.map (·.context)) ==
      [[some (ascii "x; y", 0)], [some (ascii " y", 1)]])
    (S := portions) (src := (ascii "x; y", [9])) (cfg := plainCfg) (only := false) (fuel := 80)
    (by decide +kernel)
  refine ⟨L, L', h1, h1', ?_⟩
  rw [beq_iff_eq.1 h2, beq_iff_eq.1 h2']
  decide +kernel

/-- All segments of the two runs, without the contexts, in one list. -/
example : ∃ r, StopsWith streamSource sampleP (fun k s => (0, k ++ [s.bare])) [] plainCfg false false r ∧
    StopsWith portions (sampleP, [3, 0, 11]) (fun k s => (0, k ++ [s.bare])) [] plainCfg false false r :=
  cypher_chunk_independent_partial (stream_delivers _) (portions_delivers _ _) (fun k s => (0, k ++ [s])) []
    plainCfg false false

/-- Positions in the first line move by columns, in later lines only by lines. -/
example : Pos.from ⟨3, 5, 100⟩ ⟨1, 4, 3⟩ = ⟨3, 8, 103⟩ ∧ Pos.from ⟨3, 5, 100⟩ ⟨2, 4, 9⟩ = ⟨4, 4, 109⟩ := by
  decide

example : (match collect streamSource (ascii "return\n1;\n x") ⟨⟨3, 5, 100⟩, 7, noColorization⟩ false false 90 with
    | some (.ok (0, last, L)) => last == some ⟨5, 3, 112⟩ &&
        L.map (fun s => (s.ordinal, s.range.start, s.range.stop)) ==
          [(7, ⟨3, 5, 100⟩, ⟨4, 3, 109⟩), (13, ⟨4, 3, 109⟩, ⟨5, 3, 112⟩)]
    | _ => false) = true := by decide +kernel

/-- Keywords, names and a string with an escape, in different cases. -/
theorem caseEq_sample :
    CaseEq (ascii "MATCH (n) RETURN 'A\\n'") (ascii "match (N) ReTuRn 'a\\n'") := by
  refine ⟨by decide +kernel, ?_⟩
  have h : ∀ i < 22, (ascii "MATCH (n) RETURN 'A\\n'")[i]? = some 92 →
      (ascii "MATCH (n) RETURN 'A\\n'")[i + 1]? = (ascii "match (N) ReTuRn 'a\\n'")[i + 1]? := by
    decide +kernel
  intro i hi
  refine h i ?_ hi
  by_contra hge
  have hl : (ascii "MATCH (n) RETURN 'A\\n'").length = 22 := by decide +kernel
  rw [List.getElem?_eq_none (by omega)] at hi
  cases hi

example : ∃ r, StopsWith streamSource (ascii "MATCH (n) RETURN 'A\\n'")
      (fun k s => (0, k ++ [s.folded])) [] plainCfg false false r ∧
    StopsWith streamSource (ascii "match (N) ReTuRn 'a\\n'")
      (fun k s => (0, k ++ [s.folded])) [] plainCfg false false r :=
  cypher_case_insensitive caseEq_sample (stream_delivers _) (stream_delivers _)
    (fun k s => (0, k ++ [s])) [] plainCfg false false

mutual
/-- The texts of all nodes, in preorder. -/
def _root_.Verif.Cypher.Node.texts : Node → List (List UInt8)
  | .mk _ _ _ _ _ t _ l => t :: Node.textss l
def _root_.Verif.Cypher.Node.textss : List Node → List (List UInt8)
  | [] => []
  | n :: l => n.texts ++ Node.textss l
end

/-- After a backslash case does matter: `'\n'` is a newline, `'\N'` a backslash and an N. -/
theorem escape_case_matters : ∃ L L', YieldsP streamSource (ascii "RETURN '\\n'") plainCfg false L ∧
    YieldsP streamSource (ascii "RETURN '\\N'") plainCfg false L' ∧
    [10] ∈ (L.map fun s => Node.textss s.roots).flatten ∧
    [92, 78] ∈ (L'.map fun s => Node.textss s.roots).flatten := by
  obtain ⟨L, h1, h2⟩ := yields_of_test
    (fun L => decide ([10] ∈ (L.map fun s => Node.textss s.roots).flatten))
    (S := streamSource) (src := ascii "RETURN '\\n'") (cfg := plainCfg) (only := false) (fuel := 100)
    (by decide +kernel)
  obtain ⟨L', h1', h2'⟩ := yields_of_test
    (fun L => decide ([92, 78] ∈ (L.map fun s => Node.textss s.roots).flatten))
    (S := streamSource) (src := ascii "RETURN '\\N'") (cfg := plainCfg) (only := false) (fuel := 100)
    (by decide +kernel)
  exact ⟨L, L', h1, h1', of_decide_eq_true h2, of_decide_eq_true h2'⟩

end Verif
