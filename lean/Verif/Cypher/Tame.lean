import Verif.Cypher.ExprParts
import Verif.Cypher.Step
import Verif.Quick.Live
/-!
# What the quick parser sees of a text of the grammar

Outside of strings the texts of `ExprSpec` and `StmtSpec` contain neither quotes nor backslashes, and no semicolon but the
one that ends a statement. So the scan `live` passes over them.
-/
namespace Verif.Stmts
open Verif Verif.Exprs
open Verif.Cypher (Commented Op)
open Verif.Quick (live Mode)
open Verif.Ops (bytes upper words)

/-- Bytes that mean nothing to the scan. -/
def dull (c : UInt8) : Bool := c != 59 && c != 39 && c != 34 && c != 92

/-- The scan passes over the text, unless it sees a comment. -/
def Tame (t : List UInt8) : Prop := ∀ r, ¬ Commented (t ++ r) → live .normal 0 (t ++ r) = t.length + live .normal 0 r

theorem commented_right {a b : List UInt8} (h : Commented b) : Commented (a ++ b) := by
  obtain ⟨p, h⟩ := h
  refine ⟨a.length + p, ?_⟩
  have : (a ++ b).extract (a.length + p) (a.length + p + 2) = b.extract p (p + 2) := by
    simp only [List.extract_eq_take_drop, Nat.add_sub_cancel_left]
    rw [← List.drop_drop, List.drop_left]
  rwa [this]

theorem Tame.nil : Tame [] := by intro r _; simp
theorem Tame.append {a b : List UInt8} (h1 : Tame a) (h2 : Tame b) : Tame (a ++ b) := by
  intro r hr
  rw [List.append_assoc] at hr ⊢
  rw [h1 _ hr, h2 _ fun h => hr (commented_right h), List.length_append]
  omega
theorem Tame.byte {c : UInt8} (h : dull c = true) : Tame [c] := by
  intro r hr
  simp only [dull, Bool.and_eq_true, bne_iff_ne, ne_eq] at h
  have h1 : ¬ (c = 47 ∧ r.head? = some 47) := by
    rintro ⟨rfl, e⟩
    cases r with
    | nil => cases e
    | cons d r => cases e; exact hr ⟨0, Or.inl rfl⟩
  have h2 : ¬ (c = 47 ∧ r.head? = some 42) := by
    rintro ⟨rfl, e⟩
    cases r with
    | nil => cases e
    | cons d r => cases e; exact hr ⟨0, Or.inr rfl⟩
  change live .normal 0 (c :: r) = _
  rw [live, if_neg h.1.1.1, if_neg h1, if_neg h2, if_neg (fun e => h.2 e.1), if_neg (by rintro (e | e); exacts [h.1.1.2 e, h.1.2 e])]
  rfl
theorem Tame.cons {c : UInt8} {t : List UInt8} (h : dull c = true) (ht : Tame t) : Tame (c :: t) := (Tame.byte h).append ht
theorem Tame.of_dull : ∀ {t : List UInt8}, (∀ c ∈ t, dull c = true) → Tame t
  | [], _ => .nil
  | c :: t, h => .cons (h c (by simp)) (.of_dull fun d hd => h d (by simp [hd]))
theorem tame_quoted {q : UInt8} {body : List UInt8} (hq : q = 34 ∨ q = 39)
    (h : ∀ c ∈ body, c ≠ q ∧ c ≠ 92 ∧ c ≠ 10 ∧ c ≠ 13) : Tame (q :: (body ++ [q])) := by
  intro r _
  have key : ∀ body : List UInt8, (∀ c ∈ body, c ≠ q ∧ c ≠ 92 ∧ c ≠ 10 ∧ c ≠ 13) →
      live (.quote q) 0 (body ++ q :: r) = body.length + 1 + live .normal 0 r := by
    intro body
    induction body with
    | nil => intro _; rw [List.nil_append, live, if_pos rfl]; rfl
    | cons c body ih =>
      intro h
      have hc := h c (by simp)
      rw [List.cons_append, live, if_neg hc.1, if_neg (fun e => hc.2.1 e.1), ih fun d hd => h d (by simp [hd]), List.length_cons]
      omega
  have h1 : live .normal 0 (q :: (body ++ q :: r)) = 1 + live (.quote q) 0 (body ++ q :: r) := by
    rcases hq with rfl | rfl <;> (rw [live]; simp)
  have e : q :: (body ++ [q]) ++ r = q :: (body ++ q :: r) := by simp
  rw [e, h1, key body h]
  simp
  omega

/-! ## Pieces -/

theorem dull_of_sym {c : UInt8} (h : sym c = true) : dull c = true := imp_byte (P := sym) (Q := dull) (by decide +kernel) h
theorem dull_of_digit {c : UInt8} (h : digit c = true) : dull c = true := imp_byte (P := digit) (Q := dull) (by decide +kernel) h
theorem dull_of_letter {c : UInt8} (h : letter c = true) : dull c = true := imp_byte (P := letter) (Q := dull) (by decide +kernel) h
theorem dull_of_upper {c : UInt8} (h : dull (upper c) = true) : dull c = true :=
  imp_byte (P := fun c => dull (upper c)) (Q := dull) (by decide +kernel) h

theorem tame_gap {b : List UInt8} (h : Gap b) : Tame b := by
  induction h with
  | nil => exact .nil
  | char h _ ih => exact .cons (by rcases h with rfl | rfl | rfl <;> rfl) ih
  | crlf _ ih => exact .cons rfl (.cons rfl ih)
theorem dull_map {s x : List UInt8} (h : s.map upper = x) (hx : x.all dull = true) : ∀ c ∈ s, dull c = true := by
  subst h
  intro c hc
  rw [List.all_eq_true] at hx
  exact dull_of_upper (hx _ (List.mem_map_of_mem hc))
theorem dull_symbolic {s : List UInt8} (h : Symbolic s) : ∀ c ∈ s, dull c = true := by
  obtain ⟨h1, h2⟩ := h
  intro c hc
  rcases List.mem_cons.1 hc with rfl | hc
  · rcases h1 with h1 | rfl
    · exact dull_of_letter h1
    · rfl
  · exact dull_of_sym (h2 _ hc)
theorem tame_symbolic {s : List UInt8} (h : Symbolic s) : Tame s := .of_dull (dull_symbolic h)
theorem tame_spelled {xs : List (List UInt8)} {s : List UInt8} (h : Spelled xs s) (hx : ∀ x ∈ xs, x.all dull = true) : Tame s := by
  induction h with
  | last h => exact .of_dull (dull_map h (hx _ (by simp)))
  | more h hb _ _ ih =>
    exact (Tame.of_dull (dull_map h (hx _ (by simp)))).append ((tame_gap hb).append (ih fun x h => hx x (by simp at h ⊢; tauto)))
theorem tame_writes {o : Op} {s : List UInt8} (h : Writes o s) : Tame s :=
  tame_spelled h (by cases o <;> decide +kernel)

/-- A piece that the scan passes over. -/
structure Meek (p : Piece) : Prop where
  text : Tame p.text
  blank : Gap p.blank
def Calm (X : List Piece) : Prop := ∀ p ∈ X, Meek p

theorem calm_nil : Calm [] ↔ True := by simp [Calm]
theorem calm_cons {p : Piece} {X : List Piece} : Calm (p :: X) ↔ Meek p ∧ Calm X := by simp [Calm]
theorem calm_append {X Y : List Piece} : Calm (X ++ Y) ↔ Calm X ∧ Calm Y := by
  simp only [Calm, List.mem_append]
  exact ⟨fun h => ⟨fun p hp => h p (.inl hp), fun p hp => h p (.inr hp)⟩, fun h p hp => hp.elim (h.1 p) (h.2 p)⟩

theorem Calm.tame {X : List Piece} (h : Calm X) : Tame (render X) := by
  induction X with
  | nil => exact .nil
  | cons p X ih =>
    rw [calm_cons] at h
    rw [show render (p :: X) = p.text ++ p.blank ++ render X by simp [render]]
    exact (h.1.1.append (tame_gap h.1.2)).append (ih h.2)

theorem Key.meek {x : String} {k : Piece} (h : Key x k) (hx : (bytes x).all dull = true) : Meek k := by
  obtain ⟨h1, h2⟩ := h
  exact ⟨.of_dull (dull_map h1 hx), h2⟩
theorem Ident.meek {k : Piece} (h : Ident k) : Meek k := by
  obtain ⟨h1, h2⟩ := h
  exact ⟨tame_symbolic h1, h2⟩
theorem Var.meek {k : Piece} (h : Var k) : Meek k := by
  obtain ⟨⟨h1, -⟩, h2⟩ := h
  exact ⟨tame_symbolic h1, h2⟩

section
variable {P : List Piece → Prop} {X : List Piece}

/-- One part of a list of pieces. Extended after every lemma. -/
syntax "calm_part" : tactic
/-- Takes a list of pieces apart. -/
syntax "calm" : tactic
macro_rules | `(tactic| calm) => `(tactic| (
  (try simp only [calm_append, calm_cons, calm_nil, and_true, true_and])
  <;> (repeat' apply And.intro) <;> calm_part))
set_option hygiene false in
macro_rules | `(tactic| calm_part) => `(tactic| (first | exact hP _ (by assumption) | fail))
macro_rules | `(tactic| calm_part) => `(tactic| assumption)
macro_rules | `(tactic| calm_part) => `(tactic| (first | exact trivial | fail))
macro_rules | `(tactic| calm_part) => `(tactic| (first | exact Key.meek (by assumption) (by decide +kernel) | fail))
macro_rules | `(tactic| calm_part) => `(tactic| (first | exact Ident.meek (by assumption) | fail))
macro_rules | `(tactic| calm_part) => `(tactic| (first | exact Var.meek (by assumption) | fail))

theorem More.calm (h : More P X) (hP : ∀ Y, P Y → Calm Y) : Calm X := by
  induction h with
  | nil => calm
  | cons hk hX _ ih => calm
theorem Sep.calm (h : Sep P X) (hP : ∀ Y, P Y → Calm Y) : Calm X := by
  obtain ⟨h1, h2⟩ := h
  exact calm_append.2 ⟨hP _ h1, h2.calm hP⟩
theorem Opt.calm (h : Opt P X) (hP : ∀ Y, P Y → Calm Y) : Calm X := by
  cases h with
  | none => calm
  | some h => exact hP _ h
theorem Many.calm (h : Many P X) (hP : ∀ Y, P Y → Calm Y) : Calm X := by
  induction h with
  | nil => calm
  | cons hX _ ih => calm
macro_rules | `(tactic| calm_part) => `(tactic| (first | exact More.calm (by assumption) (fun _ _ => by calm_part) | fail))
macro_rules | `(tactic| calm_part) => `(tactic| (first | exact Sep.calm (by assumption) (fun _ _ => by calm_part) | fail))
macro_rules | `(tactic| calm_part) => `(tactic| (first | exact Opt.calm (by assumption) (fun _ _ => by calm_part) | fail))
macro_rules | `(tactic| calm_part) => `(tactic| (first | exact Many.calm (by assumption) (fun _ _ => by calm_part) | fail))
theorem Sign.calm {x : String} (h : Sign x X) (hx : (bytes x).all dull = true) : Calm X := by
  obtain ⟨h⟩ := h
  exact calm_cons.2 ⟨h.meek hx, calm_nil.2 trivial⟩
macro_rules | `(tactic| calm_part) => `(tactic| (first | exact Sign.calm (by assumption) (by decide +kernel) | fail))
theorem After.calm {x : String} (h : After P x X) (hP : ∀ Y, P Y → Calm Y) (hx : (bytes x).all dull = true) : Calm X := by
  obtain ⟨h1, h2⟩ := h
  exact calm_cons.2 ⟨h1.meek hx, hP _ h2⟩
macro_rules | `(tactic| calm_part) => `(tactic| (first | exact After.calm (by assumption) (fun _ _ => by calm_part) (by decide +kernel) | fail))
theorem ProcName.calm (h : ProcName X) : Calm X := by
  induction h with
  | one h => calm
  | more h1 h2 _ ih => calm
macro_rules | `(tactic| calm_part) => `(tactic| (first | exact ProcName.calm (by assumption) | fail))
theorem FnName.calm (h : FnName X) : Calm X := by
  cases h with
  | one h => calm
  | more h1 h2 h3 => calm
macro_rules | `(tactic| calm_part) => `(tactic| (first | exact FnName.calm (by assumption) | fail))
theorem _root_.Verif.Exprs.When.calm (h : When P X) (hP : ∀ Y, P Y → Calm Y) : Calm X := by
  obtain ⟨h1, h2, h3, h4⟩ := h
  calm
macro_rules | `(tactic| calm_part) => `(tactic| (first | exact Verif.Exprs.When.calm (by assumption) (fun _ _ => by calm_part) | fail))
theorem _root_.Verif.Exprs.Compound.calm (h : Compound P X) (hP : ∀ Y, P Y → Calm Y) : Calm X := by
  cases h with
  | call h1 h2 h3 h4 h5 => calm
  | callAll h1 h2 h3 h4 h5 => calm
  | cases h1 h2 h3 h4 h5 => calm
  | caseOf h1 h2 _ h2' h3 h4 h5 => calm
  | @each x k o i n E F c h0 h1 h2 h3 h4 h5 h6 h7 =>
    have := h1.meek ((by decide +kernel : ∀ x ∈ ["ALL", "ANY", "NONE", "SINGLE", "FILTER"], (bytes x).all dull = true) _ h0)
    calm
  | extract h1 h2 h3 h4 h5 h6 h7 => calm
  | reduce h1 h2 h3 h4 h5 h6 h7 h8 h9 h10 h11 => calm
  | list h2 h3 h4 h5 h6 h6' h7 => calm
end

/-! ## Expressions -/

theorem tame_digits {s : List UInt8} (h : ∀ c ∈ s, digit c = true) : Tame s := .of_dull fun c hc => dull_of_digit (h c hc)

theorem render_snoc (E : List Piece) (p : Piece) : (render (E ++ [p])).length = (render E).length + p.text.length + p.blank.length := by
  simp [render]; omega
theorem render_mid (E F : List Piece) (p : Piece) :
    (render (E ++ p :: F)).length = (render E).length + p.text.length + p.blank.length + (render F).length := by
  simp [render]; omega

theorem expr_tame (N : Nat) : (∀ s, Prim s → s.length < N → Tame s) ∧ (∀ s, Map s → s.length < N → Tame s) ∧
    (∀ s, Entries s → s.length < N → Tame s) ∧ (∀ s, Args1 s → s.length < N → Tame s) ∧
    ∀ E, Exprn E → (render E).length < N → Calm E := by
  induction N with
  | zero => refine ⟨?_, ?_, ?_, ?_, ?_⟩ <;> (intros; omega)
  | succ N ih =>
    obtain ⟨iP, iM, iS, iA, iE⟩ := ih
    have iE' : ∀ E, Exprn E → (render E).length < N → Tame (render E) := fun E h hl => (iE E h hl).tame
    have hM : ∀ s, Map s → s.length < N + 1 → Tame s := by
      intro s h hl
      cases h with
      | empty hb => exact .cons rfl ((tame_gap hb).append (.byte rfl))
      | some hb ht =>
        simp only [List.length_cons, List.length_append, List.length_nil] at hl
        exact .cons rfl ((tame_gap hb).append ((iS _ ht (by omega)).append (.byte rfl)))
    have hS : ∀ s, Entries s → s.length < N + 1 → Tame s := by
      intro s h hl
      cases h with
      | one hs hb hb' hE _ =>
        simp only [List.length_cons, List.length_append, List.length_nil] at hl
        exact (tame_symbolic hs).append ((tame_gap hb).append (.cons rfl ((tame_gap hb').append (iE' _ hE (by omega)))))
      | more hs hb hb' hE _ hb'' ht =>
        simp only [List.length_cons, List.length_append, List.length_nil] at hl
        exact (tame_symbolic hs).append ((tame_gap hb).append (.cons rfl ((tame_gap hb').append ((iE' _ hE (by omega)).append
          (.cons rfl ((tame_gap hb'').append (iS _ ht (by omega))))))))
    have hP : ∀ s, Prim s → s.length < N + 1 → Tame s := by
      intro s h hl
      cases h with
      | number _ h => exact tame_digits h
      | decimal _ h _ h' => exact (tame_digits h).append (.cons rfl (tame_digits h'))
      | quoted hq h => exact tame_quoted hq h
      | const h => exact .of_dull (dull_map rfl ((by decide +kernel : ∀ x ∈ ["TRUE", "FALSE", "NULL"].map bytes, x.all dull = true) _ h))
      | name h => obtain ⟨h, -⟩ := h; exact tame_symbolic h
      | param h => exact .cons rfl (tame_symbolic h)
      | paren hb hE _ _ =>
        simp only [List.length_cons, List.length_append, List.length_nil] at hl
        exact .cons rfl ((tame_gap hb).append ((iE' _ hE (by omega)).append (.byte rfl)))
      | empty hb => exact .cons rfl ((tame_gap hb).append (.byte rfl))
      | one hb hE _ _ =>
        simp only [List.length_cons, List.length_append, List.length_nil] at hl
        exact .cons rfl ((tame_gap hb).append ((iE' _ hE (by omega)).append (.byte rfl)))
      | more hb hE _ _ hb' ht =>
        simp only [List.length_cons, List.length_append, List.length_nil] at hl
        exact .cons rfl ((tame_gap hb).append ((iE' _ hE (by omega)).append (.cons rfl ((tame_gap hb').append
          ((iA _ ht (by omega)).append (.byte rfl))))))
      | map h => exact hM _ h hl
      | compound h _ _ => exact ((h.short (N := N) (by omega)).calm fun Y hY => iE Y hY.1 hY.2).tame
    have hE : ∀ E, Exprn E → (render E).length < N + 1 → Calm E := by
      intro E h hl
      have htx := h.texts
      cases h with
      | @operand s b hs hb =>
        refine calm_cons.2 ⟨⟨hP _ hs ?_, hb⟩, calm_nil.2 trivial⟩
        have h1 := render_mid [] [] ⟨.operand, s, b⟩
        simp only [List.nil_append] at h1
        have : s.length ≤ (render [⟨.operand, s, b⟩]).length := by rw [h1]; simp [render]
        show s.length < N + 1
        omega
      | @pre o s b E _ hs hb hE =>
        have h0 : 0 < s.length := List.length_pos_of_ne_nil (htx ⟨.pre o, s, b⟩ (by simp))
        rw [← List.nil_append (_ :: E), render_mid] at hl
        simp only at hl
        exact calm_cons.2 ⟨⟨tame_writes hs, hb⟩, iE _ hE (by omega)⟩
      | @post o s b E _ hs hb hE =>
        have h0 : 0 < s.length := List.length_pos_of_ne_nil (htx ⟨.post o, s, b⟩ (by simp))
        rw [render_snoc] at hl
        simp only at hl
        exact calm_append.2 ⟨iE _ hE (by omega), calm_cons.2 ⟨⟨tame_writes hs, hb⟩, calm_nil.2 trivial⟩⟩
      | @inf o s b E F _ hs hb hE hF =>
        have h0 : 0 < s.length := List.length_pos_of_ne_nil (htx ⟨.inf o, s, b⟩ (by simp))
        rw [render_mid] at hl
        simp only at hl
        exact calm_append.2 ⟨iE _ hE (by omega), calm_cons.2 ⟨⟨tame_writes hs, hb⟩, iE _ hF (by omega)⟩⟩
      | property hE hb' hs hb =>
        rw [render_snoc] at hl
        simp only [List.length_cons] at hl
        exact calm_append.2 ⟨iE _ hE (by omega), calm_cons.2 ⟨⟨.cons rfl ((tame_gap hb').append (tame_symbolic hs)), hb⟩,
          calm_nil.2 trivial⟩⟩
      | subscript hE hb' hF _ hb =>
        rw [render_snoc] at hl
        simp only [List.length_cons, List.length_append, List.length_nil] at hl
        exact calm_append.2 ⟨iE _ hE (by omega), calm_cons.2 ⟨⟨.cons rfl ((tame_gap hb').append ((iE' _ hF (by omega)).append
          (.byte rfl))), hb⟩, calm_nil.2 trivial⟩⟩
    have hA : ∀ s, Args1 s → s.length < N + 1 → Tame s := by
      intro s h hl
      cases h with
      | one h _ => exact (hE _ h hl).tame
      | more h _ hb ht =>
        simp only [List.length_cons, List.length_append, List.length_nil] at hl
        exact (iE' _ h (by omega)).append (.cons rfl ((tame_gap hb).append (iA _ ht (by omega))))
    exact ⟨hP, hM, hS, hA, hE⟩

theorem tame_prim {s : List UInt8} (h : Prim s) : Tame s := (expr_tame (s.length + 1)).1 s h (by omega)
theorem tame_map {s : List UInt8} (h : Map s) : Tame s := (expr_tame (s.length + 1)).2.1 s h (by omega)
theorem _root_.Verif.Exprs.Exprn.calm {E : List Piece} (h : Exprn E) : Calm E :=
  (expr_tame ((render E).length + 1)).2.2.2.2 E h (by omega)
macro_rules | `(tactic| calm_part) => `(tactic| (first | exact Verif.Exprs.Exprn.calm (by assumption) | fail))

/-! ## Statements -/

section
variable {X : List Piece}

theorem Proj.calm (h : Proj X) : Calm X := by cases h <;> calm
macro_rules | `(tactic| calm_part) => `(tactic| (first | exact Proj.calm (by assumption) | fail))
theorem SortItem.calm (h : SortItem X) : Calm X := by cases h <;> calm
macro_rules | `(tactic| calm_part) => `(tactic| (first | exact SortItem.calm (by assumption) | fail))
theorem OrderBy.calm (h : OrderBy X) : Calm X := by cases h <;> calm
macro_rules | `(tactic| calm_part) => `(tactic| (first | exact OrderBy.calm (by assumption) | fail))
theorem Items.calm (h : Items X) : Calm X := by cases h <;> calm
macro_rules | `(tactic| calm_part) => `(tactic| (first | exact Items.calm (by assumption) | fail))
theorem Distinct.calm (h : Distinct X) : Calm X := by cases h <;> calm
macro_rules | `(tactic| calm_part) => `(tactic| (first | exact Distinct.calm (by assumption) | fail))
theorem Body.calm (h : Body X) : Calm X := by cases h; calm
macro_rules | `(tactic| calm_part) => `(tactic| (first | exact Body.calm (by assumption) | fail))
theorem Word.calm (h : Word X) : Calm X := by cases h; calm
macro_rules | `(tactic| calm_part) => `(tactic| (first | exact Word.calm (by assumption) | fail))
theorem Label.calm (h : Label X) : Calm X := by cases h; calm
macro_rules | `(tactic| calm_part) => `(tactic| (first | exact Label.calm (by assumption) | fail))
theorem Props.calm (h : Props X) : Calm X := by
  cases h with
  | map h hb => exact calm_cons.2 ⟨⟨tame_map h, hb⟩, calm_nil.2 trivial⟩
  | param h hb => exact calm_cons.2 ⟨⟨.cons rfl (tame_symbolic h), hb⟩, calm_nil.2 trivial⟩
macro_rules | `(tactic| calm_part) => `(tactic| (first | exact Props.calm (by assumption) | fail))
theorem Node.calm (h : Node X) : Calm X := by cases h; calm
macro_rules | `(tactic| calm_part) => `(tactic| (first | exact Node.calm (by assumption) | fail))
theorem OrType.calm (h : OrType X) : Calm X := by cases h <;> calm
macro_rules | `(tactic| calm_part) => `(tactic| (first | exact OrType.calm (by assumption) | fail))
theorem Types.calm (h : Types X) : Calm X := by cases h; calm
macro_rules | `(tactic| calm_part) => `(tactic| (first | exact Types.calm (by assumption) | fail))
theorem Digits.tame {s : List UInt8} (h : Digits s) : Tame s := by obtain ⟨-, h⟩ := h; exact tame_digits h
theorem Range.tame {s : List UInt8} (h : Range s) : Tame s := by
  cases h with
  | any => exact .byte rfl
  | exact hb h => exact .cons rfl ((tame_gap hb).append h.tame)
  | all hb => exact .cons rfl ((tame_gap hb).append (.cons rfl (.byte rfl)))
  | least hb h hb' => exact .cons rfl ((tame_gap hb).append (h.tame.append ((tame_gap hb').append (.cons rfl (.byte rfl)))))
  | most hb hb' h => exact .cons rfl ((tame_gap hb).append (.cons rfl (.cons rfl ((tame_gap hb').append h.tame))))
  | between hb h hb' hb'' h' => exact .cons rfl ((tame_gap hb).append (h.tame.append ((tame_gap hb').append (.cons rfl (.cons rfl
      ((tame_gap hb'').append h'.tame))))))
theorem Length.calm (h : Length X) : Calm X := by
  obtain ⟨h, hb⟩ := h
  exact calm_cons.2 ⟨⟨h.tame, hb⟩, calm_nil.2 trivial⟩
macro_rules | `(tactic| calm_part) => `(tactic| (first | exact Length.calm (by assumption) | fail))
theorem Detail.calm (h : Detail X) : Calm X := by cases h <;> calm
macro_rules | `(tactic| calm_part) => `(tactic| (first | exact Detail.calm (by assumption) | fail))
theorem Rel.calm (h : Rel X) : Calm X := by cases h; calm
macro_rules | `(tactic| calm_part) => `(tactic| (first | exact Rel.calm (by assumption) | fail))
theorem Steps.calm (h : Steps X) : Calm X := by
  induction h with
  | nil => calm
  | cons h1 h2 _ ih => calm
macro_rules | `(tactic| calm_part) => `(tactic| (first | exact Steps.calm (by assumption) | fail))
theorem Path.calm (h : Path X) : Calm X := by cases h; calm
macro_rules | `(tactic| calm_part) => `(tactic| (first | exact Path.calm (by assumption) | fail))
theorem AnonPart.calm (h : AnonPart X) : Calm X := by cases h <;> calm
macro_rules | `(tactic| calm_part) => `(tactic| (first | exact AnonPart.calm (by assumption) | fail))
theorem Part.calm (h : Part X) : Calm X := by cases h <;> calm
macro_rules | `(tactic| calm_part) => `(tactic| (first | exact Part.calm (by assumption) | fail))
theorem Pattern.calm (h : Pattern X) : Calm X := by
  induction h with
  | one h => calm
  | more h1 _ h2 _ ih => calm
macro_rules | `(tactic| calm_part) => `(tactic| (first | exact Pattern.calm (by assumption) | fail))
theorem Keys.calm {xs : List String} (h : Keys xs X) (hx : (xs.all fun x => (bytes x).all dull) = true) : Calm X := by
  induction h with
  | nil => calm
  | cons h1 _ ih =>
    simp only [List.all_cons, Bool.and_eq_true] at hx
    exact calm_cons.2 ⟨h1.meek hx.1, ih hx.2⟩
macro_rules | `(tactic| calm_part) => `(tactic| (first | exact Keys.calm (by assumption) (by decide +kernel) | fail))
theorem Hint.calm (h : Hint X) : Calm X := by cases h <;> calm
macro_rules | `(tactic| calm_part) => `(tactic| (first | exact Hint.calm (by assumption) | fail))
theorem Dots.calm (h : Dots X) : Calm X := by
  induction h with
  | one hb' h hb => exact calm_cons.2 ⟨⟨.cons rfl ((tame_gap hb').append (tame_symbolic h)), hb⟩, calm_nil.2 trivial⟩
  | more hb' h hb _ ih => exact calm_cons.2 ⟨⟨.cons rfl ((tame_gap hb').append (tame_symbolic h)), hb⟩, ih⟩
macro_rules | `(tactic| calm_part) => `(tactic| (first | exact Dots.calm (by assumption) | fail))
theorem Target.calm (h : Target X) : Calm X := by
  obtain ⟨h1, h2, h3⟩ := h
  exact calm_cons.2 ⟨⟨tame_prim h1, h2⟩, h3.calm⟩
macro_rules | `(tactic| calm_part) => `(tactic| (first | exact Target.calm (by assumption) | fail))
theorem Labels.calm (h : Labels X) : Calm X := by cases h; calm
macro_rules | `(tactic| calm_part) => `(tactic| (first | exact Labels.calm (by assumption) | fail))
theorem SetItem.calm (h : SetItem X) : Calm X := by cases h <;> calm
macro_rules | `(tactic| calm_part) => `(tactic| (first | exact SetItem.calm (by assumption) | fail))
theorem RemoveItem.calm (h : RemoveItem X) : Calm X := by cases h <;> calm
macro_rules | `(tactic| calm_part) => `(tactic| (first | exact RemoveItem.calm (by assumption) | fail))
theorem MergeAction.calm (h : MergeAction X) : Calm X := by cases h <;> calm
macro_rules | `(tactic| calm_part) => `(tactic| (first | exact MergeAction.calm (by assumption) | fail))
theorem CallArgs.calm (h : CallArgs X) : Calm X := by cases h; calm
macro_rules | `(tactic| calm_part) => `(tactic| (first | exact CallArgs.calm (by assumption) | fail))
theorem ProcProj.calm (h : ProcProj X) : Calm X := by cases h <;> calm
macro_rules | `(tactic| calm_part) => `(tactic| (first | exact ProcProj.calm (by assumption) | fail))
theorem Yield.calm (h : Yield X) : Calm X := by cases h <;> calm
macro_rules | `(tactic| calm_part) => `(tactic| (first | exact Yield.calm (by assumption) | fail))
theorem Quoted.calm (h : Quoted X) : Calm X := by
  obtain ⟨h1, h2, hb⟩ := h
  exact calm_cons.2 ⟨⟨tame_quoted h1 h2, hb⟩, calm_nil.2 trivial⟩
macro_rules | `(tactic| calm_part) => `(tactic| (first | exact Quoted.calm (by assumption) | fail))
theorem Terminator.calm (h : Terminator X) : Calm X := by cases h; calm
macro_rules | `(tactic| calm_part) => `(tactic| (first | exact Terminator.calm (by assumption) | fail))
theorem Num.calm (h : Num X) : Calm X := by
  obtain ⟨h, hb⟩ := h
  exact calm_cons.2 ⟨⟨h.tame, hb⟩, calm_nil.2 trivial⟩
macro_rules | `(tactic| calm_part) => `(tactic| (first | exact Num.calm (by assumption) | fail))
theorem Lookup.calm (h : Lookup X) : Calm X := by
  cases h with
  | quoted h => exact h.calm
  | param h hb => exact calm_cons.2 ⟨⟨.cons rfl (tame_symbolic h), hb⟩, calm_nil.2 trivial⟩
macro_rules | `(tactic| calm_part) => `(tactic| (first | exact Lookup.calm (by assumption) | fail))
theorem PointOf.calm (h : PointOf X) : Calm X := by cases h <;> calm
macro_rules | `(tactic| calm_part) => `(tactic| (first | exact PointOf.calm (by assumption) | fail))
theorem Point.calm (h : Point X) : Calm X := by
  cases h with
  | mk h1 h2 h0 h3 h4 =>
    have := h3.meek ((by decide +kernel : ∀ x ∈ ["NODE", "RELATIONSHIP", "REL"], (bytes x).all dull = true) _ h0)
    calm
macro_rules | `(tactic| calm_part) => `(tactic| (first | exact Point.calm (by assumption) | fail))

mutual
theorem Clause.calm {X : List Piece} : Clause X → Calm X
  | .match_ h1 h2 h3 h4 => by calm
  | .optional h1 h2 h3 h4 h5 => by calm
  | .create h1 h2 => by calm
  | .createUnique h1 h2 h3 => by calm
  | .merge h1 h2 h3 => by calm
  | .set h1 h2 => by calm
  | .remove h1 h2 => by calm
  | .foreach h1 h2 h3 h4 h5 h6 h7 h8 => by
    have := Clauses.calm h7
    calm
  | .call h1 h2 h3 h4 h5 => by calm
  | .load h1 h2 h3 h4 h5 h6 => by calm
  | .loadHeaders h1 h2 h3 h4 h5 h6 h7 => by calm
  | .start h1 h2 h3 => by calm
  | .ret h1 h2 => by calm
  | .with_ h1 h2 h3 => by calm
  | .unwind h1 h2 h3 h4 => by calm
  | .delete h1 h2 => by calm
  | .detach h1 h2 h3 => by calm
  | .union h1 => by calm
  | .unionAll h1 h2 => by calm
theorem Clauses.calm {X : List Piece} : Clauses X → Calm X
  | .one h => Clause.calm h
  | .more h1 h2 => calm_append.2 ⟨Clause.calm h1, Clauses.calm h2⟩
end

theorem Schema.calm (h : Schema X) : Calm X := by
  have hx : ∀ {x y z : String} {K : List Piece}, x ∈ ["CREATE", "DROP"] → Keys [x, y, z] K → (bytes y).all dull = true →
      (bytes z).all dull = true → Calm K := by
    intro x y z K h0 h hy hz
    have := (by decide +kernel : ∀ x ∈ ["CREATE", "DROP"], (bytes x).all dull = true) _ h0
    exact h.calm (by simp only [List.all_cons, List.all_nil, this, hy, hz]; rfl)
  cases h with
  | index h0 h1 h2 h3 h4 h5 => have := hx h0 h1 (by decide +kernel) (by decide +kernel); calm
  | node h0 h1 h2 h3 h4 h5 h6 h7 h8 => have := hx h0 h1 (by decide +kernel) (by decide +kernel); calm
  | rel h0 h1 h2 h3 h4 h5 h6 h7 h8 h9 h10 h11 h12 h13 h14 h15 =>
    have := hx h0 h1 (by decide +kernel) (by decide +kernel); calm
theorem Choice.calm (h : Choice X) : Calm X := by cases h <;> calm
macro_rules | `(tactic| calm_part) => `(tactic| (first | exact Choice.calm (by assumption) | fail))
theorem Commit.calm (h : Commit X) : Calm X := by cases h; calm
macro_rules | `(tactic| calm_part) => `(tactic| (first | exact Commit.calm (by assumption) | fail))

/-- What ends a statement. -/
def ending : Ending → List Piece
  | .semicolon => [⟨.operand, [59], []⟩]
  | .endOfText => []
theorem End.eq {e : Ending} (h : End e X) : X = ending e := by cases h <;> rfl
theorem Rest.calm {e : Ending} (h : Rest e X) : ∃ Z, Calm Z ∧ X = Z ++ ending e := by
  induction h with
  | done h => exact ⟨[], calm_nil.2 trivial, h.eq⟩
  | more h _ ih =>
    obtain ⟨Z, h1, rfl⟩ := ih
    exact ⟨_ ++ Z, calm_append.2 ⟨h.calm, h1⟩, by simp⟩
theorem Stmt.calm {e : Ending} (h : Stmt e X) : ∃ Z, Calm Z ∧ X = Z ++ ending e := by
  obtain ⟨h1, h2⟩ := h
  have h1 : Calm _ := h1.calm fun _ h => h.calm
  cases h2 with
  | query h2 h3 h4 =>
    obtain ⟨Z, h5, rfl⟩ := h4.calm
    exact ⟨_ ++ (_ ++ (_ ++ Z)), calm_append.2 ⟨h1, calm_append.2 ⟨h2.calm fun _ h => h.calm, calm_append.2 ⟨h3.calm, h5⟩⟩⟩, by simp⟩
  | schema h2 h3 => exact ⟨_ ++ _, calm_append.2 ⟨h1, h2.calm⟩, by simp [h3.eq]⟩
end

/-! ## Segments -/

/-- A segment as the quick parser sees it: what it begins with, and where it ends. `k`: it holds a statement. -/
structure Ends (k : Bool) (s w : List UInt8) : Prop where
  front : ∃ b z, s = b ++ z ∧ Gap b ∧ (k = true → z.head?.any letter = true) ∧ (k = false → z = [] ∨ z = [59])
  live : ¬ Commented (s ++ w) → (∃ s', s = s' ++ [59] ∧ live .normal 0 (s ++ w) = s'.length) ∨
    (w = [] ∧ live .normal 0 s = s.length)

theorem live_semi {t w : List UInt8} (h : Tame t) (hc : ¬ Commented (t ++ [59] ++ w)) :
    live .normal 0 (t ++ [59] ++ w) = t.length := by
  rw [List.append_assoc] at hc ⊢
  rw [h _ hc]
  simp [live]
theorem live_end {t : List UInt8} (h : Tame t) (hc : ¬ Commented (t ++ [])) : live .normal 0 t = t.length := by
  have := h [] hc
  simpa [live] using this

end Verif.Stmts
