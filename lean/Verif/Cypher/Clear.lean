import Verif.Cypher.Tame
import Verif.Cypher.Script
import Verif.Cypher.LeafRules
/-!
# What the quick parser sees of what the parser matches

`Tame` follows the scan of the quick parser over texts of a grammar. Here it is followed over whatever the rules of
`parser.leg` match, in texts without comments, back quotes and the option CYPHER: outside of strings they match no quote, no
backslash, and no semicolon but one that ends a statement. The text that the parser skips after an error ends before a
semicolon, wherever that is; if there are no quotes and no backslashes, it is where the scan ends as well.
-/
namespace Verif.Cypher.Scan
open Verif.Peg
open Verif.Quick (live isEsc)
open Verif.Stmts (dull Tame commented_right)
open Verif.Ops (bytes upper)

variable {σ : Type} {w : List UInt8}

/-- No quotes and no backslashes. -/
def Unquoted (w : List UInt8) : Prop := 39 ∉ w ∧ 34 ∉ w ∧ 92 ∉ w
/-- The word occurs. -/
def Mentions (x : String) (w : List UInt8) : Prop := ∃ p, (w.extract p (p + (bytes x).length)).map upper = bytes x

/-! ## Passing over bytes -/

/-- The scan goes from `p` to `p'`, from one mode to another. -/
def Pass (w : List UInt8) (m m' : Quick.Mode) (p p' : Nat) : Prop := p ≤ p' ∧ Quick.Step m m' (w.drop p) (p' - p)

theorem Pass.refl {m : Quick.Mode} {p : Nat} : Pass w m m p p := ⟨Nat.le_refl _, by rw [Nat.sub_self]; exact .zero _ _⟩
theorem Pass.trans {m m' m'' : Quick.Mode} {p k j : Nat} (h1 : Pass w m m' p k) (h2 : Pass w m' m'' k j) : Pass w m m'' p j := by
  refine ⟨Nat.le_trans h1.1 h2.1, ?_⟩
  have h : Quick.Step m' m'' ((w.drop p).drop (k - p)) (j - k) := by
    rw [List.drop_drop, show p + (k - p) = k by have := h1.1; omega]; exact h2.2
  have := h1.2.trans h
  rwa [show k - p + (j - k) = j - p by have := h1.1; have := h2.1; omega] at this

theorem drop_get {p : Nat} {c : UInt8} (h : w[p]? = some c) : w.drop p = c :: w.drop (p + 1) := by
  obtain ⟨hp, rfl⟩ := List.getElem?_eq_some_iff.1 h
  exact List.drop_eq_getElem_cons hp

theorem commented_drop {p : Nat} (h : Commented (w.drop p)) : Commented w := by
  have := commented_right (a := w.take p) h
  rwa [List.take_append_drop] at this

theorem Pass.byte {p : Nat} {c : UInt8} (hc : ¬ Commented w) (h : w[p]? = some c) (hd : dull c = true) :
    Pass w .normal .normal p (p + 1) := by
  refine ⟨by omega, ?_⟩
  have e := drop_get h
  have := Tame.byte hd (w.drop (p + 1)) (by rw [List.singleton_append, ← e]; exact fun h => hc (commented_drop h))
  rw [List.singleton_append, ← e] at this
  rw [Nat.add_sub_cancel_left]
  refine ⟨by rw [this, List.drop_drop]; rfl, ?_⟩
  rw [e]; simp

/-- The scan passes over the bytes, the last of which is no semicolon, unless it is the last of the text. -/
def Plain (w : List UInt8) (p p' : Nat) : Prop := Pass w .normal .normal p p' ∧ (p < p' → p' < w.length → w[p' - 1]? ≠ some 59)

theorem Plain.refl {p : Nat} : Plain w p p := ⟨.refl, fun h => absurd h (Nat.lt_irrefl _)⟩
theorem Plain.trans {p k j : Nat} (h1 : Plain w p k) (h2 : Plain w k j) : Plain w p j := by
  refine ⟨h1.1.trans h2.1, fun h hl => ?_⟩
  rcases Nat.lt_or_ge k j with hk | hk
  · exact h2.2 hk hl
  · have := h2.1.1
    obtain rfl : k = j := by omega
    exact h1.2 h hl

theorem Plain.byte {p : Nat} {c : UInt8} (hc : ¬ Commented w) (h : w[p]? = some c) (hd : dull c = true) : Plain w p (p + 1) := by
  refine ⟨.byte hc h hd, fun _ _ e => ?_⟩
  rw [Nat.add_sub_cancel, h] at e
  cases e; cases hd

theorem Plain.bytes {p : Nat} (hc : ¬ Commented w) : ∀ {l : List UInt8}, w.extract p (p + l.length) = l → l.all dull = true →
    Plain w p (p + l.length) := by
  intro l
  induction l generalizing p with
  | nil => intro _ _; exact .refl
  | cons c l ih =>
    intro h hl
    simp only [List.all_cons, Bool.and_eq_true] at hl
    have h0 : (w.extract p (p + (l.length + 1)))[0]? = some c := by
      rw [show p + (l.length + 1) = p + (c :: l).length from rfl, h]; rfl
    have hp : w[p]? = some c := (ext_get h0).1
    have h1 : w.extract (p + 1) (p + 1 + l.length) = l := by
      have := ext_cons (w := w) (j := p + (l.length + 1)) hp (by omega)
      rw [show p + (l.length + 1) = p + (c :: l).length from rfl, h] at this
      have := (List.cons.inj this).2
      rw [show p + (c :: l).length = p + 1 + l.length by simp; omega] at this
      exact this.symm
    have := (Plain.byte hc hp hl.1).trans (ih h1 hl.2)
    rwa [show p + 1 + l.length = p + (c :: l).length by simp; omega] at this

/-! ## Strings -/

section strings
variable {q : UInt8} {p p' : Nat} {ts : List (Peg.Thunk Act)}

theorem quote_byte {c : UInt8} (h : w[p]? = some c) (h1 : c ≠ q) (h2 : c = 92 → ∀ d, w[p + 1]? = some d → isEsc d = false) :
    Pass w (.quote q) (.quote q) p (p + 1) := by
  refine ⟨by omega, ?_⟩
  rw [drop_get h, Nat.add_sub_cancel_left]
  refine ⟨?_, by simp⟩
  rw [live, if_neg h1, if_neg]
  · rfl
  · rintro ⟨rfl, e⟩
    rw [List.head?_drop] at e
    cases hd : w[p + 1]? with
    | none => rw [hd] at e; cases e
    | some d => rw [hd, Option.any_some, h2 rfl d hd] at e; cases e

theorem quote_esc {d : UInt8} (hq : q ≠ 92) (h : w[p]? = some 92) (h1 : w[p + 1]? = some d) (hd : isEsc d = true) :
    Pass w (.quote q) (.quote q) p (p + 2) := by
  refine ⟨by omega, ?_⟩
  rw [drop_get h, drop_get h1, Nat.add_sub_cancel_left]
  refine ⟨?_, by simp⟩
  rw [live, if_neg (fun e => hq e.symm), if_pos ⟨rfl, by simpa using hd⟩]
  simp [live]
  omega

theorem escape_isEsc {d v : UInt8} (h : Text.escape d = some v) : isEsc d = true :=
  escape_cases (P := fun d => isEsc d = true) (by decide) h
theorem isEsc_escape {d : UInt8} (h : isEsc d = true) : ∃ v, Text.escape d = some v := by
  have := all_bytes (P := fun d => isEsc d = true → (Text.escape d).isSome = true) (by decide +kernel) d h
  exact Option.isSome_iff_exists.1 this

theorem quote_run (h : ∀ k, p ≤ k → k < p' → ∃ c, w[k]? = some c ∧ c ≠ q ∧
    ∀ j, c = 92 → Text.Lone (w.extract (k + 1) j)) (hp : p ≤ p') : Pass w (.quote q) (.quote q) p p' := by
  induction hn : p' - p generalizing p with
  | zero =>
    obtain rfl : p = p' := by omega
    exact .refl
  | succ n ih =>
    obtain ⟨c, h1, h2, h3⟩ := h p (Nat.le_refl _) (by omega)
    refine (quote_byte h1 h2 fun e d hd => ?_).trans (ih (fun k h4 h5 => h k (by omega) h5) (by omega) (by omega))
    cases hx : isEsc d with
    | false => rfl
    | true =>
      obtain ⟨v, hv⟩ := isEsc_escape hx
      refine absurd hv (h3 (p + 2) e d v ?_)
      rw [ext_cons hd (by omega)]; rfl

theorem quote_body (hq : q = 39 ∨ q = 34) (h : Mt w (quotedBody q) p p' ts) : Pass w (.quote q) (.quote q) p p' := by
  refine Mt.star (P := fun p p' _ => Pass w (.quote q) (.quote q) p p') (fun {p p1 p2 us vs} h hx => .trans ?_ hx) (fun _ => .refl) h
  have hq0 : q ≠ 92 := by rcases hq with rfl | rfl <;> decide
  have hq1 : (10 : UInt8) ≠ q := by rcases hq with rfl | rfl <;> decide
  have hq2 : (13 : UInt8) ≠ q := by rcases hq with rfl | rfl <;> decide
  rcases h.alt with h | ⟨-, h⟩
  · obtain ⟨d, v, h1, h2, h3, rfl, rfl⟩ := escaped_char_inv h
    exact quote_esc hq0 h2 h3 (escape_isEsc h1)
  rcases h.alt with h | ⟨-, h⟩
  · obtain ⟨p1, us1, vs1, a1, b1, rfl⟩ := h.seq
    obtain ⟨p2, us2, vs2, a2, b2, rfl⟩ := b1.seq
    obtain ⟨p3, us3, vs3, a3, b3, rfl⟩ := b2.seq
    clear b1 b2
    obtain ⟨rfl, rfl⟩ := a1.pred
    obtain ⟨rfl, rfl⟩ := a3.pred
    obtain ⟨rfl, rfl⟩ := b3.act
    obtain ⟨rfl, e⟩ := a2.eol
    rcases e with ⟨e1, rfl⟩ | ⟨e1, e2, rfl⟩
    · exact quote_byte e1 hq1 (fun h => absurd h (by decide))
    · exact (quote_byte e1 hq2 (fun h => absurd h (by decide))).trans (quote_byte e2 hq1 (fun h => absurd h (by decide)))
  · obtain ⟨p1, us1, vs1, a1, b1, rfl⟩ := h.seq
    obtain ⟨p2, us2, vs2, a2, b2, rfl⟩ := b1.seq
    obtain ⟨p3, us3, vs3, a3, b3, rfl⟩ := b2.seq
    clear b1 b2
    obtain ⟨rfl, rfl⟩ := a1.pred
    obtain ⟨rfl, rfl⟩ := a3.pred
    obtain ⟨rfl, rfl⟩ := b3.act
    obtain ⟨rfl, e1, e2, -⟩ := plus_run (Q := fun k => ∃ c, w[k]? = some c ∧ c ≠ q ∧
      ∀ j, c = 92 → Text.Lone (w.extract (k + 1) j)) (fun p p1 us hm => by
        obtain ⟨r, xs, ys, g1, g2, rfl⟩ := hm.seq
        obtain ⟨rfl, rfl, g3⟩ := g1.npeek
        obtain ⟨rfl, rfl, c, g4⟩ := g2.dot
        obtain ⟨f1, f2⟩ := g3.alt
        obtain ⟨f2, f3⟩ := f2.alt
        exact ⟨rfl, rfl, c, g4, fun e => f1.chr (e ▸ g4), fun j e => no_escaped_char f2 (e ▸ g4) j⟩) a2
    exact quote_run e2 a2.le

theorem quote_one {n : Nat} (hq : q = 39 ∨ q = 34)
    (h : Mt w (.seq (.chr q) (.seq (quotedBody q) (.onfail (.chr q) (.err n)))) p p' ts) : Plain w p p' := by
  obtain ⟨p1, us1, vs1, a1, b1, rfl⟩ := h.seq
  obtain ⟨p2, us2, vs2, a2, b2, rfl⟩ := b1.seq
  obtain ⟨rfl, rfl, e1⟩ := a1.chr
  obtain ⟨rfl, rfl, e2⟩ := b2.onfail.chr
  refine ⟨?_, fun _ _ e => by rw [Nat.add_sub_cancel, e2] at e; rcases hq with rfl | rfl <;> cases e⟩
  refine Pass.trans (m' := .quote q) (k := p + 1) ?_ ((quote_body hq a2).trans ?_)
  · refine ⟨by omega, ?_⟩
    rw [drop_get e1, Nat.add_sub_cancel_left]
    rcases hq with rfl | rfl <;> exact ⟨by simp [live], by simp⟩
  · refine ⟨by omega, ?_⟩
    rw [drop_get e2, Nat.add_sub_cancel_left]
    exact ⟨by simp [live], by simp⟩

theorem quoted_pass (h : Mt w r_quoted p p' ts) : Plain w p p' := by
  rcases h.alt with h | ⟨-, h⟩
  · exact quote_one (.inl rfl) (h.nt0 rfl : Mt w r_single_quoted p p' ts)
  · exact quote_one (.inr rfl) (h.nt0 rfl : Mt w r_double_quoted p p' ts)

end strings

/-! ## The option CYPHER -/

theorem no_option {p p' : Nat} {ts : List (Peg.Thunk Act)} (h : Mt w r_CYPHER p p' ts) : Mentions "CYPHER" w := by
  obtain ⟨p1, us1, vs1, a1, b1, rfl⟩ := h.seq
  obtain ⟨p2, us2, vs2, a2, b2, rfl⟩ := b1.onfail.seq
  obtain ⟨p3, us3, vs3, a3, b3, rfl⟩ := b2.seq
  obtain ⟨p4, us4, vs4, a4, b4, rfl⟩ := b3.seq
  obtain ⟨p5, us5, vs5, a5, b5, rfl⟩ := b4.seq
  obtain ⟨p6, us6, vs6, a6, -, rfl⟩ := b5.seq
  obtain ⟨rfl, rfl, c1, e1, m1⟩ := a1.one
  obtain ⟨rfl, rfl, c2, e2, m2⟩ := a2.one
  obtain ⟨rfl, rfl, c3, e3, m3⟩ := a3.one
  obtain ⟨rfl, rfl, c4, e4, m4⟩ := a4.one
  obtain ⟨rfl, rfl, c5, e5, m5⟩ := a5.one
  obtain ⟨rfl, rfl, c6, e6, m6⟩ := a6.one
  have f1 := all_bytes (P := fun c => (CharSet.mk 0x8000000080000000000000000).mem c = true → upper c = 67) (by decide +kernel) c1 m1
  have f2 := all_bytes (P := fun c => (CharSet.mk 0x2000000020000000000000000000000).mem c = true → upper c = 89) (by decide +kernel) c2 m2
  have f3 := all_bytes (P := fun c => (CharSet.mk 0x10000000100000000000000000000).mem c = true → upper c = 80) (by decide +kernel) c3 m3
  have f4 := all_bytes (P := fun c => (CharSet.mk 0x100000001000000000000000000).mem c = true → upper c = 72) (by decide +kernel) c4 m4
  have f5 := all_bytes (P := fun c => (CharSet.mk 0x20000000200000000000000000).mem c = true → upper c = 69) (by decide +kernel) c5 m5
  have f6 := all_bytes (P := fun c => (CharSet.mk 0x40000000400000000000000000000).mem c = true → upper c = 82) (by decide +kernel) c6 m6
  have hb : bytes "CYPHER" = [67, 89, 80, 72, 69, 82] := by decide +kernel
  refine ⟨p, ?_⟩
  rw [hb, ext_cons e1 (by simp), ext_cons e2 (by simp), ext_cons e3 (by simp), ext_cons e4 (by simp), ext_cons e5 (by simp),
    ext_cons e6 (by simp), ext_nil (by simp)]
  simp [f1, f2, f3, f4, f5, f6]

/-! ## A check of rules -/

/-- If these fail, there is no semicolon. -/
def semiT : Rule → Bool
  | .r_SEMICOLON | .r___statement => true
  | _ => false
def semi : E → Bool
  | .one m => m.mem 59
  | .alt a b => semi a || semi b
  | .onfail a _ => semi a
  | .seq a (.act _) => semi a
  | .nt r _ => semiT r
  | _ => false

theorem semiT_ok : ∀ r, semiT r = true → semi (grammar r).body = true := by
  intro r; cases r <;> first | (intro h; cases h; done) | (intro _; decide +kernel)

theorem semi_sound {e : E} {p : Nat} {q : QState} {r : SkRes} (h : Sk w e p q r) :
    semi e = true → ∀ q', r = .no q' → w[p]? ≠ some 59 := by
  induction h with
  | one_no h =>
    intro hs _ _ e
    have := h _ e
    exact Bool.false_ne_true (this.symm.trans hs)
  | nt_no _ ih => intro hs q' _; exact ih (semiT_ok _ hs) _ rfl
  | alt_no _ _ ih1 ih2 =>
    intro hs q' hq
    simp only [semi, Bool.or_eq_true] at hs
    rcases hs with hs | hs
    · exact ih1 hs _ rfl
    · exact ih2 hs _ hq
  | onfail_no _ _ ih => intro hs q' _; exact ih hs _ rfl
  | @seq_no a b _ _ _ _ ih =>
    intro hs q' _
    cases b <;> first | (cases hs; done) | exact ih hs _ rfl
  | @seq_no2 a b _ _ _ _ _ _ _ h2 _ _ =>
    intro hs q' _
    cases b <;> first | (cases hs; done) | cases h2
  | _ => intro hs q' hq; first | (cases hq; done) | cases hs

/-- It is known that there is no semicolon after `e`. -/
def after (nz : Bool) : E → Bool
  | .pred _ | .act _ | .nt .r__error_ _ => nz
  | .npeek a => nz || semi a
  | _ => false

theorem after_sound {e : E} {p p' : Nat} {q q' : QState} {ts : List (Peg.Thunk Act)} {nz : Bool} (h : Sk w e p q (.ok p' ts q'))
    (hn : nz = true → w[p]? ≠ some 59) (ha : after nz e = true) : w[p']? ≠ some 59 := by
  cases h with
  | pred_ok => exact hn ha
  | act => exact hn ha
  | npeek_no h =>
    simp only [after, Bool.or_eq_true] at ha
    rcases ha with ha | ha
    · exact hn ha
    · exact semi_sound h ha _ rfl
  | @nt_ok r _ _ _ _ _ _ h =>
    cases r <;> first | (cases ha; done) | (cases h; exact hn ha)
  | _ => cases ha

/-- Matches nothing in texts without comments, back quotes and the option. -/
def never : E → Bool
  | .str l => l == [47, 47] || l == [47, 42]
  | .one m => m == .single 96
  | .nt .r_CYPHER _ => true
  | _ => false

/-- Matches no bytes. -/
def idle : E → Bool
  | .pred _ | .act _ => true
  | .seq a b => idle a && idle b
  | _ => false

theorem idle_sound {e : E} {p : Nat} {q : QState} {r : SkRes} (h : Sk w e p q r) : idle e = true → ∀ p' ts q', r = .ok p' ts q' → p' = p := by
  induction h with
  | pred_ok => rintro - _ _ _ ⟨⟩; rfl
  | act => rintro - _ _ _ ⟨⟩; rfl
  | seq_ok _ _ ih1 ih2 =>
    rintro hi _ _ _ ⟨⟩
    simp only [idle, Bool.and_eq_true] at hi
    rw [ih2 hi.2 _ _ _ rfl, ih1 hi.1 _ _ _ rfl]
  | _ => intro hi _ _ _ hr; first | (cases hi; done) | cases hr

/-- No byte that the scan takes notice of. -/
def dullSet (m : CharSet) : Bool := m.mask &&& (2 ^ 59 + 2 ^ 39 + 2 ^ 34 + 2 ^ 92) == 0

theorem dullSet_sound {m : CharSet} {c : UInt8} (h : dullSet m = true) (hc : m.mem c = true) : dull c = true := by
  simp only [dullSet, beq_iff_eq] at h
  have h1 : (m.mask &&& (2 ^ 59 + 2 ^ 39 + 2 ^ 34 + 2 ^ 92)).testBit c.toNat = false := by rw [h]; simp
  rw [Nat.testBit_and, show m.mask.testBit c.toNat = true from hc, Bool.true_and] at h1
  exact all_bytes (P := fun c => Nat.testBit (2 ^ 59 + 2 ^ 39 + 2 ^ 34 + 2 ^ 92) c.toNat = false → dull c = true)
    (by decide +kernel) c h1

inductive Sort' where
  /-- not followed -/
  | other
  /-- matches what the scan passes over -/
  | plain
  /-- the same, but it may end with a semicolon -/
  | final
  /-- skips text after an error -/
  | skips
  deriving DecidableEq

def sort : Rule → Sort'
  | .r_statement | .r__statement | .r___statement | .r_cypher_statement | .r_query | .r_clauses | .r__clauses | .r_schema_command
  | .r_SEMICOLON => .final
  | .r_skip_to_statement | .r_skip_to_clause => .skips
  | .r___entry_points | .r_directive | .r__directive | .r___directive | .r_client_command | .r_client_command_name | .r_client_command_arg | .r_client_arg_string | .r_skip_to_directive
  | .r_CYPHER | .r_cypher_param | .r_cypher_param_val | .r_single_quoted | .r_double_quoted | .r_escaped_char | .r_unquoted => .other
  | _ => .plain

/-- `lo`: there are no quotes; `nz`: there is no semicolon where `e` starts; `fin`: `e` may end with a semicolon. -/
def chk (lo : Bool) : Bool → Bool → E → Bool
  | nz, fin, .one m => never (.one m) || dullSet m || (fin && m == .single 59) || (lo && nz)
  | _, _, .str l => never (.str l) || l.all dull
  | nz, fin, .nt r v => never (.nt r v) || sort r == .plain || (fin && sort r == .final) || (nz && sort r == .skips)
  | nz, fin, .seq a b => never a || (chk lo nz false a && chk lo (after nz a) fin b) || (chk lo nz fin a && idle b)
  | nz, fin, .alt a b => chk lo nz fin a && chk lo (nz || semi a) fin b
  | _, _, .star a => chk lo false false a
  | nz, fin, .onfail a _ => chk lo nz fin a
  | _, _, _ => true

theorem plain_ok : ∀ r, sort r = .plain → r = .r_quoted ∨ chk false false false (grammar r).body = true := by
  intro r; cases r <;> first | (intro h; cases h; done) | (intro _; exact .inl rfl) | (intro _; right; decide +kernel)
theorem final_ok : ∀ r, sort r = .final → chk false false true (grammar r).body = true := by
  intro r; cases r <;> first | (intro h; cases h; done) | (intro _; decide +kernel)
theorem skips_ok : ∀ r, sort r = .skips → chk true true false (grammar r).body = true := by
  intro r; cases r <;> first | (intro h; cases h; done) | (intro _; decide +kernel)

/-- Nothing was skipped. -/
def NoSkip (ts : List (Peg.Thunk Act)) : Prop := ∀ p, .act (.build .self .skip []) p ∉ ts

theorem NoSkip.left {a b : List (Peg.Thunk Act)} (h : NoSkip (a ++ b)) : NoSkip a := fun p hm => h p (by simp [hm])
theorem NoSkip.right {a b : List (Peg.Thunk Act)} (h : NoSkip (a ++ b)) : NoSkip b := fun p hm => h p (by simp [hm])

theorem skips_skip {r : Rule} (hr : sort r = .skips) {p p' : Nat} {ts : List (Peg.Thunk Act)} (h : Mt w (grammar r).body p p' ts) :
    ¬ NoSkip ts := by
  have key : ∀ {a b c d : E}, Mt w (.seq a (.seq b (.seq c (.seq d (.act (.build .self .skip [])))))) p p' ts → ¬ NoSkip ts := by
    intro a b c d h
    obtain ⟨p1, us1, vs1, -, h1, rfl⟩ := h.seq
    obtain ⟨p2, us2, vs2, -, h2, rfl⟩ := h1.seq
    obtain ⟨p3, us3, vs3, -, h3, rfl⟩ := h2.seq
    obtain ⟨p4, us4, vs4, -, h4, rfl⟩ := h3.seq
    obtain ⟨rfl, rfl⟩ := h4.act
    intro hn
    exact hn p' (by simp)
  cases r <;> first | (cases hr; done) | exact key h

/-- What is found out about a match. -/
def Clear (w : List UInt8) (fin : Bool) (p p' : Nat) : Prop :=
  Plain w p p' ∨ (fin = true ∧ p < p' ∧ Plain w p (p' - 1) ∧ w[p' - 1]? = some 59)

theorem Clear.after {fin : Bool} {p p1 p' : Nat} (h1 : Plain w p p1) (h2 : Clear w fin p1 p') : Clear w fin p p' := by
  rcases h2 with h2 | ⟨h2, h3, h4, h5⟩
  · exact .inl (h1.trans h2)
  · exact .inr ⟨h2, by have := h1.1.1; omega, h1.trans h4, h5⟩
theorem Clear.pass {p p' : Nat} (h : Clear w false p p') : Plain w p p' := by
  rcases h with h | ⟨h, -⟩
  · exact h
  · cases h

theorem never_sound (hc : ¬ Commented w) (hq : 96 ∉ w) (ho : ¬ Mentions "CYPHER" w) {e : E} {p p' : Nat} {q q' : QState}
    {ts : List (Peg.Thunk Act)} (h : Sk w e p q (.ok p' ts q')) : never e = false := by
  cases hn : never e with
  | false => rfl
  | true =>
    exfalso
    cases h with
    | str_ok h =>
      simp only [never, Bool.or_eq_true, beq_iff_eq] at hn
      rcases hn with rfl | rfl
      · exact hc ⟨p, .inl h⟩
      · exact hc ⟨p, .inr h⟩
    | one_ok h1 h2 =>
      simp only [never, beq_iff_eq] at hn
      subst hn
      rw [single_mem] at h2
      simp only [decide_eq_true_eq] at h2
      subst h2
      exact hq (List.mem_of_getElem? h1)
    | @nt_ok r _ _ _ _ _ _ h =>
      cases r <;> first | (cases hn; done) | exact ho (no_option ⟨_, _, h⟩)
    | _ => cases hn

theorem chk_sound (hc : ¬ Commented w) (hq : 96 ∉ w) (ho : ¬ Mentions "CYPHER" w) {e : E} {p : Nat} {q : QState} {r : SkRes}
    (h : Sk w e p q r) : ∀ lo nz fin, chk lo nz fin e = true → (lo = true → Unquoted w) → (nz = true → w[p]? ≠ some 59) →
    ∀ p' ts q', r = .ok p' ts q' → Unquoted w ∨ NoSkip ts → Clear w fin p p' := by
  induction h with
  | eps => rintro lo nz fin - - - _ _ _ ⟨⟩ -; exact .inl .refl
  | @one_ok m p q c h1 h2 =>
    rintro lo nz fin hk hlo hnz _ _ _ ⟨⟩ -
    simp only [chk, never_sound hc hq ho (.one_ok h1 h2 : Sk w (.one m) p q _), Bool.false_or, Bool.or_eq_true, Bool.and_eq_true,
      beq_iff_eq] at hk
    rcases hk with (hk | ⟨rfl, rfl⟩) | ⟨rfl, rfl⟩
    · exact .inl (.byte hc h1 (dullSet_sound hk h2))
    · rw [single_mem] at h2
      simp only [decide_eq_true_eq] at h2
      subst h2
      exact .inr ⟨rfl, by omega, by rw [Nat.add_sub_cancel]; exact .refl, by rw [Nat.add_sub_cancel]; exact h1⟩
    · obtain ⟨g1, g2, g3⟩ := hlo rfl
      refine .inl (.byte hc h1 ?_)
      have hm := List.mem_of_getElem? h1
      simp only [dull, Bool.and_eq_true, bne_iff_ne, ne_eq]
      refine ⟨⟨⟨?_, ?_⟩, ?_⟩, ?_⟩
      · rintro rfl; exact hnz rfl h1
      · rintro rfl; exact g1 hm
      · rintro rfl; exact g2 hm
      · rintro rfl; exact g3 hm
  | @str_ok l p q h1 =>
    rintro lo nz fin hk - - _ _ _ ⟨⟩ -
    simp only [chk, never_sound hc hq ho (.str_ok h1 : Sk w (.str l) p q _), Bool.false_or] at hk
    exact .inl (.bytes hc h1 hk)
  | @nt_ok r v p q p' ts q' h ih =>
    rintro lo nz fin hk hlo hnz _ _ _ ⟨⟩ hn
    simp only [chk, never_sound hc hq ho (.nt_ok h : Sk w (.nt r v) p q _), Bool.false_or, Bool.or_eq_true, Bool.and_eq_true,
      beq_iff_eq] at hk
    have hn' : Unquoted w ∨ NoSkip ts := hn.imp_right fun h => h.right.right.left
    rcases hk with (hk | ⟨rfl, hk⟩) | ⟨rfl, hk⟩
    · rcases plain_ok r hk with rfl | hb
      · exact .inl (quoted_pass ⟨_, _, h⟩)
      · exact .inl (ih _ _ _ hb nofun nofun _ _ _ rfl hn').pass
    · exact ih _ _ _ (final_ok r hk) nofun nofun _ _ _ rfl hn'
    · rcases hn' with hu | hn'
      · exact .inl (ih _ _ _ (skips_ok r hk) (fun _ => hu) hnz _ _ _ rfl (.inl hu)).pass
      · exact absurd hn' (skips_skip hk ⟨_, _, h⟩)
  | @seq_ok a b p q p1 ts q1 p2 us q2 h1 h2 ih1 ih2 =>
    rintro lo nz fin hk hlo hnz _ _ _ ⟨⟩ hn
    simp only [chk, never_sound hc hq ho h1, Bool.false_or, Bool.or_eq_true, Bool.and_eq_true] at hk
    have n1 : Unquoted w ∨ NoSkip ts := hn.imp_right fun h => h.right
    have n2 : Unquoted w ∨ NoSkip us := hn.imp_right fun h => h.left
    rcases hk with ⟨k1, k2⟩ | ⟨k1, k2⟩
    · exact .after (ih1 _ _ _ k1 hlo hnz _ _ _ rfl n1).pass
        (ih2 _ _ _ k2 hlo (fun h => after_sound h1 hnz h) _ _ _ rfl n2)
    · rw [idle_sound h2 k2 _ _ _ rfl]
      exact ih1 _ _ _ k1 hlo hnz _ _ _ rfl n1
  | alt_ok _ ih =>
    intro lo nz fin hk
    simp only [chk, Bool.and_eq_true] at hk
    exact ih _ _ _ hk.1
  | alt_no h1 _ _ ih =>
    intro lo nz fin hk hlo hnz
    simp only [chk, Bool.and_eq_true] at hk
    refine ih _ _ _ hk.2 hlo fun h => ?_
    rcases Bool.or_eq_true _ _ ▸ h with h | h
    · exact hnz h
    · exact semi_sound h1 h _ rfl
  | star_more _ _ ih1 ih2 =>
    rintro lo nz fin hk hlo hnz _ _ _ ⟨⟩ hn
    have k : chk lo false false _ = true := hk
    refine .after (ih1 _ _ _ k hlo nofun _ _ _ rfl (hn.imp_right fun h => h.right)).pass
      (.inl (ih2 lo false false hk hlo nofun _ _ _ rfl (hn.imp_right fun h => h.left)).pass)
  | star_end => rintro lo nz fin - - - _ _ _ ⟨⟩ -; exact .inl .refl
  | peek_ok => rintro lo nz fin - - - _ _ _ ⟨⟩ -; exact .inl .refl
  | npeek_no => rintro lo nz fin - - - _ _ _ ⟨⟩ -; exact .inl .refl
  | pred_ok => rintro lo nz fin - - - _ _ _ ⟨⟩ -; exact .inl .refl
  | act => rintro lo nz fin - - - _ _ _ ⟨⟩ -; exact .inl .refl
  | onfail_ok _ ih => intro lo nz fin hk; exact ih _ _ _ hk
  | one_no => rintro lo nz fin - - - _ _ _ ⟨⟩
  | str_no => rintro lo nz fin - - - _ _ _ ⟨⟩
  | nt_no => rintro lo nz fin - - - _ _ _ ⟨⟩
  | seq_no => rintro lo nz fin - - - _ _ _ ⟨⟩
  | seq_no2 => rintro lo nz fin - - - _ _ _ ⟨⟩
  | peek_no => rintro lo nz fin - - - _ _ _ ⟨⟩
  | npeek_ok => rintro lo nz fin - - - _ _ _ ⟨⟩
  | pred_no => rintro lo nz fin - - - _ _ _ ⟨⟩
  | onfail_no => rintro lo nz fin - - - _ _ _ ⟨⟩

end Verif.Cypher.Scan
