import Verif.Cypher.LeafRules
import Mathlib.Data.List.Forall2
/-!
# Texts of leaves: all rules

Every rule keeps the blocks that were open when it was entered, and makes only leaves whose text is
right. The rules that use the string buffer are treated in `LeafRules`; of the others an analysis of the
grammar shows it, tracking of which open blocks the range starts where the text does (not so after
`block_replace`).
-/
namespace Verif.Cypher
open Verif.Peg Verif.Text

/-! ## The analysis -/

/-- The blocks opened in this rule, and the block closed last: does the range start where the text
does? -/
abbrev Flags := List Bool × Bool

def predF : Pred → Flags → Option Flags
  | .blockStart, x => some (true :: x.1, true)
  | .blockEnd, x | .blockMerge, x => match x.1 with
    | [] => none
    | c :: l => some (l, c)
  | .blockReplace, x => match x.1 with
    | [] => none
    | c :: l => some (false :: l, c)
  | _, x => some x

def actF : Act → Flags → Option Flags
  | .blockStart, _ | .blockEnd, _ | .blockReplace, _ | .blockMerge, _ => none
  | .build _ c _, x => match c.terminal with
    | none | some .plain => some (x.1, true)
    | some .block => if x.2 && (c = .blockString || c = .skip) then some (x.1, true) else none
    | _ => none
  | .aliasUnless _ _, x => if x.2 then some (x.1, true) else none
  | _, x => some x

/-- The rules treated elsewhere. -/
def leafRules : List Rule := .r_line_comment :: .r_block_comment :: namers

def joinF (x y : Flags) : Option Flags :=
  if x.1.length = y.1.length then some (List.zipWith and x.1 y.1, x.2 && y.2) else none

def ntF (r : Rule) (x : Flags) : Option Flags :=
  match r with
  | .r__block_start_ => predF .blockStart x
  | .r__block_end_ => predF .blockEnd x
  | .r__block_replace_ => predF .blockReplace x
  | .r__block_merge_ => predF .blockMerge x
  | _ => some (x.1, false)

def clearF (x : Flags) : Flags := (x.1.map fun _ => false, false)

def flags : E → Flags → Option Flags
  | .eps, x | .one _, x | .str _, x | .peek _, x | .npeek _, x => some x
  | .nt r _, x => ntF r x
  | .seq a b, x => (flags a x).bind (flags b)
  | .alt a b, x => (flags a x).bind fun y => (flags b x).bind fun z => joinF y z
  | .star a, x => match flags a (x.1, false) with
    | none => none
    | some y => if y.1 = x.1 then some (x.1, false)
      else match flags a (clearF x) with
        | none => none
        | some z => if z.1 = (clearF x).1 then some (clearF x) else none
  | .pred q, x => predF q x
  | .act a, x => actF a x
  | .onfail a _, x => flags a x

/-- The rules that are nothing but a block directive. -/
def blockRules : List Rule := [.r__block_start_, .r__block_end_, .r__block_replace_, .r__block_merge_]

def flagsOk (r : Rule) : Bool :=
  leafRules.contains r || blockRules.contains r ||
    match flags (grammar r).body ([], false) with
    | some ([], _) => true
    | _ => false

theorem flags_ok : ∀ r : Rule, flagsOk r = true := by
  have : ∀ r ∈ Rule.all, flagsOk r = true := by decide +kernel
  exact fun r => this r (Rule.mem_all r)

/-! ## What it means -/

section
variable {env : Env} {w : List UInt8}

/-- The range of an open block starts where its text does. -/
def Neat (env : Env) (c : Bool) (x : Nat × Pos) : Prop := c = true → Located env x.2 x.1

/-- The range of a closed block is that of its text. -/
def Whole (env : Env) (c : Bool) (m : Mach) : Prop :=
  c = true → ∀ b, m.prev = some b → Located env b.rstart b.start ∧ Located env b.rstop b.stop

structure Sat (env : Env) (w : List UInt8) (base : List (Nat × Pos)) (x : Flags) (m : Mach) : Prop where
  leafy : Leafy (LeafAt env w) m
  heads : ∃ xs, heads m.blocks = xs ++ base ∧ List.Forall₂ (Neat env) x.1 xs
  whole : Whole env x.2 m

theorem Sat.weaken {base : List (Nat × Pos)} {l l' : List Bool} {c c' : Bool} {m : Mach}
    (h : Sat env w base (l, c) m) (hl : List.Forall₂ (fun a b => b = true → a = true) l l')
    (hc : c' = true → c = true) : Sat env w base (l', c') m := by
  obtain ⟨h1, ⟨xs, h2, h3⟩, h4⟩ := h
  refine ⟨h1, ⟨xs, h2, ?_⟩, fun h => h4 (hc h)⟩
  clear h2 h4
  simp only at h3 ⊢
  induction hl generalizing xs with
  | nil => exact h3
  | cons a _ ih =>
    cases h3 with
    | cons g1 g2 => exact .cons (fun e => g1 (a e)) (ih _ g2)

theorem Sat.clear {base : List (Nat × Pos)} {x : Flags} {m : Mach}
    (h : Sat env w base x m) : Sat env w base (clearF x) m := by
  refine Sat.weaken (l := x.1) (c := x.2) h ?_ (by simp)
  generalize x.1 = l
  induction l with
  | nil => exact .nil
  | cons a l ih => exact .cons (by simp) ih

theorem Sat.unprev {base : List (Nat × Pos)} {x : Flags} {m : Mach}
    (h : Sat env w base x m) : Sat env w base (x.1, false) m :=
  ⟨h.leafy, h.heads, fun e => by cases e⟩

theorem zip_left : ∀ {l l' : List Bool}, l.length = l'.length →
    List.Forall₂ (fun a b => b = true → a = true) l (List.zipWith and l l')
  | [], [], _ => .nil
  | a :: l, b :: l', h => .cons (by cases a <;> simp) (zip_left (by simpa using h))

theorem zip_right : ∀ {l l' : List Bool}, l.length = l'.length →
    List.Forall₂ (fun a b => b = true → a = true) l' (List.zipWith and l l')
  | [], [], _ => .nil
  | a :: l, b :: l', h => .cons (by cases a <;> simp) (zip_right (by simpa using h))

theorem Sat.join_left {base : List (Nat × Pos)} {x y z : Flags} {m : Mach}
    (h : Sat env w base x m) (hj : joinF x y = some z) : Sat env w base z m := by
  unfold joinF at hj
  split at hj
  · rename_i hl
    cases hj
    exact Sat.weaken (l := x.1) (c := x.2) h (zip_left hl) (by simp +contextual)
  · cases hj

theorem Sat.join_right {base : List (Nat × Pos)} {x y z : Flags} {m : Mach}
    (h : Sat env w base y m) (hj : joinF x y = some z) : Sat env w base z m := by
  unfold joinF at hj
  split at hj
  · rename_i hl
    cases hj
    exact Sat.weaken (l := y.1) (c := y.2) h (zip_right hl) (by simp +contextual)
  · cases hj

theorem Sat.same {base : List (Nat × Pos)} {x : Flags} {m m' : Mach} (h : Sat env w base x m)
    (hb : m'.blocks = m.blocks) (hp : m'.prev = m.prev) : Sat env w base x m' :=
  ⟨h.leafy.same hb hp, by rw [hb]; exact h.heads, fun e b hb => h.whole e b (hp ▸ hb)⟩

theorem Sat.kept {base : List (Nat × Pos)} {x : Flags} {m m' : Mach} (h : Sat env w base x m)
    (hk : Kept (LeafAt env w) m m') (hp : m'.prev = none) (c : Bool) : Sat env w base (x.1, c) m' := by
  refine ⟨hk.leafy, by rw [hk.heads]; exact h.heads, fun _ b hb => ?_⟩
  rw [hp] at hb; cases hb

/-! ## Blocks -/

theorem heads_cons {b : Block} {bs : List Block} : heads (b :: bs) = (b.start, b.rstart) :: heads bs := rfl

theorem predF_sat {base : List (Nat × Pos)} {x y : Flags} {q : Pred} {p : Nat} {m m' : Mach}
    (h : Sat env w base x m) (hq : predF q x = some y) (he : Mach.exec env (recT q p) m = .ok m') :
    Sat env w base y m' := by
  obtain ⟨l, c⟩ := x
  have pop : ∀ {a : Block} {as : List Block} {d : Bool} {l' : List Bool},
      Mach.blockPop env p m = .ok (a, as) → l = d :: l' → ∃ b b' bs x, m.blocks = b :: b' :: bs ∧
        Located env x p ∧ a = { b with stop := p, rstop := x } ∧ as = b' :: bs ∧
        ∃ xs, heads as = xs ++ base ∧ List.Forall₂ (Neat env) l' xs ∧ Neat env d (b.start, b.rstart) := by
    intro a as d l' hp hl
    obtain ⟨b, b', bs, x, e1, e2, e3, e4, -⟩ := blockPop_inv hp
    refine ⟨b, b', bs, x, e1, e2, e3, e4, ?_⟩
    obtain ⟨xs, g1, g2⟩ := h.heads
    subst hl
    cases g2 with
    | cons f1 f2 =>
      rw [e1, heads_cons, List.cons_append, List.cons.injEq] at g1
      obtain ⟨rfl, g1⟩ := g1
      rw [e4]
      exact ⟨_, g1, f2, f1⟩
  cases q <;> simp only [predF, recT] at hq he
  case blockStart =>
    cases hq
    have he := exec_one he
    obtain ⟨z, hz, rfl⟩ := blockStart_inv he
    obtain ⟨xs, g1, g2⟩ := h.heads
    refine ⟨⟨?_, by simp⟩, ⟨(p, z) :: xs, by simp only [heads_cons, g1, List.cons_append], .cons (fun _ => hz) g2⟩,
      fun _ b hb => by cases hb⟩
    intro b hb
    rcases List.mem_cons.1 hb with rfl | hb
    · intro n hn; cases hn
    · exact h.leafy.blocks b hb
  case blockEnd =>
    cases l with
    | nil => cases hq
    | cons d l' =>
      cases hq
      have he := exec_one he
      simp only [Mach.step, Mach.act, Mach.blockEnd] at he
      obtain ⟨⟨a, as⟩, hp, he⟩ := bind_ok he
      cases he
      obtain ⟨b, b', bs, z, e1, e2, rfl, rfl, xs, g1, g2, g3⟩ := pop hp rfl
      refine ⟨⟨fun x hx => h.leafy.blocks x (by rw [e1]; exact List.mem_cons_of_mem _ hx), ?_⟩,
        ⟨xs, g1, g2⟩, ?_⟩
      · rintro x ⟨⟩ n hn
        exact h.leafy.blocks b (by rw [e1]; simp) n hn
      · rintro hd x ⟨⟩
        exact ⟨g3 hd, e2⟩
  case blockMerge =>
    cases l with
    | nil => cases hq
    | cons d l' =>
      cases hq
      have he := exec_one he
      simp only [Mach.step, Mach.act, Mach.blockMerge] at he
      obtain ⟨⟨a, as⟩, hp, he⟩ := bind_ok he
      obtain ⟨b, b', bs, z, e1, e2, rfl, rfl, xs, g1, g2, g3⟩ := pop hp rfl
      simp only at he
      split at he
      · cases he
        refine ⟨⟨fun x hx => h.leafy.blocks x (by rw [e1]; exact List.mem_cons_of_mem _ hx), ?_⟩,
          ⟨xs, g1, g2⟩, ?_⟩
        · rintro x ⟨⟩ n hn
          exact h.leafy.blocks b (by rw [e1]; simp) n hn
        · rintro hd x ⟨⟩
          exact ⟨g3 hd, e2⟩
      · cases he
        refine ⟨⟨fun x hx => ?_, ?_⟩, ⟨xs, g1, g2⟩, ?_⟩
        · rcases List.mem_cons.1 hx with rfl | hx
          · intro n hn
            rcases List.mem_append.1 hn with hn | hn
            · exact h.leafy.blocks b' (by rw [e1]; simp) n hn
            · exact h.leafy.blocks b (by rw [e1]; simp) n hn
          · exact h.leafy.blocks x (by rw [e1]; simp [hx])
        · rintro x ⟨⟩ n hn
          cases hn
        · rintro hd x ⟨⟩
          exact ⟨g3 hd, e2⟩
  case blockReplace =>
    cases l with
    | nil => cases hq
    | cons d l' =>
      cases hq
      have he := exec_one he
      simp only [Mach.step, Mach.act, Mach.blockReplace] at he
      obtain ⟨⟨a, as⟩, hp, he⟩ := bind_ok he
      cases he
      obtain ⟨b, b', bs, z, e1, e2, rfl, rfl, xs, g1, g2, g3⟩ := pop hp rfl
      refine ⟨⟨fun x hx => ?_, ?_⟩, ⟨(p, b.rstart) :: xs, by rw [heads_cons, g1]; rfl, .cons (fun e => by cases e) g2⟩, ?_⟩
      · rcases List.mem_cons.1 hx with rfl | hx
        · intro n hn; cases hn
        · exact h.leafy.blocks x (by rw [e1]; exact List.mem_cons_of_mem _ hx)
      · rintro x ⟨⟩ n hn
        exact h.leafy.blocks b (by rw [e1]; simp) n hn
      · rintro hd x ⟨⟩
        exact ⟨g3 hd, e2⟩
  all_goals (cases hq; cases he; exact h)

/-! ## Actions -/

theorem text_trimmed (s : List UInt8) : Trimmed s (Mach.trim s) := by
  have hsp : ∀ c, Mach.isSpace c = true ↔ Space c := by
    intro c
    simp only [Mach.isSpace, Space, Bool.or_eq_true, decide_eq_true_eq, beq_iff_eq]
    exact or_comm
  have hd : ∀ (l : List UInt8) c, (l.dropWhile Mach.isSpace).head? = some c → ¬ Space c := by
    intro l c h
    induction l with
    | nil => cases h
    | cons a l ih =>
      rw [List.dropWhile_cons] at h
      split at h
      · exact ih h
      · rename_i ha
        cases h
        rw [← hsp]; exact ha
  have ht : ∀ (l : List UInt8), ∀ c ∈ l.takeWhile Mach.isSpace, Space c := by
    intro l c h
    rw [← hsp]
    induction l with
    | nil => cases h
    | cons a l ih =>
      rw [List.takeWhile_cons] at h
      split at h
      · rename_i ha
        rcases List.mem_cons.1 h with rfl | h
        · exact ha
        · exact ih h
      · cases h
  unfold Mach.trim
  generalize hu : s.dropWhile Mach.isSpace = u
  refine ⟨s.takeWhile Mach.isSpace, (u.reverse.takeWhile Mach.isSpace).reverse, ?_, ht _, ?_, ?_, ?_⟩
  · have h1 := List.takeWhile_append_dropWhile (p := Mach.isSpace) (l := s)
    have h2 := List.takeWhile_append_dropWhile (p := Mach.isSpace) (l := u.reverse)
    rw [← List.reverse_append, h2, List.reverse_reverse, ← hu, h1]
  · intro c hc
    exact ht _ c (List.mem_reverse.1 hc)
  · intro c hc
    rw [List.head?_reverse] at hc
    have h2 := List.takeWhile_append_dropWhile (p := Mach.isSpace) (l := u.reverse)
    have : u.reverse.getLast? = some c := by
      rw [← h2, List.getLast?_append, hc]; rfl
    rw [List.getLast?_reverse, ← hu] at this
    exact hd _ _ this
  · intro c hc
    rw [List.getLast?_reverse] at hc
    exact hd _ _ hc

theorem Kept.from {L : Node → Prop} {m0 m m' : Mach} (h : Kept L m0 m') (hb : m0.blocks = m.blocks) :
    Kept L m m' := ⟨h.leafy, h.heads.trans (by rw [hb])⟩

/-- A builder of a node without text. -/
theorem build_bare {c : Ctor} (hc : c.terminal = none ∨ c.terminal = some .plain)
    {args : List (Option Ref)} {m : Mach} {x : Mach × Ref} (hl : Leafy (LeafAt env w) m)
    (h : Mach.build env c args m = .ok x) : Kept (LeafAt env w) m x.1 ∧ x.1.prev = none := by
  obtain ⟨-, -, -, -, -, -, -, -, -, -, hp, -⟩ := build_inv h
  refine ⟨?_, hp⟩
  unfold Mach.build at h
  rcases hc with hc | hc
  · rw [hc] at h
    simp only at h
    unfold Mach.branch at h
    split at h
    · cases h
    · rename_i q hq
      obtain ⟨os, -, h⟩ := bind_ok h
      simp only at h
      split at h
      · cases h
      · split at h
        · cases h
        · cases h
        · obtain ⟨m1, h1, h⟩ := bind_ok h
          cases h
          refine (Leafy.add (m := { m with prev := none, ops := os.2 }) ⟨hl.blocks, fun b hb => by cases hb⟩
            (.mk ?_ ?_) h1).from rfl
          · simp only [LeafAt, Node.ctor, hc]; rfl
          · exact hl.prev q hq
  · rw [hc] at h
    obtain ⟨b, t, hb, ht, ha⟩ := terminal_inv h
    simp only [Mach.terminalText] at ht
    cases ht
    refine (Leafy.add (L := LeafAt env w) (m := { m with prev := none }) ⟨hl.blocks, fun b hb => by cases hb⟩
      (.mk ?_ (fun c hc => by cases hc)) ha).from rfl
    simp only [LeafAt, Node.ctor, hc]; rfl

/-- A builder of a node with the text of the closed block. -/
theorem build_text (hf : Reads env w) {c : Ctor} {k : Terminal} (hk : c.terminal = some k)
    (hkk : k = .block ∨ k = .trimmed)
    (hc : ∀ s t, (k = .block → t = s) → (k = .trimmed → Trimmed s t) → Leaf c s t)
    {args : List (Option Ref)} {m : Mach} {x : Mach × Ref} (hl : Leafy (LeafAt env w) m)
    (hw : Whole env true m) (h : Mach.build env c args m = .ok x) :
    Kept (LeafAt env w) m x.1 ∧ x.1.prev = none := by
  obtain ⟨-, -, -, -, -, -, -, -, -, -, hp, -⟩ := build_inv h
  refine ⟨?_, hp⟩
  unfold Mach.build at h
  rw [hk] at h
  obtain ⟨b, t, hb, ht, ha⟩ := terminal_inv h
  obtain ⟨g1, g2⟩ := hw rfl b hb
  refine (Leafy.add (L := LeafAt env w) (m := { m with prev := none }) ⟨hl.blocks, fun b hb => by cases hb⟩
    (.mk ?_ (fun c hc => by cases hc)) ha).from rfl
  have hcl : Closed env b.start b.stop b := ⟨rfl, rfl, g1, g2⟩
  have key : Leaf c (w.extract b.start b.stop) t := by
    rcases hkk with rfl | rfl
    · obtain ⟨-, -, rfl⟩ := blockText_inv hf hcl ht
      exact hc _ _ (fun _ => rfl) (fun e => by cases e)
    · simp only [Mach.terminalText] at ht
      split at ht
      · rename_i u hu
        cases ht
        obtain ⟨-, -, rfl⟩ := blockText_inv hf hcl hu
        exact hc _ _ (fun e => by cases e) (fun _ => text_trimmed _)
      · cases ht
  rcases hkk with rfl | rfl <;>
    (simp only [LeafAt, Node.ctor, hk]; exact ⟨_, _, g1, g2, key⟩)

theorem actF_sat (hf : Reads env w) {base : List (Nat × Pos)} {x y : Flags} {a : Act} {p : Nat} {m m' : Mach}
    (h : Sat env w base x m) (ha : actF a x = some y) (he : Mach.act env a p m = .ok m') :
    Sat env w base y m' := by
  cases a with
  | blockStart => cases ha
  | blockEnd => cases ha
  | blockReplace => cases ha
  | blockMerge => cases ha
  | eof => cases ha; cases he; exact h.same rfl rfl
  | result v => cases ha; obtain ⟨r, rfl, -⟩ := result_inv he; exact h.same rfl rfl
  | finished => cases ha; obtain ⟨es, -, rfl⟩ := finished_inv he; exact h.same rfl rfl
  | seqAdd vs =>
    cases ha
    obtain ⟨g1, -, g3⟩ := seqAdds_blocks he
    rcases g3 with g3 | ⟨b, bs, s, g3, g4⟩
    · exact h.same g3 g1
    · refine ⟨⟨fun c hc => ?_, by rw [g1]; exact h.leafy.prev⟩, ?_, fun e b hb => h.whole e b (g1 ▸ hb)⟩
      · rw [g4] at hc
        rcases List.mem_cons.1 hc with rfl | hc
        · exact h.leafy.blocks b (by rw [g3]; simp)
        · exact h.leafy.blocks c (by rw [g3]; exact List.mem_cons_of_mem _ hc)
      · rw [g4, heads_cons]
        have := h.heads
        rw [g3, heads_cons] at this
        exact this
  | copy i =>
    cases ha
    simp only [Mach.act] at he
    obtain ⟨v, -, he⟩ := bind_ok he
    cases he; exact h.same rfl rfl
  | null => cases ha; cases he; exact h.same rfl rfl
  | build d c args =>
    simp only [Mach.act] at he
    obtain ⟨vs, -, he⟩ := bind_ok he
    obtain ⟨x', h1, he⟩ := bind_ok he
    have hb := assign_blocks he
    simp only [actF] at ha
    split at ha
    · rename_i hc
      cases ha
      obtain ⟨g1, g2⟩ := build_bare (.inl hc) h.leafy h1
      exact (h.kept g1 g2 true).same hb.1 hb.2.1
    · rename_i hc
      cases ha
      obtain ⟨g1, g2⟩ := build_bare (.inr hc) h.leafy h1
      exact (h.kept g1 g2 true).same hb.1 hb.2.1
    · rename_i hc
      split at ha
      · rename_i hx
        cases ha
        simp only [Bool.and_eq_true, Bool.or_eq_true, decide_eq_true_eq] at hx
        obtain ⟨g1, g2⟩ := build_text hf hc (.inl rfl) (fun s t e _ => by
          have := e rfl
          subst this
          rcases hx.2 with rfl | rfl <;> rfl) h.leafy (hx.1 ▸ h.whole) h1
        exact (h.kept g1 g2 true).same hb.1 hb.2.1
      · cases ha
    · cases ha
  | aliasUnless e i =>
    simp only [actF] at ha
    split at ha
    · rename_i hx
      cases ha
      have hw : Whole env true m := hx ▸ h.whole
      have key : ∀ x', Mach.build env .blockIdentifier [] m = .ok x' → ∀ m', x'.1.setVar i (some x'.2) = .ok m' →
          Sat env w base (x.1, true) m' := by
        intro x' h1 m' h2
        have hb := setVar_blocks h2
        obtain ⟨g1, g2⟩ := build_text hf (c := .blockIdentifier) (k := .trimmed) rfl (.inr rfl)
          (fun s t _ e => e rfl) h.leafy hw h1
        exact (h.kept g1 g2 true).same hb.1 hb.2.1
      simp only [Mach.act] at he
      obtain ⟨v, -, he⟩ := bind_ok he
      split at he
      · split at he
        · cases he
          exact ⟨h.leafy, h.heads, hw⟩
        · obtain ⟨x', h1, he⟩ := bind_ok he
          exact key x' h1 _ he
      · obtain ⟨x', h1, he⟩ := bind_ok he
        exact key x' h1 _ he
    · cases ha
  | sbReset => cases ha; cases he; exact h.same rfl rfl
  | sbAppend c => cases ha; cases he; exact h.same rfl rfl
  | sbAppendBlock =>
    cases ha
    simp only [Mach.act] at he
    split at he
    · cases he
    · obtain ⟨t, -, he⟩ := bind_ok he
      cases he; exact h.same rfl rfl
  | opPush o => cases ha; cases he; exact h.same rfl rfl

/-! ## All rules -/

theorem Calm.same {ts : List (Peg.Thunk Act)} (h : ∀ m m', Mach.exec env ts m = .ok m' →
    m'.blocks = m.blocks ∧ m'.prev = m.prev) : Calm env (LeafAt env w) ts := by
  intro m m' he hl
  obtain ⟨h1, h2⟩ := h m m' he
  exact ⟨hl.same h1 h2, by rw [h1]⟩

theorem enter_calm (n : Nat) : Calm env (LeafAt env w) (enterT n) := by
  refine Calm.same fun m m' h => ?_
  unfold enterT at h
  split at h
  · cases h; exact ⟨rfl, rfl⟩
  · have := exec_one h; cases this; exact ⟨rfl, rfl⟩

theorem leave_calm (n : Nat) : Calm env (LeafAt env w) (leaveT n) := by
  refine Calm.same fun m m' h => ?_
  unfold leaveT at h
  split at h
  · cases h; exact ⟨rfl, rfl⟩
  · have := exec_one h
    simp only [Mach.step] at this
    split at this
    · cases this
    · cases this; exact ⟨rfl, rfl⟩

theorem set_calm (v : Option Nat) : Calm env (LeafAt env w) (setT v) := by
  refine Calm.same fun m m' h => ?_
  unfold setT at h
  cases v with
  | none => cases h; exact ⟨rfl, rfl⟩
  | some i =>
    have := setVar_blocks (exec_one h)
    exact ⟨this.1, this.2.1⟩

theorem leafRules_calm (hf : Reads env w) {r : Rule} (hr : r ∈ leafRules) {p p' : Nat}
    {ts : List (Peg.Thunk Act)} (h : Mt w (.nt r none) p p' ts) : Calm env (LeafAt env w) ts := by
  rcases List.mem_cons.1 hr with rfl | hr
  · exact (line_comment_inv hf h).1.calm
  rcases List.mem_cons.1 hr with rfl | hr
  · exact (block_comment_inv hf h).1.calm
  · exact namers_calm hf hr h

theorem blockRules_body {r : Rule} (hr : r ∈ blockRules) : ∃ q, grammar r = ⟨0, .pred q⟩ ∧
    ∀ x, ntF r x = predF q x := by
  simp only [blockRules, List.mem_cons, List.not_mem_nil, or_false] at hr
  rcases hr with rfl | rfl | rfl | rfl
  · exact ⟨.blockStart, rfl, fun _ => rfl⟩
  · exact ⟨.blockEnd, rfl, fun _ => rfl⟩
  · exact ⟨.blockReplace, rfl, fun _ => rfl⟩
  · exact ⟨.blockMerge, rfl, fun _ => rfl⟩

theorem ntF_other {r : Rule} (hr : r ∉ blockRules) (x : Flags) : ntF r x = some (x.1, false) := by
  unfold ntF
  split <;> first | rfl | exact (hr (by decide)).elim

theorem flags_sat (hf : Reads env w) {e : E} {p : Nat} {q : QState} {res : SkRes} (h : Sk w e p q res) :
    ∀ {p' ts q'}, res = .ok p' ts q' → ∀ {x y : Flags}, flags e x = some y → ∀ {base m m'},
      Sat env w base x m → Mach.exec env ts m = .ok m' → Sat env w base y m' := by
  induction h with
  | eps => rintro _ _ _ ⟨⟩ x y ⟨⟩ base m m' hs ⟨⟩; exact hs
  | one_ok => rintro _ _ _ ⟨⟩ x y ⟨⟩ base m m' hs ⟨⟩; exact hs
  | one_no => rintro _ _ _ ⟨⟩
  | str_ok => rintro _ _ _ ⟨⟩ x y ⟨⟩ base m m' hs ⟨⟩; exact hs
  | str_no => rintro _ _ _ ⟨⟩
  | @nt_ok r v p q p' us q' h ih =>
    rintro _ _ _ ⟨⟩ x y hx base m m' hs he
    simp only [flags] at hx
    by_cases hb : r ∈ blockRules
    · obtain ⟨z, e1, e2⟩ := blockRules_body hb
      rw [e2] at hx
      obtain ⟨m1, he, h1⟩ := exec_app he
      rw [e1] at he h ih
      simp only [leaveT, enterT, if_true, List.nil_append, List.append_nil] at he
      have hs1 : Sat env w base y m1 := ih rfl hx hs he
      obtain ⟨i, c⟩ := y
      unfold setT at h1
      cases v with
      | none => cases h1; exact hs1
      | some i =>
        have := setVar_blocks (exec_one h1)
        exact hs1.same this.1 this.2.1
    · rw [ntF_other hb] at hx
      cases hx
      have hbody : Kept (LeafAt env w) m m' := by
        by_cases hl : r ∈ leafRules
        · obtain ⟨m1, he, h1⟩ := exec_app he
          have hm : Mt w (.nt r none) p p' (leaveT (grammar r).nvars ++ (us ++ enterT (grammar r).nvars)) :=
            ⟨q, q', .nt_ok (v := none) h⟩
          have k1 := leafRules_calm hf hl hm _ _ he hs.leafy
          exact k1.trans (set_calm v _ _ h1 k1.leafy)
        · obtain ⟨m1, he, h1⟩ := exec_app he
          obtain ⟨m2, he, h2⟩ := exec_app he
          obtain ⟨m3, he, h3⟩ := exec_app he
          have k3 := enter_calm _ _ _ he hs.leafy
          have hok := flags_ok r
          simp only [flagsOk, Bool.or_eq_true, List.contains_iff_mem] at hok
          rcases hok with (hok | hok) | hok
          · exact (hl hok).elim
          · exact (hb hok).elim
          split at hok
          · rename_i c hc
            have hs2 := ih rfl hc (base := heads m3.blocks)
              ⟨k3.leafy, ⟨[], rfl, .nil⟩, fun e => by cases e⟩ h3
            have k2 : Kept (LeafAt env w) m3 m2 := by
              obtain ⟨xs, g1, g2⟩ := hs2.heads
              cases g2
              exact ⟨hs2.leafy, g1⟩
            have k2 := k3.trans k2
            have k1 := k2.trans (leave_calm _ _ _ h2 k2.leafy)
            exact k1.trans (set_calm v _ _ h1 k1.leafy)
          · cases hok
      refine ⟨hbody.leafy, by rw [hbody.heads]; exact hs.heads, fun e => by cases e⟩
  | nt_no => rintro _ _ _ ⟨⟩
  | seq_ok h1 h2 ih1 ih2 =>
    rintro _ _ _ ⟨⟩ x y hx base m m' hs he
    simp only [flags] at hx
    obtain ⟨z, hz, hx⟩ := Option.bind_eq_some_iff.1 hx
    obtain ⟨m1, e1, e2⟩ := exec_app he
    exact ih2 rfl hx (ih1 rfl hz hs e1) e2
  | seq_no => rintro _ _ _ ⟨⟩
  | seq_no2 => rintro _ _ _ ⟨⟩
  | alt_ok h ih =>
    rintro _ _ _ ⟨⟩ x y hx base m m' hs he
    simp only [flags] at hx
    obtain ⟨z, hz, hx⟩ := Option.bind_eq_some_iff.1 hx
    obtain ⟨z', hz', hx⟩ := Option.bind_eq_some_iff.1 hx
    exact (ih rfl hz hs he).join_left hx
  | alt_no h1 h2 ih1 ih2 =>
    rintro _ _ _ rfl x y hx base m m' hs he
    simp only [flags] at hx
    obtain ⟨z, hz, hx⟩ := Option.bind_eq_some_iff.1 hx
    obtain ⟨z', hz', hx⟩ := Option.bind_eq_some_iff.1 hx
    exact (ih2 rfl hz' hs he).join_right hx
  | @star_more a p q p1 ts q1 p2 us q2 h1 h2 ih1 ih2 =>
    rintro _ _ _ ⟨⟩ x y hx base m m' hs he
    obtain ⟨m1, e1, e2⟩ := exec_app he
    have hx0 := hx
    simp only [flags] at hx
    split at hx
    · cases hx
    · rename_i z hz
      split at hx
      · rename_i hzx
        cases hx
        have := (ih1 rfl hz hs.unprev e1).unprev
        rw [hzx] at this
        refine ih2 rfl (x := (x.1, false)) ?_ this e2
        simp only [flags, hz, if_pos hzx]
      · split at hx
        · cases hx
        · rename_i z' hz'
          split at hx
          · rename_i hzx'
            cases hx
            have := (ih1 rfl hz' hs.clear e1).unprev
            rw [hzx'] at this
            refine ih2 rfl (x := clearF x) ?_ this e2
            have e : ((clearF x).1, false) = clearF x := rfl
            simp only [flags, e, hz', if_pos hzx']
          · cases hx
  | star_end h ih =>
    rintro _ _ _ ⟨⟩ x y hx base m m' hs ⟨⟩
    simp only [flags] at hx
    split at hx
    · cases hx
    · split at hx
      · cases hx; exact hs.unprev
      · split at hx
        · cases hx
        · split at hx
          · cases hx; exact hs.clear
          · cases hx
  | peek_ok => rintro _ _ _ ⟨⟩ x y ⟨⟩ base m m' hs ⟨⟩; exact hs
  | peek_no => rintro _ _ _ ⟨⟩
  | npeek_ok => rintro _ _ _ ⟨⟩
  | npeek_no => rintro _ _ _ ⟨⟩ x y ⟨⟩ base m m' hs ⟨⟩; exact hs
  | pred_ok => rintro _ _ _ ⟨⟩ x y hx base m m' hs he; exact predF_sat hs hx he
  | pred_no => rintro _ _ _ ⟨⟩
  | act => rintro _ _ _ ⟨⟩ x y hx base m m' hs he; exact actF_sat hf hs hx (exec_one he)
  | onfail_ok h ih =>
    rintro _ _ _ ⟨⟩ x y hx base m m' hs he
    exact ih rfl hx hs he
  | onfail_no => rintro _ _ _ ⟨⟩

/-- Every rule makes only leaves whose text is right. -/
theorem rule_calm (hf : Reads env w) {r : Rule} (hr : r ∉ blockRules) {v : Option Nat} {p p' : Nat} {q q' : QState}
    {ts : List (Peg.Thunk Act)} (h : Sk w (.nt r v) p q (.ok p' ts q')) : Calm env (LeafAt env w) ts := by
  intro m m' he hl
  have hs := flags_sat hf h rfl (x := ([], false)) (y := ([], false)) (ntF_other hr _) (base := heads m.blocks)
    ⟨hl, ⟨[], rfl, .nil⟩, fun e => by cases e⟩ he
  obtain ⟨xs, g1, g2⟩ := hs.heads
  cases g2
  exact ⟨hs.leafy, g1⟩

end
end Verif.Cypher
