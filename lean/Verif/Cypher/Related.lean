import Verif.Cypher.Parser
import Verif.Props.Errors
import Mathlib.Data.List.Forall2
/-!
# Two runs of the actions side by side

Runs on texts that agree up to a relation on bytes, starting at different positions, build trees
that agree up to these differences. Used for independence of chunking, of the initial position, and
of letter case.
-/
namespace Verif.Cypher
open Verif.Peg List

/-- `d` lines further, `c` columns further (or, on a later line, in column `c`), `n` bytes further. -/
def _root_.Verif.Pos.move (p : Pos) (d c n : Nat) : Pos :=
  ⟨p.line + d, if d = 0 then p.column + c else c, p.offset + n⟩

/-- How two runs differ: where they start, how bytes correspond, how contexts of errors do, how
messages do, and with which colors these are written. -/
structure Link where
  P₁ : Pos
  P₂ : Pos
  B : UInt8 → UInt8 → Prop
  C : List UInt8 × Nat → List UInt8 × Nat → Prop
  M : List UInt8 → List UInt8 → Prop
  col₁ : Colorization
  col₂ : Colorization

/-- Corresponding bytes are treated alike by what is not in the grammar. -/
structure Link.Ok (K : Link) : Prop where
  refl : ∀ c, K.B c c
  space : ∀ c d, K.B c d → Mach.isSpace c = Mach.isSpace d
  msg : ∀ c d ls, K.B c d → ls ≠ [] →
    K.M (messageSpec K.col₁ c (ls.map labelText)) (messageSpec K.col₂ d (ls.map labelText))

/-- The same place relative to the two starts. -/
def PosRel (K : Link) (x y : Pos) : Prop := ∃ d c n, x = K.P₁.move d c n ∧ y = K.P₂.move d c n

inductive NodeRel (K : Link) : Node → Node → Prop
  | mk {i c o a s t t' r r' l l'} : Forall₂ K.B t t' → PosRel K r.start r'.start →
      PosRel K r.stop r'.stop → Forall₂ (NodeRel K) l l' →
      NodeRel K (.mk i c o a s t r l) (.mk i c o a s t' r' l')

structure BlockRel (K : Link) (b b' : Block) : Prop where
  start : b.start = b'.start
  stop : b.stop = b'.stop
  rstart : PosRel K b.rstart b'.rstart
  rstop : PosRel K b.rstop b'.rstop
  seq : b.seq = b'.seq
  children : Forall₂ (NodeRel K) b.children b'.children

structure ErrRel (K : Link) (e e' : PErr) : Prop where
  position : PosRel K e.position e'.position
  msg : K.M e.msg e'.msg
  context : Option.Rel K.C e.context e'.context

structure MachRel (K : Link) (m m' : Mach) : Prop where
  blocks : Forall₂ (BlockRel K) m.blocks m'.blocks
  prev : Option.Rel (BlockRel K) m.prev m'.prev
  strbuf : Forall₂ K.B m.strbuf m'.strbuf
  ops : m.ops = m'.ops
  self : m.self = m'.self
  frames : m.frames = m'.frames
  result : m.result = m'.result
  eof : m.eof = m'.eof
  consumed : m.consumed = m'.consumed
  errs : Forall₂ (ErrRel K) m.errs m'.errs
  next : m.next = m'.next

structure EnvRel (K : Link) (e e' : Env) : Prop where
  off : PosRel K e.off e'.off
  lines : e.lines = e'.lines
  pos : e.pos = e'.pos
  buf : ∃ w w', Forall₂ K.B w w' ∧ e.buf <+: w ∧ e'.buf <+: w'
  context : ∀ n c c', lineContext e.buf n 80 = .ok (some c) → lineContext e'.buf n 80 = .ok (some c') →
    K.C c c'

/-- Crashes in which the amount of text in the buffer plays a part; they do not happen. -/
def Odd {α : Type} (x : Except Crash α) : Prop := x = .error .context ∨ x = .error .text

/-- Outcomes that correspond. -/
def Out {α β : Type} (R : α → β → Prop) (x : Except Crash α) (y : Except Crash β) : Prop :=
  Odd x ∨ Odd y ∨ match x, y with
    | .ok a, .ok b => R a b
    | .error c, .error d => c = d
    | _, _ => False

variable {α β α' β' : Type} {K : Link}

theorem Out.ok {R : α → β → Prop} {a : α} {b : β} (h : R a b) : Out R (.ok a) (.ok b) := .inr (.inr h)

theorem Out.err {R : α → β → Prop} (c : Crash) : Out R (.error c) (.error c) := .inr (.inr rfl)

theorem Odd.bind {x : Except Crash α} (h : Odd x) (f : α → Except Crash β) : Odd (x >>= f) := by
  rcases h with rfl | rfl
  · exact .inl rfl
  · exact .inr rfl

theorem Out.bind {R : α → β → Prop} {S : α' → β' → Prop} {x : Except Crash α} {y : Except Crash β}
    {f : α → Except Crash α'} {g : β → Except Crash β'} (h : Out R x y)
    (hf : ∀ a b, R a b → Out S (f a) (g b)) : Out S (x >>= f) (y >>= g) := by
  rcases h with h | h | h
  · exact .inl (h.bind f)
  · exact .inr (.inl (h.bind g))
  · cases x with
    | ok a => cases y with
      | ok b => exact hf a b h
      | error d => exact h.elim
    | error c => cases y with
      | ok b => exact h.elim
      | error d => cases h; exact .err c

theorem inputPosition_rel {off off' : Pos} (h : PosRel K off off') (L : List Nat) (p : Nat) :
    match inputPosition off L p, inputPosition off' L p with
    | .ok x, .ok y => PosRel K x y ∧ ∃ n, x.offset = off.offset + n ∧ y.offset = off'.offset + n
    | .error f, .error g => f = g
    | _, _ => False := by
  obtain ⟨d, c, n, rfl, rfl⟩ := h
  unfold inputPosition
  cases backtrackL p L with
  | nil => rfl
  | cons l ls =>
    refine ⟨⟨ls.length + d, if ls = [] then p - l + c else p - l + 1, p + n, ?_, ?_⟩,
      p, by simp [Nat.add_comm], by simp [Nat.add_comm]⟩
    all_goals
      simp only [Pos.move, Pos.mk.injEq]
      cases ls with
      | nil => by_cases hd : d = 0 <;> simp [hd] <;> omega
      | cons a b => simp; omega

namespace Mach

theorem position_rel {e e' : Env} (h : EnvRel K e e') (p : Nat) :
    Out (PosRel K) (position e p) (position e' p) := by
  unfold position
  have := inputPosition_rel h.off e.lines p
  rw [← h.lines]
  cases h1 : inputPosition e.off e.lines p with
  | ok x =>
    cases h2 : inputPosition e'.off e.lines p with
    | ok y => rw [h1, h2] at this; exact .ok this.1
    | error f => rw [h1, h2] at this; exact this.elim
  | error f =>
    cases h2 : inputPosition e'.off e.lines p with
    | ok y => rw [h1, h2] at this; exact this.elim
    | error g => rw [h1, h2] at this; cases this; exact .err _

theorem nil_iff {R : α → β → Prop} {l : List α} {l' : List β} (h : Forall₂ R l l') : l = [] ↔ l' = [] := by
  cases h <;> simp

theorem _root_.Verif.Cypher.MachRel.prevCases {m m' : Mach} (h : MachRel K m m') :
    (m.prev = none ∧ m'.prev = none) ∨
    ∃ b b', m.prev = some b ∧ m'.prev = some b' ∧ BlockRel K b b' := by
  have hp := h.prev
  cases h1 : m.prev <;> cases h2 : m'.prev <;> rw [h1, h2] at hp <;> cases hp
  · exact .inl ⟨rfl, rfl⟩
  · rename_i hbb; exact .inr ⟨_, _, rfl, rfl, hbb⟩

theorem _root_.Verif.Cypher.MachRel.blocksCases {m m' : Mach} (h : MachRel K m m') :
    (m.blocks = [] ∧ m'.blocks = []) ∨ ∃ b b' bs bs', m.blocks = b :: bs ∧ m'.blocks = b' :: bs' ∧
      BlockRel K b b' ∧ Forall₂ (BlockRel K) bs bs' := by
  have hp := h.blocks
  cases h1 : m.blocks <;> cases h2 : m'.blocks <;> rw [h1, h2] at hp <;> cases hp
  · exact .inl ⟨rfl, rfl⟩
  · rename_i hbb hbs; exact .inr ⟨_, _, _, _, rfl, rfl, hbb, hbs⟩

theorem blockStart_rel {e e' : Env} (he : EnvRel K e e') {m m' : Mach} (h : MachRel K m m') (p : Nat) :
    Out (MachRel K) (blockStart e p m) (blockStart e' p m') := by
  unfold blockStart
  refine (position_rel he p).bind fun x y hxy => ?_
  have hb : MachRel K { m with blocks := ⟨p, p, x, x, [], []⟩ :: m.blocks, prev := none }
      { m' with blocks := ⟨p, p, y, y, [], []⟩ :: m'.blocks, prev := none } :=
    { h with blocks := .cons ⟨rfl, rfl, hxy, hxy, rfl, .nil⟩ h.blocks, prev := .none }
  rcases h.prevCases with ⟨h1, h2⟩ | ⟨b, b', h1, h2, hbb⟩
  · simp only [h1, h2]
    exact .ok hb
  · simp only [h1, h2]
    by_cases hn : b.children = []
    · simp only [ne_eq, hn, (nil_iff hbb.children).1 hn, not_true_eq_false, if_false]
      exact .ok hb
    · simp only [ne_eq, hn, mt (nil_iff hbb.children).2 hn, not_false_eq_true, if_true]
      exact .err _

theorem posRel_offset {x y o o' : Pos} (h : PosRel K x y) (ho : PosRel K o o') :
    (x.offset ≤ o.offset ↔ y.offset ≤ o'.offset) ∧ o.offset - x.offset = o'.offset - y.offset := by
  obtain ⟨d, c, n, rfl, rfl⟩ := h
  obtain ⟨d', c', n', rfl, rfl⟩ := ho
  simp only [Pos.move]
  omega

theorem blockPop_rel {e e' : Env} (he : EnvRel K e e') {m m' : Mach} (h : MachRel K m m') (p : Nat) :
    Out (fun a b => BlockRel K a.1 b.1 ∧ Forall₂ (BlockRel K) a.2 b.2) (blockPop e p m)
      (blockPop e' p m') := by
  unfold blockPop
  refine (position_rel he p).bind fun x y hxy => ?_
  rcases h.blocksCases with ⟨h1, h2⟩ | ⟨b, b', bs, bs', h1, h2, hbb, hbs⟩
  · simp only [h1, h2]; exact .err _
  · cases hbs with
    | nil => simp only [h1, h2]; exact .err _
    | @cons c c' cs cs' hc hcs =>
      simp only [h1, h2]
      have hcond : (b.start ≤ p ∧ b.rstart.offset ≤ x.offset) ↔
          (b'.start ≤ p ∧ b'.rstart.offset ≤ y.offset) := by
        rw [hbb.start, (posRel_offset hbb.rstart hxy).1]
      by_cases hn : b.start ≤ p ∧ b.rstart.offset ≤ x.offset
      · simp only [hn, hcond.1 hn, and_self, not_true_eq_false, if_false]
        have hok : Out (fun a b => BlockRel K a.1 b.1 ∧ Forall₂ (BlockRel K) a.2 b.2)
            (.ok ({ b with stop := p, rstop := x }, c :: cs))
            (.ok ({ b' with stop := p, rstop := y }, c' :: cs')) :=
          .ok ⟨{ hbb with stop := rfl, rstop := hxy }, .cons hc hcs⟩
        rcases h.prevCases with ⟨h1, h2⟩ | ⟨q, q', h1, h2, hqq⟩
        · simp only [h1, h2]; exact hok
        · simp only [h1, h2]
          by_cases hn : q.children = []
          · simp only [ne_eq, hn, (nil_iff hqq.children).1 hn, not_true_eq_false, if_false]
            exact hok
          · simp only [ne_eq, hn, mt (nil_iff hqq.children).2 hn, not_false_eq_true, if_true]
            exact .err _
      · simp only [hn, mt hcond.2 hn, not_false_eq_true, if_true]
        exact .err _

theorem blockEnd_rel {e e' : Env} (he : EnvRel K e e') {m m' : Mach} (h : MachRel K m m') (p : Nat) :
    Out (MachRel K) (blockEnd e p m) (blockEnd e' p m') := by
  unfold blockEnd
  refine (blockPop_rel he h p).bind fun a b hab => ?_
  exact .ok { h with blocks := hab.2, prev := .some hab.1 }

theorem blockReplace_rel {e e' : Env} (he : EnvRel K e e') {m m' : Mach} (h : MachRel K m m') (p : Nat) :
    Out (MachRel K) (blockReplace e p m) (blockReplace e' p m') := by
  unfold blockReplace
  refine (blockPop_rel he h p).bind fun a b hab => ?_
  exact .ok { h with blocks := .cons ⟨rfl, rfl, hab.1.rstart, hab.1.rstart, rfl, .nil⟩ hab.2, prev := .some hab.1 }

theorem blockMerge_rel {e e' : Env} (he : EnvRel K e e') {m m' : Mach} (h : MachRel K m m') (p : Nat) :
    Out (MachRel K) (blockMerge e p m) (blockMerge e' p m') := by
  unfold blockMerge
  refine (blockPop_rel he h p).bind fun x y hab => ?_
  obtain ⟨b, bs⟩ := x
  obtain ⟨b', bs'⟩ := y
  obtain ⟨h1, h2⟩ := hab
  simp only at h1 h2 ⊢
  by_cases hn : b.children = []
  · simp only [hn, (nil_iff h1.children).1 hn, if_true]
    exact .ok { h with blocks := h2, prev := .some h1 }
  · simp only [hn, mt (nil_iff h1.children).2 hn, if_false]
    cases h2 with
    | nil => exact .err _
    | cons hq hqs =>
      exact .ok { h with
        blocks := .cons { hq with children := rel_append hq.children h1.children } hqs
        prev := .some { h1 with children := .nil } }

theorem getVar_rel {m m' : Mach} (h : MachRel K m m') (i : Nat) : m.getVar i = m'.getVar i := by
  unfold getVar; rw [h.frames]

theorem setVar_rel {m m' : Mach} (h : MachRel K m m') (i : Nat) (v : Option Ref) :
    Out (MachRel K) (m.setVar i v) (m'.setVar i v) := by
  unfold setVar
  rw [h.frames]
  cases hf : m'.frames with
  | nil => exact .err _
  | cons fr frs =>
    simp only
    split
    · exact .ok { h with frames := rfl }
    · exact .err _

theorem assign_rel {m m' : Mach} (h : MachRel K m m') (d : Dst) (v : Option Ref) :
    Out (MachRel K) (m.assign d v) (m'.assign d v) := by
  cases d with
  | self => exact .ok { h with self := rfl }
  | var i => exact setVar_rel h i v
  | discard => exact .ok h

theorem getArgs_rel {m m' : Mach} (h : MachRel K m m') : ∀ as, m.getArgs as = m'.getArgs as
  | [] => rfl
  | none :: as => by simp only [getArgs, getArgs_rel h as]
  | some i :: as => by simp only [getArgs, getArgs_rel h as, getVar_rel h i]

theorem addChild_rel {m m' : Mach} (h : MachRel K m m') {n n' : Node} (hn : NodeRel K n n') :
    Out (MachRel K) (m.addChild n) (m'.addChild n') := by
  unfold addChild
  rcases h.blocksCases with ⟨h1, h2⟩ | ⟨b, b', bs, bs', h1, h2, hbb, hbs⟩
  · simp only [h1, h2]; exact .err _
  · simp only [h1, h2]
    exact .ok { h with
      blocks := .cons { hbb with children := rel_append hbb.children (.cons hn .nil) } hbs
      next := by rw [h.next] }

theorem blockText_rel {e e' : Env} (he : EnvRel K e e') {b b' : Block} (h : BlockRel K b b') :
    Out (Forall₂ K.B) (blockText e b) (blockText e' b') := by
  unfold blockText
  obtain ⟨w, w', hw, ⟨t, ht⟩, ⟨t', ht'⟩⟩ := he.buf
  rw [h.start, h.stop]
  split
  · rename_i h1
    split
    · rename_i h2
      refine .ok ?_
      have e1 : e.buf.extract b'.start b'.stop = w.extract b'.start b'.stop := by
        rw [← ht, List.extract_eq_take_drop, List.extract_eq_take_drop,
          List.drop_append_of_le_length (by omega), List.take_append_of_le_length (by simp; omega)]
      have e2 : e'.buf.extract b'.start b'.stop = w'.extract b'.start b'.stop := by
        rw [← ht', List.extract_eq_take_drop, List.extract_eq_take_drop,
          List.drop_append_of_le_length (by omega), List.take_append_of_le_length (by simp; omega)]
      rw [e1, e2, List.extract_eq_take_drop, List.extract_eq_take_drop]
      exact forall₂_take _ (forall₂_drop _ hw)
    · exact .inr (.inl (.inr rfl))
  · exact .inl (.inr rfl)

theorem dropWhile_rel {R : UInt8 → UInt8 → Prop} {f : UInt8 → Bool} (hf : ∀ c d, R c d → f c = f d) :
    ∀ {l l' : List UInt8}, Forall₂ R l l' → Forall₂ R (l.dropWhile f) (l'.dropWhile f)
  | _, _, .nil => .nil
  | _, _, .cons (a := a) (b := b) h t => by
    simp only [List.dropWhile_cons, hf _ _ h]
    split
    · exact dropWhile_rel hf t
    · exact .cons h t

theorem trim_rel (hK : K.Ok) {l l' : List UInt8} (h : Forall₂ K.B l l') : Forall₂ K.B (trim l) (trim l') := by
  unfold trim
  exact forall₂_reverse_iff.2 (dropWhile_rel hK.space (forall₂_reverse_iff.2 (dropWhile_rel hK.space h)))

theorem terminalText_rel (hK : K.Ok) {e e' : Env} (he : EnvRel K e e') {m m' : Mach} (h : MachRel K m m')
    {b b' : Block} (hb : BlockRel K b b') (k : Terminal) :
    Out (Forall₂ K.B) (terminalText e k m b) (terminalText e' k m' b') := by
  cases k with
  | plain => exact .ok .nil
  | strbuf => exact .ok h.strbuf
  | block => exact blockText_rel he hb
  | trimmed =>
    have := (blockText_rel he hb).bind (f := fun t => .ok (trim t)) (g := fun t => .ok (trim t))
      (S := Forall₂ K.B) fun a b hab => .ok (trim_rel hK hab)
    unfold terminalText
    simp only
    cases h1 : blockText e b <;> cases h2 : blockText e' b' <;> rw [h1, h2] at this <;> exact this

theorem terminal_rel (hK : K.Ok) {e e' : Env} (he : EnvRel K e e') {m m' : Mach} (h : MachRel K m m')
    (c : Ctor) (k : Terminal) :
    Out (fun a b => MachRel K a.1 b.1 ∧ a.2 = b.2) (terminal e c k m) (terminal e' c k m') := by
  unfold terminal
  rcases h.prevCases with ⟨h1, h2⟩ | ⟨b, b', h1, h2, hbb⟩
  · simp only [h1, h2]; exact .err _
  · simp only [h1, h2]
    refine (terminalText_rel hK he h hbb k).bind fun t t' ht => ?_
    by_cases hn : b.children = []
    · simp only [ne_eq, hn, (nil_iff hbb.children).1 hn, not_true_eq_false, if_false]
      have hm : MachRel K { m with prev := none } { m' with prev := none } := { h with prev := .none }
      have hnode : NodeRel K (.mk m.next c [] [] [] t ⟨b.rstart, b.rstop⟩ [])
          (.mk m'.next c [] [] [] t' ⟨b'.rstart, b'.rstop⟩ []) := by
        rw [h.next]; exact .mk ht hbb.rstart hbb.rstop .nil
      refine (addChild_rel hm hnode).bind fun x y hxy => ?_
      exact .ok ⟨hxy, by rw [h.next]⟩
    · simp only [ne_eq, hn, mt (nil_iff hbb.children).2 hn, not_false_eq_true, if_true]
      exact .err _

theorem contains_rel {l l' : List Node} (h : Forall₂ (NodeRel K) l l') (r : Ref) :
    contains l r = contains l' r := by
  unfold contains
  induction h with
  | nil => rfl
  | cons hab _ ih => cases hab; simp only [List.any_cons, ih]; rfl

theorem argCheck_rel {l l' : List Node} (h : Forall₂ (NodeRel K) l l') (q : ArgReq) (a : Option Ref) :
    q.check l a = q.check l' a := by
  cases q <;> cases a <;> simp only [ArgReq.check, contains_rel h]

theorem childAll_rel {l l' : List Node} (h : Forall₂ (NodeRel K) l l') (v : List Ref) (t : AstType) :
    childAll l v t = childAll l' v t := by
  unfold childAll; rw [h.length_eq]

theorem agree_rel {l l' : List Node} (h : Forall₂ (NodeRel K) l l') (v : List Ref) :
    agreeSomewhere l v = agreeSomewhere l' v := by
  induction h generalizing v with
  | nil => cases v <;> rfl
  | cons hab _ ih =>
    cases v with
    | nil => rfl
    | cons r rs => cases hab; simp only [agreeSomewhere, ih]; rfl

theorem seqCheck_rel {l l' : List Node} (h : Forall₂ (NodeRel K) l l') (v : List Ref) (q : SeqReq) :
    q.check l v = q.check l' v := by
  cases q <;> simp only [SeqReq.check, childAll_rel h, agree_rel h]

theorem branch_rel {m m' : Mach} (h : MachRel K m m') (c : Ctor) (args : List (Option Ref)) :
    Out (fun a b => MachRel K a.1 b.1 ∧ a.2 = b.2) (branch c args m) (branch c args m') := by
  unfold branch
  rcases h.prevCases with ⟨h1, h2⟩ | ⟨b, b', h1, h2, hbb⟩
  · simp only [h1, h2]; exact .err _
  · simp only [h1, h2]
    have ht : takeOps c b m.ops = takeOps c b' m'.ops := by
      rw [h.ops]; cases c <;> simp only [takeOps, hbb.seq]
    rw [ht]
    cases takeOps c b' m'.ops with
    | error x => exact .err _
    | ok p =>
      obtain ⟨os, rest⟩ := p
      simp only [Bind.bind, Except.bind, argCheck_rel hbb.children, seqCheck_rel hbb.children, hbb.seq]
      split
      · exact .err _
      · split
        · exact .err _
        · exact .err _
        · have hm : MachRel K { m with prev := none, ops := rest } { m' with prev := none, ops := rest } :=
            { h with prev := .none, ops := rfl }
          have hnode : NodeRel K
              (.mk m.next c os args (if c.checks.2 = .none then [] else b'.seq) [] ⟨b.rstart, b.rstop⟩ b.children)
              (.mk m'.next c os args (if c.checks.2 = .none then [] else b'.seq) [] ⟨b'.rstart, b'.rstop⟩ b'.children) := by
            rw [h.next]; exact .mk .nil hbb.rstart hbb.rstop hbb.children
          exact (addChild_rel hm hnode).bind fun x y hxy => .ok ⟨hxy, by rw [h.next]⟩

theorem build_rel (hK : K.Ok) {e e' : Env} (he : EnvRel K e e') {m m' : Mach} (h : MachRel K m m')
    (c : Ctor) (args : List (Option Ref)) :
    Out (fun a b => MachRel K a.1 b.1 ∧ a.2 = b.2) (build e c args m) (build e' c args m') := by
  unfold build
  cases c.terminal with
  | some k => exact terminal_rel hK he h c k
  | none => exact branch_rel h c args

theorem seqAdd_rel {m m' : Mach} (h : MachRel K m m') (v : Option Ref) :
    Out (MachRel K) (m.seqAdd v) (m'.seqAdd v) := by
  unfold seqAdd
  rcases h.blocksCases with ⟨h1, h2⟩ | ⟨b, b', bs, bs', h1, h2, hbb, hbs⟩
  · simp only [h1, h2]; exact .err _
  · simp only [h1, h2]
    cases v with
    | none => exact .err _
    | some r => exact .ok { h with blocks := .cons { hbb with seq := by rw [hbb.seq] } hbs }

theorem same {R : α → α → Prop} (hR : ∀ a, R a a) (x : Except Crash α) : Out R x x := by
  cases x with
  | ok a => exact .ok (hR a)
  | error c => exact .err c

theorem seqAdds_rel : ∀ (is : List Nat) {m m' : Mach}, MachRel K m m' →
    Out (MachRel K) (m.seqAdds is) (m'.seqAdds is)
  | [], _, _, h => .ok h
  | i :: is, m, m', h => by
    unfold seqAdds
    rw [getVar_rel h i]
    exact (same (R := Eq) (fun _ => rfl) _).bind fun v _ hv => hv ▸
      (seqAdd_rel h v).bind fun x y hxy => seqAdds_rel is hxy

theorem contexts_rel {e e' : Env} (he : EnvRel K e e') : ∀ {l l' : List PErr}, Forall₂ (ErrRel K) l l' →
    Out (Forall₂ (ErrRel K)) (contexts e l) (contexts e' l')
  | _, _, .nil => .ok .nil
  | _, _, .cons (a := a) (b := b) (l₁ := l) (l₂ := l') hab ht => by
    unfold contexts
    have hs : a.context.isSome = b.context.isSome := by
      have := hab.context
      cases h1 : a.context <;> cases h2 : b.context <;> rw [h1, h2] at this <;> cases this <;> rfl
    rw [hs]
    split
    · exact .ok (.cons hab ht)
    · rename_i hnone
      have ho := posRel_offset he.off hab.position
      have hlt : a.position.offset < e.off.offset ↔ b.position.offset < e'.off.offset := by
        have := ho.1; omega
      by_cases hn : a.position.offset < e.off.offset
      · simp only [hn, hlt.1 hn, if_true]; exact .err _
      · simp only [hn, mt hlt.2 hn, if_false]
        rw [← ho.2]
        cases h1 : lineContext e.buf (a.position.offset - e.off.offset) 80 with
        | error f => exact .inl (.inl rfl)
        | ok o => cases o with
          | none => exact .inl (.inl rfl)
          | some c => cases h2 : lineContext e'.buf (a.position.offset - e.off.offset) 80 with
            | error f => exact .inr (.inl (.inl rfl))
            | ok o => cases o with
              | none => exact .inr (.inl (.inl rfl))
              | some c' =>
                refine (contexts_rel he ht).bind fun x y hxy => ?_
                exact .ok (.cons { hab with context := .some (he.context _ _ _ h1 h2) } hxy)

theorem act_rel (hK : K.Ok) {e e' : Env} (he : EnvRel K e e') (a : Act) (p : Nat) {m m' : Mach}
    (h : MachRel K m m') : Out (MachRel K) (act e a p m) (act e' a p m') := by
  have hbuild : ∀ c args i, Out (MachRel K)
      (do let (m, r) ← build e c args m; m.setVar i (some r))
      (do let (m, r) ← build e' c args m'; m.setVar i (some r)) := fun c args i =>
    (build_rel hK he h c args).bind fun x y hxy => by
      obtain ⟨x1, x2⟩ := x; obtain ⟨y1, y2⟩ := y; obtain ⟨hx, rfl⟩ := hxy
      exact setVar_rel hx _ _
  cases a with
  | blockStart => exact blockStart_rel he h p
  | blockEnd => exact blockEnd_rel he h p
  | blockReplace => exact blockReplace_rel he h p
  | blockMerge => exact blockMerge_rel he h p
  | eof => exact .ok { h with eof := rfl }
  | result v =>
    cases v with
    | none => exact .ok { h with result := rfl }
    | some i =>
      unfold act; simp only [getVar_rel h i]
      exact (same (R := Eq) (fun _ => rfl) _).bind fun v _ hv => hv ▸ .ok { h with result := rfl }
  | finished =>
    unfold act; simp only
    refine (contexts_rel he (forall₂_reverse_iff.2 h.errs)).bind fun x y hxy => ?_
    exact .ok { h with consumed := he.pos, errs := forall₂_reverse_iff.2 hxy }
  | seqAdd vs => exact seqAdds_rel vs h
  | copy i =>
    unfold act; simp only [getVar_rel h i]
    exact (same (R := Eq) (fun _ => rfl) _).bind fun v _ hv => hv ▸ .ok { h with self := rfl }
  | null => exact .ok { h with self := rfl }
  | build d c args =>
    unfold act; simp only [getArgs_rel h args]
    refine (same (R := Eq) (fun _ => rfl) _).bind fun v _ hv => hv ▸ ?_
    refine (build_rel hK he h c v).bind fun x y hxy => ?_
    obtain ⟨x1, x2⟩ := x; obtain ⟨y1, y2⟩ := y; obtain ⟨hx, rfl⟩ := hxy
    exact assign_rel hx _ _
  | aliasUnless q i =>
    unfold act; simp only [getVar_rel h q]
    refine (same (R := Eq) (fun _ => rfl) _).bind fun v _ hv => hv ▸ ?_
    cases v with
    | none => exact hbuild _ _ _
    | some r =>
      simp only
      split
      · exact .ok h
      · exact hbuild _ _ _
  | sbReset => exact .ok { h with strbuf := .nil }
  | sbAppend c => exact .ok { h with strbuf := rel_append h.strbuf (.cons (hK.refl c) .nil) }
  | sbAppendBlock =>
    unfold act; simp only
    rcases h.prevCases with ⟨h1, h2⟩ | ⟨b, b', h1, h2, hbb⟩
    · simp only [h1, h2]; exact .err _
    · simp only [h1, h2]
      refine (blockText_rel he hbb).bind fun x y hxy => ?_
      exact .ok { h with strbuf := rel_append h.strbuf hxy, prev := .some hbb }
  | opPush o => exact .ok { h with ops := by rw [h.ops] }

theorem step_rel (hK : K.Ok) {e e' : Env} (he : EnvRel K e e') (t : Peg.Thunk Act) {m m' : Mach}
    (h : MachRel K m m') : Out (MachRel K) (step e t m) (step e' t m') := by
  cases t with
  | push n => exact .ok { h with frames := by rw [h.frames] }
  | pop n =>
    unfold step; simp only [h.frames]
    cases m'.frames with
    | nil => exact .err _
    | cons a b => exact .ok { h with frames := rfl }
  | set i => unfold step; simp only [h.self]; exact setVar_rel h _ _
  | act a p => exact act_rel hK he a p h

theorem exec_rel (hK : K.Ok) {e e' : Env} (he : EnvRel K e e') : ∀ (ts : List (Peg.Thunk Act)) {m m' : Mach},
    MachRel K m m' → Out (MachRel K) (exec e ts m) (exec e' ts m')
  | [], _, _, h => .ok h
  | t :: ts, _, _, h => by
    unfold exec
    exact (exec_rel hK he ts h).bind fun x y hxy => step_rel hK he t hxy

end Mach
end Verif.Cypher
