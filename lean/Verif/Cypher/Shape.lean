import Verif.Cypher.Related
import Verif.Cypher.Template
/-!
# Running the actions of a text with a hole

The actions found by `Tmpl.run` run like those of any text with a piece in the hole: the trees differ
in places and in the texts of leaves only.
-/
namespace Verif.Cypher
open Verif.Peg List

variable {α β α' β' : Type}

/-- How the two runs differ: where places are, the offset of the text, and what the string buffer holds
after the hole (`mark` stands for `text`). The hole is at `lim`. -/
structure Look where
  φ : Nat → Nat
  mono : ∀ j k, j ≤ k → φ j ≤ φ k
  base : Nat
  lim : Nat
  mark : List UInt8
  text : List UInt8

/-- What stands for the text `t`. -/
def Look.fill (K : Look) (t : List UInt8) : List UInt8 := if t = K.mark then K.text else t

/-- The same place. -/
def Look.Px (K : Look) (x y : Pos) : Prop := y.offset = K.base + K.φ x.offset

inductive NodeSh (K : Look) : Node → Node → Prop
  | mk {i c o a s t t' r r' l l'} : (c.terminal = some .strbuf → t' = K.fill t) → K.Px r.start r'.start →
      K.Px r.stop r'.stop → Forall₂ (NodeSh K) l l' →
      NodeSh K (.mk i c o a s t r l) (.mk i c o a s t' r' l')

structure BlockSh (K : Look) (b b' : Block) : Prop where
  start : b'.start = K.φ b.start
  stop : b'.stop = K.φ b.stop
  rstart : K.Px b.rstart b'.rstart
  rstop : K.Px b.rstop b'.rstop
  seq : b.seq = b'.seq
  children : Forall₂ (NodeSh K) b.children b'.children

/-- Where nothing is known of the closed block, it owns no nodes. -/
def PrevSh (K : Look) : Option Block → Option Block → Prop
  | none, p => ∀ b, p = some b → b.children = []
  | some b, p => ∃ b', p = some b' ∧ BlockSh K b b'

structure MachSh (K : Look) (m m' : Mach) : Prop where
  blocks : Forall₂ (BlockSh K) m.blocks m'.blocks
  prev : PrevSh K m.prev m'.prev
  strbuf : m'.strbuf = K.fill m.strbuf
  ops : m.ops = m'.ops
  self : m.self = m'.self
  frames : m.frames = m'.frames
  result : m.result = m'.result
  eof : m.eof = m'.eof
  consumed : m'.consumed = K.φ m.consumed
  errs : m.errs = []
  errs' : m'.errs = []
  next : m.next = m'.next

structure EnvSh (K : Look) (e e' : Env) : Prop where
  off : e.off.offset = 0
  off' : e'.off.offset = K.base
  position : ∀ p, ∃ x, Mach.position e' p = .ok x
  pos : e'.pos = K.φ e.pos
  buf : ∀ k ≤ e.buf.length, K.φ k ≤ e'.buf.length
  text : ∀ j k, j ≤ k → k ≤ e.buf.length → k ≤ K.lim ∨ K.lim < j →
    e'.buf.extract (K.φ j) (K.φ k) = e.buf.extract j k

/-- If the first run goes well, so does the second, with related results. -/
def Thus (R : α → β → Prop) (x : Except Crash α) (y : Except Crash β) : Prop :=
  ∀ a, x = .ok a → ∃ b, y = .ok b ∧ R a b

variable {K : Look}

theorem Thus.ok {R : α → β → Prop} {a : α} {b : β} (h : R a b) : Thus R (.ok a) (.ok b) := by
  rintro _ ⟨⟩; exact ⟨b, rfl, h⟩

theorem Thus.err {R : α → β → Prop} {c : Crash} {y : Except Crash β} : Thus R (.error c) y := by
  rintro _ ⟨⟩

theorem Thus.bind {R : α → β → Prop} {S : α' → β' → Prop} {x : Except Crash α} {y : Except Crash β}
    {f : α → Except Crash α'} {g : β → Except Crash β'} (h : Thus R x y)
    (hf : ∀ a b, R a b → Thus S (f a) (g b)) : Thus S (x >>= f) (y >>= g) := by
  cases x with
  | error c => exact .err
  | ok a =>
    obtain ⟨b, rfl, hab⟩ := h a rfl
    exact hf a b hab

theorem Thus.same {R : α → α → Prop} (hR : ∀ a, R a a) (x : Except Crash α) : Thus R x x :=
  fun a h => ⟨a, h, hR a⟩

namespace Mach

theorem position_sh {e e' : Env} (h : EnvSh K e e') (p : Nat) :
    Thus (fun x y => x.offset = p ∧ K.Px x y) (position e p) (position e' (K.φ p)) := by
  intro x hx
  obtain ⟨y, hy⟩ := h.position (K.φ p)
  refine ⟨y, hy, ?_⟩
  unfold position at hx hy
  split at hx
  · rename_i x' hx'
    cases hx
    split at hy
    · rename_i y' hy'
      cases hy
      have h1 := inputPosition_offset hx'
      have h2 := inputPosition_offset hy'
      rw [h.off] at h1
      rw [h.off'] at h2
      refine ⟨h1, ?_⟩
      unfold Look.Px
      rw [h1, h2]
      simp [Nat.add_comm]
    · cases hy
  · cases hx

theorem _root_.Verif.Cypher.MachSh.prevCases {m m' : Mach} (h : MachSh K m m') :
    (m.prev = none ∧ ∀ b, m'.prev = some b → b.children = []) ∨
    ∃ b b', m.prev = some b ∧ m'.prev = some b' ∧ BlockSh K b b' := by
  have hp := h.prev
  cases h1 : m.prev <;> rw [h1] at hp
  · exact .inl ⟨rfl, hp⟩
  · obtain ⟨b', h2, hb⟩ := hp
    exact .inr ⟨_, _, rfl, h2, hb⟩

theorem _root_.Verif.Cypher.MachSh.blocksCases {m m' : Mach} (h : MachSh K m m') :
    (m.blocks = [] ∧ m'.blocks = []) ∨ ∃ b b' bs bs', m.blocks = b :: bs ∧ m'.blocks = b' :: bs' ∧
      BlockSh K b b' ∧ Forall₂ (BlockSh K) bs bs' := by
  have hp := h.blocks
  cases h1 : m.blocks <;> cases h2 : m'.blocks <;> rw [h1, h2] at hp <;> cases hp
  · exact .inl ⟨rfl, rfl⟩
  · rename_i hbb hbs; exact .inr ⟨_, _, _, _, rfl, rfl, hbb, hbs⟩

theorem blockStart_sh {e e' : Env} (he : EnvSh K e e') {m m' : Mach} (h : MachSh K m m') (p : Nat) :
    Thus (MachSh K) (blockStart e p m) (blockStart e' (K.φ p) m') := by
  unfold blockStart
  refine (position_sh he p).bind fun x y hxy => ?_
  have hb : MachSh K { m with blocks := ⟨p, p, x, x, [], []⟩ :: m.blocks, prev := none }
      { m' with blocks := ⟨K.φ p, K.φ p, y, y, [], []⟩ :: m'.blocks, prev := none } :=
    { h with blocks := .cons ⟨rfl, rfl, hxy.2, hxy.2, rfl, .nil⟩ h.blocks,
             prev := fun b hb => by cases hb }
  rcases h.prevCases with ⟨h1, h2⟩ | ⟨b, b', h1, h2, hbb⟩
  · simp only [h1]
    cases hp : m'.prev with
    | none => exact .ok hb
    | some b =>
      simp only [ne_eq, h2 b hp, not_true_eq_false, if_false]
      exact .ok hb
  · simp only [h1, h2]
    by_cases hn : b.children = []
    · simp only [ne_eq, hn, (nil_iff hbb.children).1 hn, not_true_eq_false, if_false]
      exact .ok hb
    · simp only [ne_eq, hn, not_false_eq_true, if_true]
      exact .err

theorem blockPop_sh {e e' : Env} (he : EnvSh K e e') {m m' : Mach} (h : MachSh K m m') (p : Nat) :
    Thus (fun a b => BlockSh K a.1 b.1 ∧ Forall₂ (BlockSh K) a.2 b.2) (blockPop e p m)
      (blockPop e' (K.φ p) m') := by
  unfold blockPop
  refine (position_sh he p).bind fun x y hxy => ?_
  rcases h.blocksCases with ⟨h1, h2⟩ | ⟨b, b', bs, bs', h1, h2, hbb, hbs⟩
  · simp only [h1]; exact .err
  · cases hbs with
    | nil => simp only [h1]; exact .err
    | @cons c c' cs cs' hc hcs =>
      simp only [h1, h2]
      by_cases hn : b.start ≤ p ∧ b.rstart.offset ≤ x.offset
      · have hn' : b'.start ≤ K.φ p ∧ b'.rstart.offset ≤ y.offset := by
          have e1 := hbb.rstart
          have e2 := hxy.2
          unfold Look.Px at e1 e2
          rw [hbb.start, e1, e2]
          exact ⟨K.mono _ _ hn.1, Nat.add_le_add_left (K.mono _ _ hn.2) _⟩
        simp only [hn, hn', and_self, not_true_eq_false, if_false]
        have hok : Thus (fun a b => BlockSh K a.1 b.1 ∧ Forall₂ (BlockSh K) a.2 b.2)
            (.ok ({ b with stop := p, rstop := x }, c :: cs))
            (.ok ({ b' with stop := K.φ p, rstop := y }, c' :: cs')) :=
          .ok ⟨{ hbb with stop := rfl, rstop := hxy.2 }, .cons hc hcs⟩
        rcases h.prevCases with ⟨h1, h2⟩ | ⟨q, q', h1, h2, hqq⟩
        · simp only [h1]
          cases hp : m'.prev with
          | none => exact hok
          | some b =>
            simp only [ne_eq, h2 b hp, not_true_eq_false, if_false]
            exact hok
        · simp only [h1, h2]
          by_cases hn : q.children = []
          · simp only [ne_eq, hn, (nil_iff hqq.children).1 hn, not_true_eq_false, if_false]
            exact hok
          · simp only [ne_eq, hn, not_false_eq_true, if_true]
            exact .err
      · simp only [hn, not_false_eq_true, if_true]
        exact .err

theorem blockEnd_sh {e e' : Env} (he : EnvSh K e e') {m m' : Mach} (h : MachSh K m m') (p : Nat) :
    Thus (MachSh K) (blockEnd e p m) (blockEnd e' (K.φ p) m') := by
  unfold blockEnd
  refine (blockPop_sh he h p).bind fun a b hab => ?_
  exact .ok { h with blocks := hab.2, prev := ⟨_, rfl, hab.1⟩ }

theorem blockReplace_sh {e e' : Env} (he : EnvSh K e e') {m m' : Mach} (h : MachSh K m m') (p : Nat) :
    Thus (MachSh K) (blockReplace e p m) (blockReplace e' (K.φ p) m') := by
  unfold blockReplace
  refine (blockPop_sh he h p).bind fun a b hab => ?_
  exact .ok { h with
    blocks := .cons ⟨rfl, rfl, hab.1.rstart, hab.1.rstart, rfl, .nil⟩ hab.2, prev := ⟨_, rfl, hab.1⟩ }

theorem blockMerge_sh {e e' : Env} (he : EnvSh K e e') {m m' : Mach} (h : MachSh K m m') (p : Nat) :
    Thus (MachSh K) (blockMerge e p m) (blockMerge e' (K.φ p) m') := by
  unfold blockMerge
  refine (blockPop_sh he h p).bind fun x y hab => ?_
  obtain ⟨b, bs⟩ := x
  obtain ⟨b', bs'⟩ := y
  obtain ⟨h1, h2⟩ := hab
  simp only at h1 h2 ⊢
  by_cases hn : b.children = []
  · simp only [hn, (nil_iff h1.children).1 hn, if_true]
    exact .ok { h with blocks := h2, prev := ⟨_, rfl, h1⟩ }
  · simp only [hn, mt (nil_iff h1.children).2 hn, if_false]
    cases h2 with
    | nil => exact .err
    | cons hq hqs =>
      exact .ok { h with
        blocks := .cons { hq with children := rel_append hq.children h1.children } hqs
        prev := ⟨_, rfl, { h1 with children := .nil }⟩ }

theorem getVar_sh {m m' : Mach} (h : MachSh K m m') (i : Nat) : m.getVar i = m'.getVar i := by
  unfold getVar; rw [h.frames]

theorem setVar_sh {m m' : Mach} (h : MachSh K m m') (i : Nat) (v : Option Ref) :
    Thus (MachSh K) (m.setVar i v) (m'.setVar i v) := by
  unfold setVar
  rw [h.frames]
  cases hf : m'.frames with
  | nil => exact .err
  | cons fr frs =>
    simp only
    split
    · exact .ok { h with frames := rfl }
    · exact .err

theorem assign_sh {m m' : Mach} (h : MachSh K m m') (d : Dst) (v : Option Ref) :
    Thus (MachSh K) (m.assign d v) (m'.assign d v) := by
  cases d with
  | self => exact .ok { h with self := rfl }
  | var i => exact setVar_sh h i v
  | discard => exact .ok h

theorem getArgs_sh {m m' : Mach} (h : MachSh K m m') : ∀ as, m.getArgs as = m'.getArgs as
  | [] => rfl
  | none :: as => by simp only [getArgs, getArgs_sh h as]
  | some i :: as => by simp only [getArgs, getArgs_sh h as, getVar_sh h i]

theorem addChild_sh {m m' : Mach} (h : MachSh K m m') {n n' : Node} (hn : NodeSh K n n') :
    Thus (MachSh K) (m.addChild n) (m'.addChild n') := by
  unfold addChild
  rcases h.blocksCases with ⟨h1, h2⟩ | ⟨b, b', bs, bs', h1, h2, hbb, hbs⟩
  · simp only [h1]; exact .err
  · simp only [h1, h2]
    exact .ok { h with
      blocks := .cons { hbb with children := rel_append hbb.children (.cons hn .nil) } hbs
      next := by rw [h.next] }

theorem blockText_sh {e e' : Env} (he : EnvSh K e e') {b b' : Block} (h : BlockSh K b b') :
    Thus (fun _ _ => True) (blockText e b) (blockText e' b') := by
  unfold blockText
  split
  · rename_i h1
    rw [if_pos (by rw [h.start, h.stop]; exact ⟨K.mono _ _ h1.1, he.buf _ h1.2⟩)]
    exact .ok trivial
  · exact .err

theorem terminalText_sh {e e' : Env} (he : EnvSh K e e') {m m' : Mach} (h : MachSh K m m')
    {b b' : Block} (hb : BlockSh K b b') (k : Terminal) :
    Thus (fun t t' => k = .strbuf → t' = K.fill t) (terminalText e k m b) (terminalText e' k m' b') := by
  cases k with
  | plain => exact .ok fun hk => by cases hk
  | strbuf => exact .ok fun _ => h.strbuf
  | block => exact fun a ha => (blockText_sh he hb a ha).imp fun t ht => ⟨ht.1, fun hk => by cases hk⟩
  | trimmed =>
    unfold terminalText
    simp only
    cases h1 : blockText e b with
    | error c => exact .err
    | ok t =>
      obtain ⟨t', h2, -⟩ := blockText_sh he hb t h1
      rw [h2]
      exact .ok fun hk => by cases hk

theorem terminal_sh {e e' : Env} (he : EnvSh K e e') {m m' : Mach} (h : MachSh K m m')
    (c : Ctor) (k : Terminal) (hk : c.terminal = some k) :
    Thus (fun a b => MachSh K a.1 b.1 ∧ a.2 = b.2) (terminal e c k m) (terminal e' c k m') := by
  unfold terminal
  rcases h.prevCases with ⟨h1, h2⟩ | ⟨b, b', h1, h2, hbb⟩
  · simp only [h1]; exact .err
  · simp only [h1, h2]
    refine (terminalText_sh he h hbb k).bind fun t t' ht => ?_
    by_cases hn : b.children = []
    · simp only [ne_eq, hn, (nil_iff hbb.children).1 hn, not_true_eq_false, if_false]
      have hm : MachSh K { m with prev := none } { m' with prev := none } :=
        { h with prev := fun b hb => by cases hb }
      have hnode : NodeSh K (.mk m.next c [] [] [] t ⟨b.rstart, b.rstop⟩ [])
          (.mk m'.next c [] [] [] t' ⟨b'.rstart, b'.rstop⟩ []) := by
        rw [h.next]
        exact .mk (fun hc => ht (by rw [hk] at hc; exact Option.some.inj hc)) hbb.rstart hbb.rstop .nil
      refine (addChild_sh hm hnode).bind fun x y hxy => ?_
      exact .ok ⟨hxy, by rw [h.next]⟩
    · simp only [ne_eq, hn, not_false_eq_true, if_true]
      exact .err

theorem contains_sh {l l' : List Node} (h : Forall₂ (NodeSh K) l l') (r : Ref) :
    contains l r = contains l' r := by
  unfold contains
  induction h with
  | nil => rfl
  | cons hab _ ih => cases hab; simp only [List.any_cons, ih]; rfl

theorem argCheck_sh {l l' : List Node} (h : Forall₂ (NodeSh K) l l') (q : ArgReq) (a : Option Ref) :
    q.check l a = q.check l' a := by
  cases q <;> cases a <;> simp only [ArgReq.check, contains_sh h]

theorem childAll_sh {l l' : List Node} (h : Forall₂ (NodeSh K) l l') (v : List Ref) (t : AstType) :
    childAll l v t = childAll l' v t := by
  unfold childAll; rw [h.length_eq]

theorem agree_sh {l l' : List Node} (h : Forall₂ (NodeSh K) l l') (v : List Ref) :
    agreeSomewhere l v = agreeSomewhere l' v := by
  induction h generalizing v with
  | nil => cases v <;> rfl
  | cons hab _ ih =>
    cases v with
    | nil => rfl
    | cons r rs => cases hab; simp only [agreeSomewhere, ih]; rfl

theorem seqCheck_sh {l l' : List Node} (h : Forall₂ (NodeSh K) l l') (v : List Ref) (q : SeqReq) :
    q.check l v = q.check l' v := by
  cases q <;> simp only [SeqReq.check, childAll_sh h, agree_sh h]

theorem branch_sh {m m' : Mach} (h : MachSh K m m') (c : Ctor) (hc : c.terminal = none)
    (args : List (Option Ref)) :
    Thus (fun a b => MachSh K a.1 b.1 ∧ a.2 = b.2) (branch c args m) (branch c args m') := by
  unfold branch
  rcases h.prevCases with ⟨h1, h2⟩ | ⟨b, b', h1, h2, hbb⟩
  · simp only [h1]; exact .err
  · simp only [h1, h2]
    have ht : takeOps c b m.ops = takeOps c b' m'.ops := by
      rw [h.ops]; cases c <;> simp only [takeOps, hbb.seq]
    rw [ht]
    cases takeOps c b' m'.ops with
    | error x => exact .err
    | ok p =>
      obtain ⟨os, rest⟩ := p
      simp only [Bind.bind, Except.bind, argCheck_sh hbb.children, seqCheck_sh hbb.children, hbb.seq]
      split
      · exact .err
      · split
        · exact .err
        · exact .err
        · have hm : MachSh K { m with prev := none, ops := rest } { m' with prev := none, ops := rest } :=
            { h with prev := fun b hb => by cases hb
                     ops := rfl }
          have hnode : NodeSh K
              (.mk m.next c os args (if c.checks.2 = .none then [] else b'.seq) [] ⟨b.rstart, b.rstop⟩ b.children)
              (.mk m'.next c os args (if c.checks.2 = .none then [] else b'.seq) [] ⟨b'.rstart, b'.rstop⟩ b'.children) := by
            rw [h.next]
            exact .mk (fun h => by rw [hc] at h; cases h) hbb.rstart hbb.rstop hbb.children
          exact (addChild_sh hm hnode).bind fun x y hxy => .ok ⟨hxy, by rw [h.next]⟩

theorem build_sh {e e' : Env} (he : EnvSh K e e') {m m' : Mach} (h : MachSh K m m')
    (c : Ctor) (args : List (Option Ref)) :
    Thus (fun a b => MachSh K a.1 b.1 ∧ a.2 = b.2) (build e c args m) (build e' c args m') := by
  unfold build
  cases hc : c.terminal with
  | some k => exact terminal_sh he h c k hc
  | none => exact branch_sh h c hc args

theorem seqAdd_sh {m m' : Mach} (h : MachSh K m m') (v : Option Ref) :
    Thus (MachSh K) (m.seqAdd v) (m'.seqAdd v) := by
  unfold seqAdd
  rcases h.blocksCases with ⟨h1, h2⟩ | ⟨b, b', bs, bs', h1, h2, hbb, hbs⟩
  · simp only [h1]; exact .err
  · simp only [h1, h2]
    cases v with
    | none => exact .err
    | some r => exact .ok { h with blocks := .cons { hbb with seq := by rw [hbb.seq] } hbs }

theorem seqAdds_sh : ∀ (is : List Nat) {m m' : Mach}, MachSh K m m' →
    Thus (MachSh K) (m.seqAdds is) (m'.seqAdds is)
  | [], _, _, h => .ok h
  | i :: is, m, m', h => by
    unfold seqAdds
    rw [getVar_sh h i]
    exact (Thus.same (R := Eq) (fun _ => rfl) _).bind fun v _ hv => hv ▸
      (seqAdd_sh h v).bind fun x y hxy => seqAdds_sh is hxy

/-- Actions as `act`, giving up where the string buffer would hold more than the text of the hole, or
a text that contains the hole. -/
def vact (env : Env) (lim : Nat) (mark : List UInt8) (a : Act) (p : Nat) (m : Mach) :
    Except Crash Mach :=
  match a with
  | .sbAppend c =>
    if m.strbuf = mark ∨ m.strbuf ++ [c] = mark then .error .text
    else .ok { m with strbuf := m.strbuf ++ [c] }
  | .sbAppendBlock => match m.prev with
    | none => .error .noPrev
    | some b =>
      if b.stop ≤ lim ∨ lim < b.start then do
        let t ← blockText env b
        if m.strbuf = mark ∨ m.strbuf ++ t = mark then .error .text
        else .ok { m with strbuf := m.strbuf ++ t }
      else .error .text
  | .sbReset => .ok { m with strbuf := [] }
  | a => act env a p m

theorem act_sh {e e' : Env} (he : EnvSh K e e') (a : Act) (p : Nat) {m m' : Mach}
    (hk : K.mark ≠ []) (h : MachSh K m m') :
    Thus (MachSh K) (vact e K.lim K.mark a p m) (act e' a (K.φ p) m') := by
  have hbuild : ∀ c args i, Thus (MachSh K)
      (do let (m, r) ← build e c args m; m.setVar i (some r))
      (do let (m, r) ← build e' c args m'; m.setVar i (some r)) := fun c args i =>
    (build_sh he h c args).bind fun x y hxy => by
      obtain ⟨x1, x2⟩ := x; obtain ⟨y1, y2⟩ := y; obtain ⟨hx, rfl⟩ := hxy
      exact setVar_sh hx _ _
  cases a with
  | blockStart => exact blockStart_sh he h p
  | blockEnd => exact blockEnd_sh he h p
  | blockReplace => exact blockReplace_sh he h p
  | blockMerge => exact blockMerge_sh he h p
  | eof => exact .ok { h with eof := rfl }
  | result v =>
    cases v with
    | none => exact .ok { h with result := rfl }
    | some i =>
      unfold vact act; simp only [getVar_sh h i]
      exact (Thus.same (R := Eq) (fun _ => rfl) _).bind fun v _ hv => hv ▸ .ok { h with result := rfl }
  | finished =>
    unfold vact act
    simp only [h.errs, h.errs', List.reverse_nil, contexts]
    exact .ok { h with consumed := he.pos, errs := rfl, errs' := rfl }
  | seqAdd vs => exact seqAdds_sh vs h
  | copy i =>
    unfold vact act; simp only [getVar_sh h i]
    exact (Thus.same (R := Eq) (fun _ => rfl) _).bind fun v _ hv => hv ▸ .ok { h with self := rfl }
  | null => exact .ok { h with self := rfl }
  | build d c args =>
    unfold vact act; simp only [getArgs_sh h args]
    refine (Thus.same (R := Eq) (fun _ => rfl) _).bind fun v _ hv => hv ▸ ?_
    refine (build_sh he h c v).bind fun x y hxy => ?_
    obtain ⟨x1, x2⟩ := x; obtain ⟨y1, y2⟩ := y; obtain ⟨hx, rfl⟩ := hxy
    exact assign_sh hx _ _
  | aliasUnless q i =>
    unfold vact act; simp only [getVar_sh h q]
    refine (Thus.same (R := Eq) (fun _ => rfl) _).bind fun v _ hv => hv ▸ ?_
    cases v with
    | none => exact hbuild _ _ _
    | some r =>
      simp only
      split
      · exact .ok h
      · exact hbuild _ _ _
  | sbReset => exact .ok { h with strbuf := by simp [Look.fill, Ne.symm hk] }
  | sbAppend c =>
    unfold vact act
    simp only
    split
    · exact .err
    · rename_i hn
      refine .ok { h with strbuf := ?_ }
      have h1 := h.strbuf
      simp only [Look.fill, mt Or.inl hn, mt Or.inr hn, if_false] at h1 ⊢
      rw [h1]
  | sbAppendBlock =>
    unfold vact act
    simp only
    rcases h.prevCases with ⟨h1, h2⟩ | ⟨b, b', h1, h2, hbb⟩
    · simp only [h1]; exact .err
    · simp only [h1, h2]
      split
      · rename_i hlim
        unfold blockText
        split
        · rename_i hb
          rw [if_pos (by rw [hbb.start, hbb.stop]; exact ⟨K.mono _ _ hb.1, he.buf _ hb.2⟩),
            hbb.start, hbb.stop, he.text _ _ hb.1 hb.2 hlim]
          simp only [Bind.bind, Except.bind]
          split
          · exact .err
          · rename_i hn
            refine .ok { h with strbuf := ?_, prev := ⟨_, rfl, hbb⟩ }
            have h1 := h.strbuf
            simp only [Look.fill, mt Or.inl hn, mt Or.inr hn, if_false] at h1 ⊢
            rw [h1]
        · exact .err
      · exact .err
  | opPush o => exact .ok { h with ops := by rw [h.ops] }

end Mach

/-- The actions of a text with a hole. Those of the piece must start with an empty string buffer. -/
def Tmpl.exec (env : Env) (lim : Nat) (mark : List UInt8) : List VTh → Mach → Except Crash Mach
  | [], m => .ok m
  | t :: ts, m => do
    let m ← Tmpl.exec env lim mark ts m
    match t with
    | .th (.act a p) => Mach.vact env lim mark a p m
    | .th t => Mach.step env t m
    | .hole => match m.strbuf, m.prev, m.blocks with
      | [], none, _ :: _ => .ok { m with strbuf := mark }
      | _, _, _ => .error .text

theorem Mach.exec_app (e : Env) : ∀ (a b : List (Peg.Thunk Act)) (m : Mach),
    Mach.exec e (a ++ b) m = (Mach.exec e b m).bind (Mach.exec e a)
  | [], b, m => by cases h : Mach.exec e b m <;> simp [Mach.exec, Except.bind, h]
  | t :: a, b, m => by
    simp only [List.cons_append, Mach.exec, Mach.exec_app e a b m]
    cases Mach.exec e b m <;> rfl

theorem Tmpl.exec_sh {F : Piece} {T : Tmpl} {K : Look} (hφ : K.φ = F.at_ T) {e e' : Env}
    (he : EnvSh K e e') (hk : K.mark ≠ [])
    (hhole : ∀ m : Mach, m.strbuf = [] → (∀ b, m.prev = some b → b.children = []) → m.blocks ≠ [] →
      ∃ p, Mach.exec e' F.ts m = .ok { m with strbuf := K.text, prev := p } ∧
        ∀ b, p = some b → b.children = []) :
    ∀ (ts : List VTh) {m m' : Mach}, MachSh K m m' →
    Thus (MachSh K) (Tmpl.exec e K.lim K.mark ts m) (Mach.exec e' (F.thunks T ts) m')
  | [], _, _, h => .ok h
  | t :: ts, m, m', h => by
    have hx : F.thunks T (t :: ts) = F.thunk T t ++ F.thunks T ts := by simp [Piece.thunks]
    rw [hx, Mach.exec_app]
    refine (Tmpl.exec_sh hφ he hk hhole ts h).bind fun a b hab => ?_
    have one : ∀ u, Mach.exec e' [u] b = Mach.step e' u b := fun u => by
      simp only [Mach.exec, Bind.bind, Except.bind]
    cases t with
    | hole =>
      simp only [Piece.thunk]
      split
      · rename_i hs hp hb
        have hs' : b.strbuf = [] := by
          rw [hab.strbuf, hs, Look.fill, if_neg (Ne.symm hk)]
        have hp' : ∀ q, b.prev = some q → q.children = [] := by
          have := hab.prev
          rw [hp] at this
          exact this
        have hb' : b.blocks ≠ [] := by
          rcases hab.blocksCases with ⟨h1, -⟩ | ⟨_, _, _, _, -, h2, -⟩
          · rw [hb] at h1; cases h1
          · rw [h2]; exact List.cons_ne_nil _ _
        obtain ⟨p, hx, hp2⟩ := hhole b hs' hp' hb'
        rw [hx]
        exact .ok { hab with strbuf := by simp [Look.fill], prev := by rw [hp]; exact hp2 }
      · exact .err
    | th t =>
      cases t with
      | act x k =>
        simp only [Piece.thunk, one]
        rw [← hφ]
        exact Mach.act_sh he x k hk hab
      | push n =>
        simp only [Piece.thunk, one]
        exact .ok { hab with frames := by rw [hab.frames] }
      | pop n =>
        simp only [Piece.thunk, one, Mach.step, hab.frames]
        cases b.frames with
        | nil => exact .err
        | cons f fs => exact .ok { hab with frames := rfl }
      | set i =>
        simp only [Piece.thunk, one, Mach.step, hab.self]
        exact Mach.setVar_sh hab i _

end Verif.Cypher
