import Verif.Cypher.Abort
import Verif.Props.Memory
/-!
# C47: giving up

An allocation that fails while the grammar is matched or while an action runs makes the parser give up
(`abort_parse`). Parsing then should return -1, with everything that was allocated freed once.

In the code it never does: `parse_one` frees all blocks, the outermost among them, and `parse_each` frees that one
again (`abort_undefined`). Were that repaired, all would be freed once, wherever the parser gives up
(`abort_repaired_partial`), except in the two places that free or list a node that has two owners
(`sequence_abort_undefined`, `merge_abort_undefined`).
-/
namespace Verif
open Verif.Cypher Verif.Peg

variable {σ : Type}

/-! ## Where the parser may give up -/

/-- The contexts in which `parse_each` calls `parse_one` (parser.c:617-681), whatever the callback answers. -/
inductive Begun (S : Source σ) (src : σ) (cfg : Config) (only : Bool) : PCtx σ → Prop where
  | first : Begun S src cfg only (.init cfg src)
  | next {fuel : Nat} {c c' : PCtx σ} {stop : Pos} {top : Block} {bs : List Block} : Begun S src cfg only c →
    parseOne S fuel (bif only then .r_statement else .r_directive) c = some (.ok c') →
    inputPosition c'.st.off c'.st.lines c'.mach.consumed = .ok stop → c'.mach.blocks = top :: bs →
    Begun S src cfg only ⟨c'.reader, { c'.st with errs := c'.st.errs.clearErrors, off := stop, lines := [0] },
      { c'.mach with blocks := { top with children := [] } :: bs }⟩

/-- The thunk `t` is about to run in the state `m`: some part of the input was matched, and the thunks before `t` have
run (`yyDone`; the list has the latest first). -/
def Acting (S : Source σ) (only : Bool) (c : PCtx σ) (env : Env) (t : Peg.Thunk Act) (m : Mach) : Prop :=
  ∃ fuel s ts, run grammar (chost S) fuel (.nt (bif only then .r_statement else .r_directive) none)
      ⟨0, [], (c.reader, c.st)⟩ = some (.ok s) ∧
    env = ⟨s.g.2.off, s.g.2.lines, s.g.1.buf, s.pos⟩ ∧ t :: ts <:+ s.thunks ∧
    Mach.exec env ts { c.mach with result := none, eof := false, frames := [], errs := s.g.2.errs.errors } = .ok m

/-- What follows when the parser gives up in a state. -/
def andThen (repaired : Bool) (x : Except MemFault (Mach × Cells)) : Except MemFault Cells :=
  x >>= fun (m, h) => abortPath repaired m h

/-! ## The stack of blocks -/

theorem step_blocks {env : Env} {t : Peg.Thunk Act} {m m' : Mach} (h : Mach.step env t m = .ok m')
    (hb : m.blocks ≠ []) : m'.blocks ≠ [] := by
  have hbuild : ∀ {c args} {x : Mach × Ref}, Mach.build env c args m = .ok x → x.1.blocks ≠ [] := by
    intro c args x h
    obtain ⟨q, b, bs, n, -, -, -, -, -, e, -⟩ := build_inv h
    rw [e]; simp
  cases t with
  | push n => cases h; exact hb
  | pop n =>
    simp only [Mach.step] at h
    split at h
    · cases h
    · cases h; exact hb
  | set i => rw [(setVar_blocks h).1]; exact hb
  | act a p =>
    simp only [Mach.step] at h
    cases a with
    | eof => cases h; exact hb
    | result v => obtain ⟨r, rfl, -⟩ := result_inv h; exact hb
    | finished =>
      simp only [Mach.act] at h
      obtain ⟨v, -, h⟩ := bind_ok h
      cases h; exact hb
    | blockStart =>
      simp only [Mach.act, Mach.blockStart] at h
      obtain ⟨x, -, h⟩ := bind_ok h
      split at h
      · split at h
        · cases h
        · cases h; simp
      · cases h; simp
    | blockEnd =>
      simp only [Mach.act, Mach.blockEnd] at h
      obtain ⟨⟨c, cs⟩, hp, h⟩ := bind_ok h
      cases h
      obtain ⟨b0, b', bs', x, e1, e2, rfl, rfl, e3⟩ := blockPop_inv hp
      simp
    | blockReplace =>
      simp only [Mach.act, Mach.blockReplace] at h
      obtain ⟨⟨c, cs⟩, hp, h⟩ := bind_ok h
      cases h
      simp
    | blockMerge =>
      simp only [Mach.act, Mach.blockMerge] at h
      obtain ⟨⟨c, cs⟩, hp, h⟩ := bind_ok h
      obtain ⟨b0, b', bs', x, e1, e2, rfl, rfl, e3⟩ := blockPop_inv hp
      simp only at h
      split at h <;> cases h <;> simp
    | seqAdd vs =>
      obtain ⟨g1, g2, g3⟩ := seqAdds_blocks h
      rcases g3 with g3 | ⟨b', bs', s, g3, g4⟩
      · rw [g3]; exact hb
      · rw [g4]; simp
    | copy i =>
      simp only [Mach.act] at h
      obtain ⟨v, -, h⟩ := bind_ok h
      cases h; exact hb
    | null => cases h; exact hb
    | build d c args =>
      simp only [Mach.act] at h
      obtain ⟨vs, -, h⟩ := bind_ok h
      obtain ⟨x, h1, h⟩ := bind_ok h
      rw [(assign_blocks h).1]; exact hbuild h1
    | aliasUnless e i =>
      simp only [Mach.act] at h
      obtain ⟨v, -, h⟩ := bind_ok h
      split at h
      · split at h
        · cases h; exact hb
        · obtain ⟨x, h1, h⟩ := bind_ok h
          rw [(setVar_blocks h).1]; exact hbuild h1
      · obtain ⟨x, h1, h⟩ := bind_ok h
        rw [(setVar_blocks h).1]; exact hbuild h1
    | sbReset => cases h; exact hb
    | sbAppend c => cases h; exact hb
    | sbAppendBlock =>
      simp only [Mach.act] at h
      split at h
      · cases h
      · obtain ⟨t, -, h⟩ := bind_ok h
        cases h; exact hb
    | opPush o => cases h; exact hb

theorem exec_blocks {env : Env} {m0 : Mach} (hb : m0.blocks ≠ []) :
    ∀ {ts : List (Peg.Thunk Act)} {m : Mach}, Mach.exec env ts m0 = .ok m → m.blocks ≠ []
  | [], m, h => by cases h; exact hb
  | t :: ts, m, h => by
    unfold Mach.exec at h
    obtain ⟨m1, h1, h⟩ := bind_ok h
    exact step_blocks h (exec_blocks hb h1)

theorem Begun.mach {S : Source σ} {src : σ} {cfg : Config} {only : Bool} {c : PCtx σ}
    (h : Begun S src cfg only c) : c.mach.blocks ≠ [] ∧ c.mach.ids = [] := by
  cases h with
  | first => exact ⟨by simp [PCtx.init], rfl⟩
  | next h1 h2 h3 h4 =>
    obtain ⟨top, hb, hq, -⟩ := parseOne_grown h2
    rw [hb] at h4
    cases h4
    exact ⟨by simp, by simp [Mach.ids, hq, prevIds, blocksIds, Node.idss]⟩

theorem Acting.mach {S : Source σ} {src : σ} {cfg : Config} {only : Bool} {c : PCtx σ} {env : Env}
    {t : Peg.Thunk Act} {m : Mach} (hc : Begun S src cfg only c) (h : Acting S only c env t m) :
    m.blocks ≠ [] ∧ Numbered m := by
  obtain ⟨fuel, s, ts, -, -, -, h⟩ := h
  obtain ⟨h1, h2⟩ := hc.mach
  refine ⟨exec_blocks ?_ h, exec_numbered ⟨?_, ?_⟩ h⟩
  · exact h1
  · show c.mach.ids.Nodup
    rw [h2]; exact .nil
  · show ∀ i ∈ c.mach.ids, _
    rw [h2]; simp

/-! ## The code frees the outermost block twice -/

theorem abortPath_undefined {m : Mach} {h : Cells} (hb : m.blocks ≠ []) : ∃ f, abortPath false m h = .error f := by
  unfold abortPath
  cases e : oneFailure m h with
  | error f => exact ⟨f, rfl⟩
  | ok h1 =>
    unfold oneFailure at e
    obtain ⟨h2, e1, e⟩ := ebind_ok e
    have h0 : .block 0 ∉ h1 := fun hx => (popBlocks_sub e1).2.1 hb ((prevFree_sub e).1 hx)
    refine ⟨.useAfterFree, ?_⟩
    simp [eachCleanup, blockFree, loadCell, h0, Bind.bind, Except.bind]

theorem seqInterrupt_blocks {h : Cells} : ∀ {vs : List Nat} {m m' : Mach} {h' : Cells},
    .ok (m', h') ∈ m.seqInterrupt h vs → m.blocks ≠ [] → m'.blocks ≠ []
  | [], m, m', h', hx, _ => by simp [Mach.seqInterrupt] at hx
  | i :: is, m, m', h', hx, hb => by
    unfold Mach.seqInterrupt at hx
    split at hx
    · rename_i r hr
      rcases List.mem_cons.1 hx with hx | hx
      · split at hx
        · cases hx
        · obtain ⟨h1, -, e⟩ := ebind_ok hx.symm
          cases e; exact hb
      · split at hx
        · rename_i m1 h1
          refine seqInterrupt_blocks hx ?_
          unfold Mach.seqAdd at h1
          split at h1
          · cases h1
          · cases h1; simp
        · cases hx
    · cases hx

theorem buildInterrupt_blocks {env : Env} {c : Ctor} {args : List (Option Ref)} {m m' : Mach} {h h' : Cells}
    (hx : .ok (m', h') ∈ m.buildInterrupt env c args h) (hb : m.blocks ≠ []) : m'.blocks ≠ [] := by
  unfold Mach.buildInterrupt at hx
  rcases List.mem_cons.1 hx with hx | hx
  · split at hx
    · obtain ⟨h1, -, e⟩ := ebind_ok hx.symm
      cases e; exact hb
    · cases hx; exact hb
  · split at hx
    · cases hx
    · split at hx
      · cases hx
      · split at hx
        · cases hx
        · obtain ⟨h1, -, e⟩ := ebind_ok (List.mem_singleton.1 hx).symm
          obtain ⟨h2, -, e⟩ := ebind_ok e
          cases e; exact hb

theorem interrupt_blocks {env : Env} {t : Peg.Thunk Act} {m m' : Mach} {h h' : Cells}
    (hx : .ok (m', h') ∈ m.interrupt env t h) (hb : m.blocks ≠ []) : m'.blocks ≠ [] := by
  have hs : .ok (m', h') ∈ [(.ok (m, h) : Except MemFault (Mach × Cells))] → m'.blocks ≠ [] := fun hx => by
    cases List.mem_singleton.1 hx; exact hb
  cases t with
  | push n => exact hs hx
  | pop n => cases hx
  | set i => cases hx
  | act a p =>
    cases a with
    | blockStart => exact hs hx
    | finished => exact hs hx
    | sbAppend c => exact hs hx
    | sbAppendBlock => exact hs hx
    | opPush o => exact hs hx
    | blockReplace =>
      simp only [Mach.interrupt] at hx
      split at hx
      · cases hx
      · rename_i b bs hp
        obtain ⟨b0, b', bs', x, e1, e2, rfl, rfl, e3⟩ := blockPop_inv hp
        obtain ⟨h1, -, e⟩ := ebind_ok (List.mem_singleton.1 hx).symm
        cases e; simp
    | blockMerge =>
      simp only [Mach.interrupt] at hx
      split at hx
      · cases hx
      · split at hx
        · cases hx
        · obtain ⟨j, -, hx⟩ := List.mem_map.1 hx
          obtain ⟨h1, -, e⟩ := ebind_ok hx
          cases e; simp
    | seqAdd vs => exact seqInterrupt_blocks hx hb
    | build d c args =>
      simp only [Mach.interrupt] at hx
      split at hx
      · cases hx
      · exact buildInterrupt_blocks hx hb
    | aliasUnless e i =>
      simp only [Mach.interrupt] at hx
      exact buildInterrupt_blocks hx hb
    | _ => cases hx

/-- Whenever the parser gives up, on any input, whether while matching or at any point of any action, memory is
misused: what is allocated at that time does not matter. -/
theorem abort_undefined {S : Source σ} {src : σ} {cfg : Config} {only : Bool} {c : PCtx σ}
    (hc : Begun S src cfg only c) (h : Cells) :
    (∃ f, abortPath false c.mach h = .error f) ∧
    ∀ {env : Env} {t : Peg.Thunk Act} {m : Mach}, Acting S only c env t m →
      ∀ x ∈ m.interrupt env t h, ∃ f, andThen false x = .error f := by
  refine ⟨abortPath_undefined hc.mach.1, fun {env t m} ha x hx => ?_⟩
  cases x with
  | error f => exact ⟨f, rfl⟩
  | ok y =>
    obtain ⟨m', h'⟩ := y
    exact abortPath_undefined (interrupt_blocks hx (ha.mach hc).1)

/-! ## If the outermost block were freed once -/

/-- `h` is what the blocks of `m` own. -/
def Owned (m : Mach) (h : Cells) : Prop := ∀ c, c ∈ h ↔ c ∈ m.cells

theorem abortPath_repaired {m : Mach} {h : Cells} (hn : m.ids.Nodup) (ho : Owned m h) :
    abortPath true m h = .ok [] := by
  unfold abortPath
  rw [oneFailure_ok hn fun c hc => (ho c).2 hc]
  simp only [Bind.bind, Except.bind, if_true]
  refine congrArg _ (List.eq_nil_iff_forall_not_mem.2 fun c hc => ?_)
  obtain ⟨h1, h2⟩ := List.mem_filter.1 hc
  exact of_decide_eq_true h2 ((ho c).1 h1)

theorem prevFree_ok {k : Nat} {q : Option Block} {h : Cells} (hn : (prevIds q).Nodup)
    (hc : ∀ c ∈ prevCells k q, c ∈ h) : prevFree k q h = .ok (h.filter (· ∉ prevCells k q)) := by
  cases q with
  | none => simp [prevFree, prevCells, List.filter_eq_self.2]
  | some b =>
    exact blockFree_ok hn (fun c h => hc c (List.mem_cons_of_mem _ h)) (hc _ List.mem_cons_self)

/-- The closed block and the open ones have nothing in common. -/
theorem prevCells_disjoint {m : Mach} (hn : m.ids.Nodup) {c : Cell} (h : c ∈ prevCells m.blocks.length m.prev) :
    c ∉ blocksCells m.blocks := by
  intro h'
  unfold Mach.ids at hn
  obtain ⟨-, -, hn⟩ := List.nodup_append.1 hn
  cases hp : m.prev with
  | none => rw [hp] at h; cases h
  | some q =>
    rw [hp] at h hn
    rcases List.mem_cons.1 h with rfl | h
    · rcases blocksCells_owner h' with ⟨i, e, -⟩ | ⟨k, e1, e2⟩
      · cases e
      · cases e2; omega
    · obtain ⟨i, e1, e2⟩ := Node.cellss_owner h
      rcases blocksCells_owner h' with ⟨j, e3, e4⟩ | ⟨k, -, rfl⟩
      · rw [e1] at e3; cases e3
        exact hn i e2 i e4 rfl
      · cases e1

theorem buildInterrupt_repaired {env : Env} {c : Ctor} {args : List (Option Ref)} {m : Mach} {h : Cells}
    (hs : Numbered m) (ho : Owned m h) :
    ∀ x ∈ m.buildInterrupt env c args h, andThen true x = .ok [] := by
  intro x hx
  have hn := hs.nodup
  have hn' := hs.nodup
  unfold Mach.ids at hn'
  obtain ⟨n1, n2, n3⟩ := List.nodup_append.1 hn'
  have hfree : prevFree m.blocks.length m.prev h = .ok (h.filter (· ∉ prevCells m.blocks.length m.prev)) :=
    prevFree_ok n1 fun c hc => (ho c).2 (List.mem_append_left _ hc)
  have hdone : Owned { m with prev := none } (h.filter (· ∉ prevCells m.blocks.length m.prev)) := by
    intro c
    rw [List.mem_filter, ho c, decide_eq_true_eq]
    simp only [Mach.cells, List.mem_append, prevCells, List.nil_append]
    exact ⟨fun ⟨h1, h2⟩ => h1.resolve_left h2, fun h1 => ⟨.inr h1, fun h2 => prevCells_disjoint hn h2 h1⟩⟩
  have hids : ({ m with prev := none } : Mach).ids.Nodup := by
    simpa [Mach.ids, prevIds] using n2
  unfold Mach.buildInterrupt at hx
  rcases List.mem_cons.1 hx with rfl | hx
  · split
    · rw [hfree]
      exact abortPath_repaired hids hdone
    · exact abortPath_repaired hn ho
  · split at hx
    · cases hx
    · rename_i m' r hb
      obtain ⟨q, b, bs, n, e1, e2, e3, e4, e5, e6, e7, e8⟩ := build_inv hb
      simp only at e6
      rw [e6] at hx
      simp only [List.getLast?_append, List.getLast?_singleton, Option.some_or] at hx
      cases List.mem_singleton.1 hx
      have hnew : m.next ∉ m.ids := fun hi => Nat.lt_irrefl _ (hs.lt _ hi)
      have hq : ∀ c ∈ Node.cellss q.children, c ∈ h := fun c hc => (ho c).2
        (List.mem_append_left _ (by rw [e1]; exact List.mem_cons_of_mem _ hc))
      have hcells : ∀ c, c ∈ n.cells ↔ c = .node n.id ∨ c ∈ n.childrenPtr.toList ∨ c ∈ n.extraPtr.toList ∨
          c ∈ Node.cellss q.children := by
        intro c
        rw [← e4]
        obtain ⟨i, k, o, a, s, t, r, ch⟩ := n
        simp only [Node.cells, List.mem_cons, List.mem_append, Node.id, Node.children]
      have hblk : Cell.block m.blocks.length ∉ n.cells := fun hc => by
        obtain ⟨i, e, -⟩ := Node.cells_owner hc
        cases e
      have hin : Cell.block m.blocks.length ∈ h := (ho _).2 (List.mem_append_left _ (by rw [e1]; exact List.mem_cons_self))
      have hnn : n.ids.Nodup := by
        rw [Node.ids_eq, e3, e4]
        rw [e1] at n1
        refine List.nodup_cons.2 ⟨fun hi => hnew ?_, n1⟩
        unfold Mach.ids
        rw [e1]
        exact List.mem_append_left _ hi
      simp only [andThen]
      rw [freeCell_some (by simp [hin])]
      simp only [Bind.bind, Except.bind]
      rw [astFree_ok hnn]
      · simp only
        refine abortPath_repaired hids fun c => ?_
        rw [← hdone c]
        simp only [List.mem_filter, List.mem_cons, List.mem_append, decide_eq_true_eq, ne_eq, hcells c, e1, prevCells,
          not_or]
        constructor
        · rintro ⟨⟨h1, h2⟩, h3, h4, h5, h6⟩
          exact ⟨(((h1.resolve_left h3).resolve_left h4).resolve_left h5), h2, h6⟩
        · rintro ⟨h1, h2, h3⟩
          refine ⟨⟨.inr (.inr (.inr h1)), h2⟩, ?_, ?_, ?_, h3⟩
          all_goals
            intro hc
            have hown : c.owner = some m.next := by
              first
                | (rw [hc, ← e3]; rfl)
                | (rw [Node.childrenPtr_owner hc, ← e3]; rfl)
                | (rw [Node.extraPtr_owner hc, ← e3]; rfl)
            have hm := (ho c).1 h1
            simp only [Mach.cells, e1, prevCells, List.mem_append, List.mem_cons] at hm
            rcases hm with (rfl | hm) | hm
            · cases hown
            · exact h3 hm
            · rcases blocksCells_owner hm with ⟨i, g1, g2⟩ | ⟨k, -, rfl⟩
              · rw [hown] at g1; cases g1
                exact hnew (List.mem_append_right _ g2)
              · cases hown
      · intro c hc
        refine List.mem_filter.2 ⟨?_, decide_eq_true fun e => hblk (e ▸ hc)⟩
        simp only [List.mem_cons, List.mem_append]
        rcases (hcells c).1 hc with h1 | h1 | h1 | h1
        · exact .inl h1
        · exact .inr (.inl h1)
        · exact .inr (.inr (.inl h1))
        · exact .inr (.inr (.inr (hq c h1)))

/-- A closed block without children is freed, the innermost block is closed. -/
theorem blockPop_owned {env : Env} {p : Nat} {m : Mach} {b : Block} {bs : List Block} {h : Cells}
    (hp : Mach.blockPop env p m = .ok (b, bs)) (hn : m.ids.Nodup) (ho : Owned m h) :
    ∃ h', prevFree m.blocks.length m.prev h = .ok h' ∧ Owned { m with blocks := bs, prev := some b } h' ∧
      ({ m with blocks := bs, prev := some b } : Mach).ids.Nodup := by
  have hn' := hn
  unfold Mach.ids at hn'
  obtain ⟨n1, n2, n3⟩ := List.nodup_append.1 hn'
  refine ⟨_, prevFree_ok n1 fun c hc => (ho c).2 (List.mem_append_left _ hc), fun c => ?_, ?_⟩
  · obtain ⟨b0, b', bs', x, e1, e2, rfl, rfl, e3⟩ := blockPop_inv hp
    rw [List.mem_filter, ho c, decide_eq_true_eq]
    simp only [Mach.cells]
    have e : prevCells (b' :: bs').length (some { b0 with stop := p, rstop := x }) ++ blocksCells (b' :: bs') =
        blocksCells m.blocks := by rw [e1]; rfl
    rw [e, List.mem_append]
    exact ⟨fun ⟨h1, h2⟩ => h1.resolve_left h2, fun h1 => ⟨.inr h1, fun h2 => prevCells_disjoint hn h2 h1⟩⟩
  · obtain ⟨b0, b', bs', x, e1, e2, rfl, rfl, e3⟩ := blockPop_inv hp
    have e : ({ m with blocks := b' :: bs', prev := some { b0 with stop := p, rstop := x } } : Mach).ids =
        blocksIds m.blocks := by rw [e1]; rfl
    rw [e]; exact n2

/-- With `top_block` freed once, giving up frees everything once and leaves nothing, on any input, whether while
matching or at any point of any action, as long as what is allocated is what the blocks own. The full statement has
no exception: adding to a sequence and merging a block are excepted here, because the code fails in them
(`sequence_abort_undefined`, `merge_abort_undefined`). -/
theorem abort_repaired_partial {S : Source σ} {src : σ} {cfg : Config} {only : Bool} {c : PCtx σ}
    (hc : Begun S src cfg only c) :
    (∀ h, Owned c.mach h → abortPath true c.mach h = .ok []) ∧
    ∀ {env : Env} {t : Peg.Thunk Act} {m : Mach}, Acting S only c env t m → (∀ vs p, t ≠ .act (.seqAdd vs) p) →
      (∀ p, t ≠ .act .blockMerge p) → ∀ h, Owned m h → ∀ x ∈ m.interrupt env t h, andThen true x = .ok [] := by
  refine ⟨fun h ho => abortPath_repaired (by rw [hc.mach.2]; exact .nil) ho, ?_⟩
  intro env t m ha h1 h2 h ho x hx
  obtain ⟨hb, hs⟩ := ha.mach hc
  have same : x ∈ [(.ok (m, h) : Except MemFault (Mach × Cells))] → andThen true x = .ok [] := fun hx => by
    cases List.mem_singleton.1 hx; exact abortPath_repaired hs.nodup ho
  cases t with
  | push n => exact same hx
  | pop n => cases hx
  | set i => cases hx
  | act a p =>
    cases a with
    | blockStart => exact same hx
    | finished => exact same hx
    | sbAppend c => exact same hx
    | sbAppendBlock => exact same hx
    | opPush o => exact same hx
    | blockReplace =>
      simp only [Mach.interrupt] at hx
      split at hx
      · cases hx
      · rename_i b bs hp
        obtain ⟨h', e1, e2, e3⟩ := blockPop_owned hp hs.nodup ho
        rw [e1] at hx
        cases List.mem_singleton.1 hx
        exact abortPath_repaired e3 e2
    | blockMerge => exact absurd rfl (h2 p)
    | seqAdd vs => exact absurd rfl (h1 vs p)
    | build d c args =>
      simp only [Mach.interrupt] at hx
      split at hx
      · cases hx
      · exact buildInterrupt_repaired hs ho x hx
    | aliasUnless e i =>
      simp only [Mach.interrupt] at hx
      exact buildInterrupt_repaired hs ho x hx
    | _ => cases hx

/-- Memory is misused if one of the children of the open blocks is gone. -/
theorem oneFailure_gone {m : Mach} {h : Cells} {b : Block} {n : Node} (hb : b ∈ m.blocks) (hn : n ∈ b.children)
    (hg : .node n.id ∉ h) : ∃ f, abortPath true m h = .error f := by
  cases e : abortPath true m h with
  | error f => exact ⟨f, rfl⟩
  | ok h' =>
    unfold abortPath at e
    obtain ⟨h1, e1, e⟩ := ebind_ok e
    unfold oneFailure at e1
    obtain ⟨h2, e2, -⟩ := ebind_ok e1
    exact absurd ((popBlocks_sub e2).2.2 b hb n hn).1 hg

/-- `_sequence_add` frees a node that cannot be added to the sequence (parser.c:1065), but the node is also one of the
children of a block, and is freed with it. -/
theorem sequence_abort_undefined {h : Cells} : ∀ {vs : List Nat} {m : Mach},
    ∀ x ∈ m.seqInterrupt h vs, ∃ f, andThen true x = .error f
  | [], m, x, hx => by simp [Mach.seqInterrupt] at hx
  | i :: is, m, x, hx => by
    unfold Mach.seqInterrupt at hx
    split at hx
    · rename_i r hr
      rcases List.mem_cons.1 hx with rfl | hx
      · split
        · exact ⟨_, rfl⟩
        · rename_i n hp
          cases e : astFree n h with
          | error f => exact ⟨f, rfl⟩
          | ok h' =>
            have := List.mem_of_find?_eq_some hp
            obtain ⟨b, hb, hn⟩ := List.mem_flatMap.1 this
            exact oneFailure_gone hb hn (astFree_sub e).2
      · split at hx
        · exact sequence_abort_undefined x hx
        · cases hx
    · cases hx

/-- `block_merge_action` moves the children one by one, and forgets the moved ones only in the end (parser.c:972-979):
if a child cannot be added, those before it have two owners, and are freed twice. Without any before it, all is
freed once. -/
theorem merge_abort_undefined {env : Env} {p j : Nat} {m : Mach} {h : Cells} {x : Except MemFault (Mach × Cells)}
    (hx : (m.interrupt env (.act .blockMerge p) h)[j]? = some x) :
    (0 < j → ∃ f, andThen true x = .error f) ∧ (j = 0 → m.ids.Nodup → Owned m h → andThen true x = .ok []) := by
  simp only [Mach.interrupt] at hx
  split at hx
  · simp at hx
  · rename_i b bs hp
    split at hx
    · simp at hx
    · rename_i q qs
      rw [List.getElem?_map] at hx
      obtain ⟨i, hi, rfl⟩ := Option.map_eq_some_iff.1 hx
      obtain ⟨hj, rfl⟩ := List.getElem?_eq_some_iff.1 hi
      simp only [List.length_range] at hj
      rw [List.getElem_range]
      refine ⟨fun h0 => ?_, fun h0 hn ho => ?_⟩
      · cases e : prevFree m.blocks.length m.prev h with
        | error f => exact ⟨f, rfl⟩
        | ok h1 =>
          simp only [andThen, Bind.bind, Except.bind]
          generalize hm : ({ m with
            blocks := { q with children := q.children ++ b.children.take j } :: qs
            prev := some b } : Mach) = m1
          cases e2 : abortPath true m1 h1 with
          | error f => exact ⟨f, rfl⟩
          | ok h2 =>
            exfalso
            unfold abortPath at e2
            obtain ⟨h3, e3, -⟩ := ebind_ok e2
            unfold oneFailure at e3
            obtain ⟨h4, e4, e3⟩ := ebind_ok e3
            have hm1 : m1.prev = some b := by rw [← hm]
            have hm2 : m1.blocks = { q with children := q.children ++ b.children.take j } :: qs := by rw [← hm]
            cases hch : b.children with
            | nil => rw [hch] at hj; simp at hj
            | cons n ns =>
              refine ((popBlocks_sub e4).2.2 { q with children := q.children ++ b.children.take j } (by rw [hm2]; simp) n
                ?_).2 ((prevFree_sub e3).2 b hm1 n (by rw [hch]; simp))
              obtain ⟨j', rfl⟩ : ∃ j', j = j' + 1 := ⟨j - 1, by omega⟩
              simp [hch]
      · subst h0
        obtain ⟨h', e1, e2, e3⟩ := blockPop_owned hp hn ho
        rw [e1]
        simp only [andThen, Bind.bind, Except.bind, List.take_zero, List.append_nil]
        exact abortPath_repaired e3 e2

/-! ## Examples -/

/-- The points at which the parser may give up in the first call of `parse_one`: for each whether the code and the
repaired code free everything once. -/
def abortsOf (src : List UInt8) (only : Bool) (fuel : Nat) : List (Bool × Bool) :=
  let c := PCtx.init plainCfg src
  match run grammar (chost streamSource) fuel (.nt (bif only then .r_statement else .r_directive) none)
      ⟨0, [], (c.reader, c.st)⟩ with
  | some (.ok s) =>
    let env : Env := ⟨s.g.2.off, s.g.2.lines, s.g.1.buf, s.pos⟩
    s.thunks.tails.flatMap fun l =>
      match l with
      | [] => []
      | t :: ts =>
        match Mach.exec env ts { c.mach with result := none, eof := false, frames := [], errs := s.g.2.errs.errors } with
        | .ok m => (m.interrupt env t m.cells).map fun x =>
            (decide (andThen false x = .ok []), decide (andThen true x = .ok []))
        | .error _ => []
  | _ => []

/-- There are such points: 39 in this text. The code frees everything once in none of them, the repaired code in all
but three: adding the projection and the clause to their sequences, and merging the block of `a AS b` once `a` was
moved. -/
example : let l := abortsOf (ascii "RETURN a AS b;") false 300
    (l.length, (l.filter (·.1)).length, (l.filter (!·.2)).length) = (39, 0, 3) := by decide +kernel

/-- Nothing was allocated for nodes yet, but the outermost block is freed twice. -/
example : abortPath false (PCtx.init plainCfg (ascii "x")).mach (PCtx.init plainCfg (ascii "x")).mach.cells =
    .error .useAfterFree := by decide

/-- Two open blocks with a node in each, and a closed one: all is freed once if the outermost block is. -/
example :
    let n := fun i => Node.mk i .trueLiteral [] [] [] [] ⟨⟨1, 1, 0⟩, ⟨1, 5, 4⟩⟩ []
    let b := fun i => Block.mk 0 4 ⟨1, 1, 0⟩ ⟨1, 5, 4⟩ [] [n i]
    let m := { (PCtx.init plainCfg (ascii "x")).mach with blocks := [b 0, b 1], prev := some (b 2) }
    m.cells.length = 6 ∧ abortPath true m m.cells = .ok [] ∧ abortPath false m m.cells = .error .useAfterFree := by
  decide

end Verif
