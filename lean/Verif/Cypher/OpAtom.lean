import Verif.Cypher.OpState
/-!
# Operands without operators

The rules of `atom` (parser.leg:463-487) other than parentheses each make one node, for the text from
where the rule began.
-/
namespace Verif.Cypher
open Verif.Peg Verif.Ops

section
variable {w : List UInt8} {n : Nat} {e t : E} {p p' : Nat} {q q' : QState} {res : SkRes}
  {ts : List (Peg.Thunk Act)} {env : Env} {m m' : Mach} {b : Block} {bs : List Block}

/-- What a rule for an expression does: it adds nodes to the innermost block, and `$$` is the one of
them that is the expression. -/
def Yields (env : Env) (w : List UInt8) (t : Tree) (p p' : Nat) (ts : List (Peg.Thunk Act)) : Prop :=
  ∀ m m' b bs, m.blocks = b :: bs → Idle env m → Fine env w m → Mach.exec env ts m = .ok m' →
    ∃ d N, m'.blocks = { b with children := b.children ++ d } :: bs ∧ m'.frames = m.frames ∧
      m'.ops = m.ops ∧ Idle env m' ∧ Fine env w m' ∧ N ∈ d ∧ m'.self = some N.ref ∧
      Is w env.off.offset N t p p'

/-- A node that is no operator, for the text from `p`. -/
def Anchored (env : Env) (b : Block) (bs : List Block) (p p' : Nat) (m : Mach) : Prop :=
  ∃ d N k, m.blocks = { b with children := b.children ++ d } :: bs ∧ N ∈ d ∧ m.self = some (Node.ref N) ∧
    isOperator N.ctor = false ∧ Covers env.off.offset N p k ∧ p ≤ k ∧ k ≤ p' ∧ Idle env m

/-- The end: the node, and blanks. -/
def finE : E → Bool
  | .act (.build .self c _) => !isOperator c
  | .seq (.act (.build .self c _)) (.nt .r_ws none) => !isOperator c
  | _ => false

/-- The block, and the end. -/
def inE : E → Abs → Bool
  | .seq a t, A =>
    (match a with
      | .pred .blockEnd => A.blks.length == 1 && A.prev.isClean && finE t
      | .nt .r__block_merge_ none => A.blks.length == 1 && A.prev.isClean && finE t
      | _ => false) ||
    match tr lax sumT a A with
    | some (some B) => inE t B
    | _ => false
  | _, _ => false

/-- A rule of one block. -/
def startsE (k : Nat) : E → Bool
  | .onfail t _ => startsE k t
  | .alt a b => startsE k a && startsE k b
  | .seq (.act .sbReset) t => startsE k t
  | .seq (.pred .blockStart) t => inE t (.init k)
  | .seq (.nt .r__block_start_ none) t => inE t (.init k)
  | .seq (.alt a b) (.nt .r_ws none) => startsE k a && startsE k b
  | _ => false

/-- The rules of `atom` other than parentheses and paths. -/
def atoms : List Rule :=
  [.r_true_literal, .r_false_literal, .r_null_literal, .r_string_literal, .r_float_literal,
    .r_integer_literal, .r_list_comprehension, .r_pattern_comprehension, .r_collection_literal,
    .r_parameter, .r_map_literal, .r_case_expression, .r_filter_expression, .r_extract_expression,
    .r_reduce_expression, .r_all_predicate, .r_any_predicate, .r_none_predicate, .r_single_predicate,
    .r_shortest_path_pattern, .r_pattern_expression_path, .r_function_application, .r_identifier]

theorem atoms_ok : ∀ r ∈ atoms, startsE (grammar r).nvars (grammar r).body = true := by decide +kernel

theorem ws_call (he : EnvOk env) (h : SkN w n (.nt .r_ws none) p q (.ok p' ts q')) (hl : p' ≤ env.buf.length)
    (hb : m.blocks = b :: bs) (hm : Idle env m) (hx : Mach.exec env ts m = .ok m') :
    ∃ d, m'.blocks = { b with children := b.children ++ d } :: bs ∧ m'.frames = m.frames ∧ m'.ops = m.ops ∧
      Idle env m' ∧ m'.self = m.self := by
  obtain ⟨⟨d, xs, hc⟩, s, hs, hk⟩ := call_at (k := 0) (by decide +kernel) h he hl hb hm hx
  have hself : ∀ s, sumT .r_ws = some s → s.self = .keep := by decide +kernel
  have : xs = [] := List.length_eq_zero_iff.1 hc.len
  subst this
  exact ⟨d, hc.blocks, hc.frames, hc.ops, hc.ready, hk (hself s hs)⟩

theorem Anchored.ws {k : Nat} (he : EnvOk env) (hl : p' ≤ env.buf.length)
    (h : SkN w n (.nt .r_ws none) k q (.ok p' ts q')) (ha : Anchored env b bs p k m)
    (hx : Mach.exec env ts m = .ok m') : Anchored env b bs p p' m' := by
  obtain ⟨d, N, j, h1, h2, h3, h4, h5, h6, h7, hm⟩ := ha
  obtain ⟨d', g1, -, -, g3, g2⟩ := ws_call he h hl h1 hm hx
  exact ⟨d ++ d', N, j, by rw [g1]; simp, by simp [h2], g2.trans h3, h4, h5, h6, Nat.le_trans h7 h.le, g3⟩

/-- The block is closed; the builder and blanks are left. -/
theorem close_ok {k : Nat} (he : EnvOk env) (ht : finE t = true) (h : SkN w n t k q (.ok p' ts q'))
    (hl : p' ≤ env.buf.length) {d : List Node} {x : Block} {i : Nat} (hik : i ≤ k)
    (hb : m.blocks = { b with children := b.children ++ d } :: bs) (hp : m.prev = some x)
    (hx1 : Located env x.rstart i) (hx2 : Located env x.rstop k) (herr : ErrsOk env m.errs)
    (hx : Mach.exec env ts m = .ok m') : Anchored env b bs i p' m' := by
  have build : ∀ {c : Ctor} {args m1}, isOperator c = false →
      Mach.step env (.act (.build .self c args) k) m = .ok m1 → Anchored env b bs i k m1 := by
    intro c args m1 hc h1
    simp only [Mach.step, Mach.act] at h1
    obtain ⟨vs, hv, h1⟩ := bind_ok h1
    obtain ⟨X, hX, h1⟩ := bind_ok h1
    obtain ⟨kb, b0, bs0, N, g1, g2, g3, g4, g5, g6, g7, -, -⟩ := build_full hX
    rw [hp] at g1; cases g1
    rw [hb] at g2; cases g2
    cases h1
    rw [g7]
    refine ⟨d ++ [N], N, k, by simp, by simp, by rw [g4], by rw [g3]; exact hc, ?_, hik, Nat.le_refl _, ?_, ?_⟩
    · rw [Covers, g5]
      exact ⟨by rw [hx1.offset]; exact Nat.add_comm _ _, by rw [hx2.offset]; exact Nat.add_comm _ _⟩
    · intro b hb; cases hb
    · exact herr
  unfold finE at ht
  split at ht
  · rename_i c args
    obtain ⟨rfl, rfl, -⟩ := h.act'
    exact build (by simpa using ht) (exec_one hx)
  · rename_i c args
    obtain ⟨p1, us, q1, vs, h1, h2, rfl⟩ := h.seq
    obtain ⟨rfl, rfl, -⟩ := h1.act'
    obtain ⟨m1, hx1', hx2'⟩ := exec_app hx
    exact (build (by simpa using ht) (exec_one hx1')).ws he hl h2 hx2'
  · cases ht

/-- Inside the block. -/
theorem in_ok (he : EnvOk env) {m0 : Mach} {x : Pos} {i : Nat} (hm0 : m0.blocks = ⟨i, i, x, x, [], []⟩ :: b :: bs)
    (hxi : Located env x i) : ∀ (e : E) {A : Abs} {p q ts q' m}, inE e A = true →
      SkN w n e p q (.ok p' ts q') → p' ≤ env.buf.length → i ≤ p → G env m0 A p m →
      Mach.exec env ts m = .ok m' → Anchored env b bs i p' m' := by
  intro e
  induction e with
  | seq a t _ iht =>
    intro A p q ts q' m ha h hl hi hg hx
    obtain ⟨p1, us, q1, vs, h1, h2, rfl⟩ := h.seq
    obtain ⟨m1, hx1, hx2⟩ := exec_app hx
    have hle1 := h1.le
    have hle2 := h2.le
    simp only [inE, Bool.or_eq_true] at ha
    have shape : A.blks.length = 1 → A.prev.isClean = true → ∃ d : Delta,
        m.blocks = ⟨i, i, x, x, d.2, d.1⟩ :: b :: bs ∧ ErrsOk env m.errs := by
      intro hA hc
      obtain ⟨b0, rest, D, xs, hg⟩ := hg
      have hen := hg.entry
      rw [hm0] at hen
      cases hen
      have hst := hg.blks
      match hbk : A.blks, hA with
      | [a], _ =>
        rw [hbk] at hst
        obtain ⟨d, -, -, hB⟩ := hst
        exact ⟨d, by rw [hB]; simp, hg.errs⟩
    rcases ha with ha | ha
    · split at ha
      · simp only [Bool.and_eq_true, beq_iff_eq] at ha
        obtain ⟨d, hB, herr⟩ := shape ha.1.1 ha.1.2
        obtain ⟨rfl, rfl, -⟩ := h1.pred
        have hx1 := exec_one hx1
        simp only [Mach.step, Mach.act, Mach.blockEnd] at hx1
        obtain ⟨⟨c, cs⟩, hp, hx1⟩ := bind_ok hx1
        cases hx1
        obtain ⟨k, k', ks, y, e1, e2, rfl, rfl, -⟩ := blockPop_inv hp
        rw [hB] at e1
        cases e1
        exact close_ok (d := []) he ha.2 h2 hl hi (by simp) rfl hxi e2 (by exact herr) hx2
      · simp only [Bool.and_eq_true, beq_iff_eq] at ha
        obtain ⟨d, hB, herr⟩ := shape ha.1.1 ha.1.2
        obtain ⟨k, us', -, h3, rfl⟩ := h1.nt
        change SkN w k (.pred .blockMerge) _ _ _ at h3
        obtain ⟨rfl, rfl, -⟩ := h3.pred
        change Mach.exec env [.act .blockMerge _] m = .ok m1 at hx1
        have hx1 := exec_one hx1
        simp only [Mach.step, Mach.act, Mach.blockMerge] at hx1
        obtain ⟨⟨c, cs⟩, hp, hx1⟩ := bind_ok hx1
        obtain ⟨k, k', ks, y, e1, e2, rfl, rfl, -⟩ := blockPop_inv hp
        rw [hB] at e1
        cases e1
        simp only at hx1
        split at hx1
        · cases hx1
          exact close_ok (d := []) he ha.2 h2 hl hi (by simp) rfl hxi e2 (by exact herr) hx2
        · cases hx1
          exact close_ok (d := d.1) he ha.2 h2 hl hi rfl rfl hxi e2 (by exact herr) hx2
      · cases ha
    · split at ha
      · rename_i B htr
        exact iht ha h2 hl (by omega) (h1.runs htr he (by omega) hg hx1) hx2
      · cases ha
  | _ => intro A p q ts q' m ha; cases ha

/-- The state after the variables have been pushed. -/
def Entered (F : List (List (Option (Option Ref)))) (k : Nat) (m : Mach) : Prop :=
  m.frames = if k = 0 then F else List.replicate k none :: F

theorem open_ok (he : EnvOk env) {F : List (List (Option (Option Ref)))} {k : Nat} (ht : inE t (.init k) = true)
    (h : SkN w n t p q (.ok p' ts q')) (hl : p' ≤ env.buf.length) (hb : m.blocks = b :: bs)
    (hm : Idle env m) (hk : Entered F k m) {m1 : Mach} (h1 : Mach.exec env [.act .blockStart p] m = .ok m1)
    (hx : Mach.exec env ts m1 = .ok m') : Anchored env b bs p p' m' := by
  have h1 := exec_one h1
  simp only [Mach.step, Mach.act] at h1
  obtain ⟨x, hxp, rfl⟩ := blockStart_inv h1
  have := enter_sound (env := env) (p := p)
    (m := { m with blocks := ⟨p, p, x, x, [], []⟩ :: m.blocks, prev := none, frames := F })
    rfl (by intro b hb; cases hb) hm.errs k
  obtain ⟨m2, g1, g2⟩ := this
  have hm2 := enter_same g1
  have : m2 = { m with blocks := ⟨p, p, x, x, [], []⟩ :: m.blocks, prev := none } := by
    rw [hm2]
    simp only
    rw [← show m.frames = _ from hk]
  rw [this] at g2
  refine in_ok he (m0 := { m with blocks := ⟨p, p, x, x, [], []⟩ :: m.blocks, prev := none, frames := F })
    (by rw [hb]) hxp t ht h hl (Nat.le_refl _) g2 hx

theorem starts_ok (he : EnvOk env) {F : List (List (Option (Option Ref)))} {k : Nat} : ∀ (e : E) {p q p' ts q' m m'},
    startsE k e = true → SkN w n e p q (.ok p' ts q') → p' ≤ env.buf.length → Mach.blocks m = b :: bs →
      Idle env m → Entered F k m → Mach.exec env ts m = .ok m' →
      Anchored env b bs p p' m' := by
  intro e
  induction e with
  | onfail a x iha =>
    intro p q p' ts q' m m' ha h hl hb hm hk hx
    exact iha ha h.onfail hl hb hm hk hx
  | alt a c iha ihc =>
    intro p q p' ts q' m m' ha h hl hb hm hk hx
    simp only [startsE, Bool.and_eq_true] at ha
    rcases h.alt with h | ⟨q1, -, h⟩
    · exact iha ha.1 h hl hb hm hk hx
    · exact ihc ha.2 h hl hb hm hk hx
  | seq a t iha iht =>
    intro p q p' ts q' m m' ha h hl hb hm hk hx
    obtain ⟨p1, us, q1, vs, h1, h2, rfl⟩ := h.seq
    obtain ⟨m1, hx1, hx2⟩ := exec_app hx
    unfold startsE at ha
    split at ha <;> try (rename_i heq; cases heq; done)
    · rename_i heq
      cases heq
      obtain ⟨rfl, rfl, -⟩ := h1.act'
      have hx1 := exec_one hx1
      simp only [Mach.step, Mach.act] at hx1
      cases hx1
      exact iht (m := { m with strbuf := [] }) ha h2 hl hb ⟨hm.clean, hm.errs⟩ hk hx2
    · rename_i heq
      cases heq
      obtain ⟨rfl, rfl, -⟩ := h1.pred
      exact open_ok he ha h2 hl hb hm hk hx1 hx2
    · rename_i heq
      cases heq
      obtain ⟨k', us', -, h3, rfl⟩ := h1.nt
      change SkN w k' (.pred .blockStart) _ _ _ at h3
      obtain ⟨rfl, rfl, -⟩ := h3.pred
      exact open_ok he ha h2 hl hb hm hk hx1 hx2
    · rename_i c d heq
      cases heq
      exact (iha (p' := p1) ha h1 (Nat.le_trans h2.le hl) hb hm hk hx1).ws he hl h2 hx2
    · cases ha
  | _ => intro p q p' ts q' m m' ha; cases ha

/-- A rule of one block, called. -/
theorem atom_anchored (he : EnvOk env) {r : Rule} (hr : r ∈ atoms) (h : SkN w n (.nt r none) p q (.ok p' ts q'))
    (hl : p' ≤ env.buf.length) (hb : m.blocks = b :: bs) (hm : Idle env m)
    (hx : Mach.exec env ts m = .ok m') : Anchored env b bs p p' m' := by
  obtain ⟨k, us, hk, h1, rfl⟩ := h.nt
  obtain ⟨m3, hx, hx4⟩ := exec_app hx
  obtain ⟨m2, hx, hx3⟩ := exec_app hx
  obtain ⟨m1, hx1, hx2⟩ := exec_app hx
  cases hx4
  have hm1 := enter_same hx1
  subst hm1
  obtain ⟨d, N, j, g1, g2, g3, g4, g5, g6, g7, g8⟩ := starts_ok he (F := m.frames) _ (atoms_ok r hr) h1 hl
    (m := { m with frames := if (grammar r).nvars = 0 then m.frames else
      List.replicate (grammar r).nvars none :: m.frames }) hb ⟨hm.clean, hm.errs⟩ rfl hx2
  have hs := leave_same hx3
  have herr : m'.errs = m2.errs := by
    unfold leaveT at hx3
    split at hx3
    · cases hx3; rfl
    · have h := exec_one hx3
      simp only [Mach.step] at h
      split at h
      · cases h
      · cases h; rfl
  exact ⟨d, N, j, hs.1.trans g1, g2, hs.2.2.1.trans g3, g4, g5, g6, g7,
    by rw [hs.2.1]; exact g8.clean, by rw [herr]; exact g8.errs⟩

/-- Such a rule yields an operand without operators. -/
theorem atom_yields (he : EnvOk env) (hn : NodesOk env w n) {r : Rule} (hr : r ∈ atoms)
    (h : SkN w n (.nt r none) p q (.ok p' ts q')) (hl : p' ≤ env.buf.length) :
    Yields env w .atom p p' ts := by
  intro m m' b bs hb hm hf hx
  have h0 : callOk r 0 = true ∧ r ≠ .r__expression := by
    have : ∀ r ∈ atoms, callOk r 0 = true ∧ r ≠ .r__expression := by decide +kernel
    exact this r hr
  obtain ⟨⟨d', xs, hc⟩, -⟩ := call_at h0.1 h he hl hb hm hx
  obtain ⟨d, N, j, g1, g2, g3, g4, g5, g6, g7, g8⟩ := atom_anchored he hr h hl hb hm hx
  have : xs = [] := List.length_eq_zero_iff.1 hc.len
  subst this
  exact ⟨d, N, g1, hc.frames, hc.ops, hc.ready, hn h0.2 h hl hb hm hf hx, g2, g3, .atom g4 g5 g6 g7⟩

end
end Verif.Cypher
