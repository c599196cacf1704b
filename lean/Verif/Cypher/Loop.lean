import Verif.Cypher.Step
/-!
# The whole parse

`SegOk` says what a segment is in terms of the bytes it was read from; `Session` is the calling
protocol of `cypher_parse_each`.  `parseEach_session` shows that the parser, fed by any source that
delivers the bytes, makes such a session.
-/
namespace Verif.Cypher
open Verif.Peg

variable {σ κ : Type}

/-! ## What a segment is -/

/-- A node between two offsets, everything below it between its own ends, siblings ending in order. -/
inductive Within : Nat → Nat → Node → Prop
  | mk {lo hi : Nat} {n : Node} : lo ≤ n.range.start.offset →
      n.range.start.offset ≤ n.range.stop.offset → n.range.stop.offset ≤ hi → InOrder n.children →
      (∀ c ∈ n.children, Within n.range.start.offset n.range.stop.offset c) → Within lo hi n

/-- The node's ends are positions in the first `n` bytes of the text `w` that starts at `off`. -/
def PlacedIn (w : List UInt8) (off : Pos) (n : Nat) (x : Node) : Prop :=
  ∃ i j, i ≤ j ∧ j ≤ n ∧ x.range.start = off.after (w.take i) ∧ x.range.stop = off.after (w.take j)

/-- An error of a segment that starts at `off` with the text `w` before it, of which `buf` had been
read. -/
structure ErrOk (color : Colorization) (w : List UInt8) (off : Pos) (buf : List UInt8) (e : PErr) : Prop where
  lo : off.offset ≤ e.position.offset
  hi : e.position.offset ≤ off.offset + buf.length
  context : e.context.isSome = true ∧
    lineContext buf (e.position.offset - off.offset) 80 = .ok e.context
  located : 96 ∉ w → ∃ q ≤ w.length, ∃ labels, labels ≠ [] ∧ e.position = off.after (w.take q) ∧
    e.msg = messageSpec color (w[q]?.getD 0) labels

/-- A segment read from the first `n` bytes of `w`, starting at `off`. -/
structure SegOk (only : Bool) (color : Colorization) (w : List UInt8) (off : Pos) (n : Nat) (seg : PSeg) :
    Prop where
  pos : 0 < n
  len : n ≤ w.length
  start : seg.range.start = off
  stop : seg.range.stop.offset = off.offset + n
  exact : 96 ∉ w → seg.range.stop = off.after (w.take n)
  eof : seg.eof = true → n = w.length
  ending : seg.eof = false → w[n - 1]? = some 59 ∨ (only = false ∧ w[n - 1]? = some 10)
  typed : ∀ x ∈ seg.roots, WellTyped x
  directive : ∀ r, seg.directive = some r → (∃ x ∈ seg.roots, x.ref = r) ∧
    (r.ty = .statement ∨ (only = false ∧ r.ty = .command))
  within : ∀ x ∈ seg.roots, Within off.offset (off.offset + n) x
  order : InOrder seg.roots
  placed : 96 ∉ w → ∀ x ∈ seg.roots, Everywhere (PlacedIn w off n) x
  texts : ∀ x ∈ seg.roots, Everywhere (Written w off.offset) x
  operators : ∀ x ∈ seg.roots, Everywhere (Ops.OperatorOk w off.offset) x
  fields : ∀ x ∈ seg.roots, Everywhere Exact x
  ids : (Node.idss seg.roots).Nodup
  errors : ∃ buf rest, w = buf ++ rest ∧ n ≤ buf.length ∧ ∀ e ∈ seg.errors, ErrOk color w off buf e
  sorted : 96 ∉ w → seg.errors.Pairwise fun a b => a.position.offset < b.position.offset

/-- `parse_each` from the text `w` on: what is left is read, segment by segment, and the callback is
called until there is nothing left or it says to stop. -/
inductive Session (only single : Bool) (color : Colorization) (cb : κ → PSeg → Int × κ) :
    List UInt8 → Pos → Nat → Option Pos → κ → Ret κ → Prop
  | nothing {off ordinal last k} : Session only single color cb [] off ordinal last k (0, last, k)
  | stopped {w off n ordinal last k seg err k'} : SegOk only color w off n seg → seg.ordinal = ordinal →
      cb k seg = (err, k') → 0 < err →
      Session only single color cb w off ordinal last k (0, some seg.range.stop, k')
  | failed {w off n ordinal last k seg err k'} : SegOk only color w off n seg → seg.ordinal = ordinal →
      cb k seg = (err, k') → err < 0 →
      Session only single color cb w off ordinal last k (err, some seg.range.stop, k')
  | done {w off n ordinal last k seg k'} : SegOk only color w off n seg → seg.ordinal = ordinal →
      cb k seg = (0, k') → (seg.eof || single) = true →
      Session only single color cb w off ordinal last k (0, some seg.range.stop, k')
  | next {w off n ordinal last k seg k' ret} : SegOk only color w off n seg → seg.ordinal = ordinal →
      cb k seg = (0, k') → (seg.eof || single) = false →
      Session only single color cb (w.drop n) seg.range.stop (ordinal + seg.toSegment.nnodes)
        (some seg.range.stop) k' ret →
      Session only single color cb w off ordinal last k ret

/-! ## From one call to a segment -/

theorem Spans.within {env : Env} {lo hi : Nat} {n : Node} (h : Spans env lo hi n) :
    Within (lo + env.off.offset) (hi + env.off.offset) n := by
  induction h with
  | @mk lo hi i j n h1 h2 h3 h4 h5 h6 h7 ih =>
    have e1 := h4.offset
    have e2 := h5.offset
    refine .mk (by omega) (by omega) (by omega) h6 fun c hc => ?_
    rw [e1, e2]; exact ih c hc

theorem Spans.placed {env : Env} {w : List UInt8} {n lo hi : Nat} {x : Node} (hl : LInv w n env.lines)
    (hn : n ≤ w.length) (h : Spans env lo hi x) :
    hi ≤ n → Everywhere (PlacedIn w env.off n) x := by
  induction h with
  | @mk lo hi i j x h1 h2 h3 h4 h5 h6 h7 ih =>
    intro hle
    refine .mk ⟨i, j, h2, by omega, ?_, ?_⟩ fun c hc => ih c hc (by omega)
    · unfold Located at h4
      rw [inputPosition_eq hl (by omega) (by omega)] at h4
      exact (Except.ok.inj h4).symm
    · unfold Located at h5
      rw [inputPosition_eq hl (by omega) (by omega)] at h5
      exact (Except.ok.inj h5).symm

theorem Filled.mem {env : Env} : ∀ {as bs : List PErr}, Filled env as bs → ∀ f ∈ bs, ∃ e ∈ as,
    f.position = e.position ∧ f.msg = e.msg ∧ f.context.isSome = true ∧
      lineContext env.buf (e.position.offset - env.off.offset) 80 = .ok f.context
  | [], [], _, f, hf => by cases hf
  | [], _ :: _, h, _, _ => h.elim
  | _ :: _, [], h, _, _ => h.elim
  | a :: as, _ :: bs, h, f, hf => by
    rcases List.mem_cons.1 hf with e | e
    · subst e; exact ⟨a, List.mem_cons_self, h.1.1, h.1.2.1, h.1.2.2.1, h.1.2.2.2.2⟩
    · obtain ⟨x, hx, g⟩ := h.2.mem f e
      exact ⟨x, List.mem_cons_of_mem _ hx, g⟩

theorem Filled.sorted {env : Env} : ∀ {as bs : List PErr}, Filled env as bs →
    as.Pairwise (fun a b => a.position.offset < b.position.offset) →
    bs.Pairwise (fun a b => a.position.offset < b.position.offset)
  | [], [], _, _ => .nil
  | [], _ :: _, h, _ => h.elim
  | _ :: _, [], h, _ => h.elim
  | a :: as, b :: bs, h, hp => by
    rw [List.pairwise_cons] at hp ⊢
    refine ⟨fun f hf => ?_, h.2.sorted hp.2⟩
    obtain ⟨x, hx, g, -⟩ := h.2.mem f hf
    rw [h.1.1, g]
    exact hp.1 x hx

theorem Parsed.stop {D : Reader σ → List UInt8 → Prop} {only : Bool} {w : List UInt8} {c c' : PCtx σ}
    {n : Nat} {roots : List Node} (h : Parsed D only w c c' n roots) :
    ∃ stop, inputPosition c'.st.off c'.st.lines c'.mach.consumed = .ok stop ∧
      stop.offset = c.st.off.offset + n ∧ (96 ∉ w → stop = c.st.off.after (w.take n)) := by
  obtain ⟨x, hx⟩ := inputPosition_ok (off := c'.st.off) (p := c'.mach.consumed) h.zero
  refine ⟨x, hx, ?_, fun hw => ?_⟩
  · have := inputPosition_offset hx
    rw [h.consumed, h.off] at this
    omega
  · rw [h.consumed, h.off, inputPosition_eq (h.lines hw) (Nat.le_refl _) h.len] at hx
    exact (Except.ok.inj hx).symm

theorem Parsed.segOk {D : Reader σ → List UInt8 → Prop} {only : Bool} {w : List UInt8} {c c' : PCtx σ}
    {n : Nat} {roots : List Node} (h : Parsed D only w c c' n roots) (hn : Numbered c.mach) (hp : 0 < n)
    {stop : Pos} (h1 : stop.offset = c.st.off.offset + n) (h2 : 96 ∉ w → stop = c.st.off.after (w.take n))
    {ordinal : Nat} :
    SegOk only c.st.errs.colorization w c.st.off n
      ⟨ordinal, ⟨c.st.off, stop⟩, c'.st.errs.errors, roots, c'.mach.result, c'.mach.eof⟩ := by
  obtain ⟨env, k1, k2, k3⟩ := h.kids
  obtain ⟨es, buf, ⟨rest, r1⟩, r2, r3, r4, r5⟩ := h.errs
  refine ⟨hp, h.len, rfl, h1, h2, h.eof, h.ending, h.typed, h.result, fun x hx => ?_, k3.order,
    fun hw x hx => ?_, h.leaves, h.operators, h.fields hn, ?_, ⟨buf, rest, r1, r2, fun e he => ?_⟩, fun hw => ?_⟩
  · have := (k3.span x hx).within
    rw [k1, Nat.zero_add, Nat.add_comm n] at this
    exact this
  · rw [← k1]
    exact (k3.span x hx).placed (k2 ▸ h.lines hw) h.len (Nat.le_refl _)
  · have := (h.numbered hn).nodup
    obtain ⟨b, hb, hb1, -⟩ := h.blocks
    unfold Mach.ids at this
    rw [h.prev, hb] at this
    simp only [prevIds, blocksIds, List.nil_append, List.append_nil, hb1] at this
    exact this
  · obtain ⟨x, hx, e1, e2, e3, e4⟩ := r4.mem e he
    obtain ⟨-, g1, g2⟩ := r3.errs x hx
    refine ⟨by rw [e1]; exact g1, by rw [e1]; exact g2, ⟨e3, by rw [e1]; exact e4⟩, fun hw => ?_⟩
    obtain ⟨et, rfl, hc, hinv⟩ := r5 hw
    obtain ⟨q, hq, labels, hl, rfl⟩ := hinv.errs x hx
    exact ⟨q, hq, labels, hl, e1, by rw [e2, hc]⟩
  · obtain ⟨et, rfl, hc, hinv⟩ := r5 hw
    exact r4.sorted hinv.sorted

/-! ## The loop -/

/-- Failures that do happen: an assertion on line starts, which needs a backquote in the input, and
the assertion on terminals, which needs a comment. -/
def Known (w : List UInt8) (e : Stop) : Prop :=
  (e = .fault .assertion ∧ 96 ∈ w) ∨ (e = .crash .terminalChildren ∧ Commented w)

theorem Known.drop {w : List UInt8} {n : Nat} {e : Stop} (h : Known (w.drop n) e) : Known w e := by
  rcases h with ⟨h1, h2⟩ | ⟨h1, p, h2⟩
  · exact .inl ⟨h1, List.mem_of_mem_drop h2⟩
  · refine .inr ⟨h1, n + p, ?_⟩
    have : ∀ l : List UInt8, l.length = 2 → (w.drop n).extract p (p + 2) = l →
        w.extract (n + p) (n + p + 2) = l := by
      intro l hl e
      simp only [List.extract_eq_take_drop, List.drop_drop] at e ⊢
      rw [← e]
      congr 1
      omega
    rcases h2 with h2 | h2
    · exact .inl (this _ rfl h2)
    · exact .inr (this _ rfl h2)

theorem eachLoop_session {S : Source σ} {D : Reader σ → List UInt8 → Prop} (hf : Feeds S D)
    (only single : Bool) (cb : κ → PSeg → Int × κ) : ∀ (len : Nat) (w : List UInt8) (c : PCtx σ)
    (ordinal : Nat) (last : Option Pos) (k : κ), w.length = len → c.reader.At D w 0 → Ready c →
    Numbered c.mach →
    ∃ fuel0 r, (∀ fuel n, fuel0 ≤ fuel → fuel0 ≤ n →
        eachLoop S cb (startRule only) single fuel n c ordinal last k = some r) ∧
      ((∃ e, r = .error e ∧ Known w e) ∨
        ∃ ret, r = .ok ret ∧
          Session only single c.st.errs.colorization cb w c.st.off ordinal last k ret) := by
  intro len
  induction len using Nat.strongRecOn with
  | _ len ih =>
    intro w c ordinal last k hlen hi hc hn
    obtain ⟨fuel1, r1, h1, h2⟩ := parseOne_spec hf only hi hc
    have hstep : ∀ fuel n, fuel1 ≤ fuel → 1 ≤ n → ∃ n', n = n' + 1 ∧
        parseOne S fuel (startRule only) c = some r1 := fun fuel n hle hn' =>
      ⟨n - 1, by omega, h1 fuel hle⟩
    have herror : ∀ e, r1 = .error e → Known w e → ∃ fuel0 r, (∀ fuel n, fuel0 ≤ fuel → fuel0 ≤ n →
        eachLoop S cb (startRule only) single fuel n c ordinal last k = some r) ∧
      ((∃ e, r = .error e ∧ Known w e) ∨
        ∃ ret, r = .ok ret ∧
          Session only single c.st.errs.colorization cb w c.st.off ordinal last k ret) := by
      rintro e rfl he
      refine ⟨fuel1 + 1, .error e, fun fuel n hle hln => ?_, .inl ⟨e, rfl, he⟩⟩
      obtain ⟨n', rfl, g⟩ := hstep fuel n (by omega) (by omega)
      unfold eachLoop
      rw [g]
    rcases h2 with ⟨e, hk⟩ | ⟨e, hk⟩ | ⟨c', n0, roots, rfl, hp⟩
    · exact herror _ e (.inl ⟨rfl, hk⟩)
    · exact herror _ e (.inr ⟨rfl, hk⟩)
    · by_cases hw : w = []
      · subst hw
        obtain ⟨g1, g2, g3⟩ := hp.nothing rfl
        have hz : n0 = 0 := by have := hp.len; simpa using this
        refine ⟨fuel1 + 1, .ok (0, last, k), fun fuel n hle hln => ?_, .inr ⟨_, rfl, .nothing⟩⟩
        obtain ⟨n', rfl, g⟩ := hstep fuel n (by omega) (by omega)
        unfold eachLoop
        rw [g]
        simp only
        rw [if_pos (by rw [hp.consumed, hz]), if_pos ⟨by rw [g1]; rfl, g2, g3⟩]
      · have hpos := hp.progress hw
        obtain ⟨stop, s1, s2, s3⟩ := hp.stop
        obtain ⟨top, t1, t2, t3⟩ := hp.blocks
        have hseg := hp.segOk hn hpos s2 s3 (ordinal := ordinal)
        generalize hsg : (⟨ordinal, ⟨c.st.off, stop⟩, c'.st.errs.errors, roots, c'.mach.result,
          c'.mach.eof⟩ : PSeg) = seg at hseg
        have hso : seg.ordinal = ordinal := by rw [← hsg]
        have hss : seg.range.stop = stop := by rw [← hsg]
        have hse : seg.eof = c'.mach.eof := by rw [← hsg]
        have hunf : ∀ fuel n, fuel1 ≤ fuel →
            eachLoop S cb (startRule only) single fuel (n + 1) c ordinal last k =
            if (cb k seg).1 > 0 then some (.ok (0, some stop, (cb k seg).2))
            else if (cb k seg).1 < 0 then some (.ok ((cb k seg).1, some stop, (cb k seg).2))
            else if c'.mach.eof || single then some (.ok (0, some stop, (cb k seg).2))
            else eachLoop S cb (startRule only) single fuel n
              ⟨c'.reader, { c'.st with errs := c'.st.errs.clearErrors, off := stop, lines := [0] },
                { c'.mach with blocks := [{ top with children := [] }] }⟩
              (ordinal + seg.toSegment.nnodes) (some stop) (cb k seg).2 := by
          intro fuel n hle
          conv => lhs; unfold eachLoop
          rw [h1 fuel hle]
          simp only
          rw [if_neg (by rw [hp.consumed]; omega)]
          simp only [s1, t1, t2]
          rw [hp.off, hsg]
        rcases hcb : cb k seg with ⟨err, k'⟩
        rw [hcb] at hunf
        simp only at hunf
        by_cases he1 : err > 0
        · refine ⟨fuel1 + 1, _, fun fuel n hle hln => ?_,
            .inr ⟨_, rfl, .stopped hseg hso hcb he1⟩⟩
          obtain ⟨n', rfl, -⟩ := hstep fuel n (by omega) (by omega)
          rw [hunf fuel n' (by omega), if_pos he1, hss]
        · by_cases he2 : err < 0
          · refine ⟨fuel1 + 1, _, fun fuel n hle hln => ?_,
              .inr ⟨_, rfl, .failed hseg hso hcb he2⟩⟩
            obtain ⟨n', rfl, -⟩ := hstep fuel n (by omega) (by omega)
            rw [hunf fuel n' (by omega), if_neg he1, if_pos he2, hss]
          · have he0 : err = 0 := by omega
            subst he0
            cases hfin : (c'.mach.eof || single) with
            | true =>
              refine ⟨fuel1 + 1, _, fun fuel n hle hln => ?_,
                .inr ⟨_, rfl, .done hseg hso hcb (by rw [hse]; exact hfin)⟩⟩
              obtain ⟨n', rfl, -⟩ := hstep fuel n (by omega) (by omega)
              rw [hunf fuel n' (by omega), if_neg he1, if_neg he2, hfin, if_pos rfl, hss]
            | false =>
              have hwl : w.length ≠ 0 := fun e => hw (List.eq_nil_of_length_eq_zero e)
              obtain ⟨fuel2, r2, g1, g2⟩ := ih (w.drop n0).length
                (by rw [List.length_drop]; omega) (w.drop n0)
                ⟨c'.reader, { c'.st with errs := c'.st.errs.clearErrors, off := stop, lines := [0] },
                  { c'.mach with blocks := [{ top with children := [] }] }⟩
                (ordinal + seg.toSegment.nnodes) (some stop) k' rfl hp.reader
                ⟨⟨rfl, rfl, hp.labels⟩, hp.precs, ⟨_, rfl, rfl, t3⟩, hp.prev, hp.ops⟩
                (by
                  have := hp.numbered hn
                  refine ⟨?_, ?_⟩
                  · simp [Mach.ids, prevIds, blocksIds, hp.prev, Node.idss]
                  · simp [Mach.ids, prevIds, blocksIds, hp.prev, Node.idss])
              refine ⟨fuel1 + fuel2 + 1, r2, fun fuel n hle hln => ?_, ?_⟩
              · obtain ⟨n', rfl, -⟩ := hstep fuel n (by omega) (by omega)
                rw [hunf fuel n' (by omega), if_neg he1, if_neg he2, hfin, if_neg (by simp)]
                exact g1 fuel n' (by omega) (by omega)
              · rcases g2 with ⟨e, rfl, hk⟩ | ⟨ret, rfl, hses⟩
                · exact .inl ⟨e, rfl, hk.drop⟩
                · refine .inr ⟨ret, rfl, .next hseg hso hcb (by rw [hse]; exact hfin) ?_⟩
                  rw [hss]
                  have hcol : c'.st.errs.clearErrors.colorization = c.st.errs.colorization := hp.color
                  simp only [hcol] at hses
                  exact hses

/-- The text given to the parser by a source. -/
theorem parseEach_session {S : Source σ} {D : Reader σ → List UInt8 → Prop} (hf : Feeds S D)
    {src : σ} {w : List UInt8} (hD : D (.init src) w) (cb : κ → PSeg → Int × κ) (k : κ) (cfg : Config)
    (only single : Bool) :
    ∃ fuel0 r, (∀ fuel, fuel0 ≤ fuel → parseEach S src cb k cfg only single fuel = some r) ∧
      ((∃ e, r = .error e ∧ Known w e) ∨
        ∃ ret, r = .ok ret ∧
          Session only single cfg.colorization cb w cfg.position cfg.ordinal none k ret) := by
  obtain ⟨fuel0, r, h1, h2⟩ := eachLoop_session hf only single cb w.length w (.init cfg src) cfg.ordinal
    none k rfl ⟨Nat.zero_le _, Nat.zero_le _, w, rfl, hD⟩
    ⟨⟨rfl, rfl, rfl⟩, rfl, ⟨_, rfl, rfl, rfl⟩, rfl, rfl⟩
    ⟨by simp [Mach.ids, prevIds, blocksIds, PCtx.init, Node.idss],
      by simp [Mach.ids, prevIds, blocksIds, PCtx.init, Node.idss]⟩
  exact ⟨fuel0, r, fun fuel hle => h1 fuel fuel hle hle, h2⟩

/-! ## Fuel -/

theorem parseOne_mono {S : Source σ} {fuel fuel' : Nat} {rule : Rule} {c : PCtx σ}
    {r : Except Stop (PCtx σ)} (h : parseOne S fuel rule c = some r) (hle : fuel ≤ fuel') :
    parseOne S fuel' rule c = some r := by
  unfold parseOne at h ⊢
  cases hr : run grammar (chost S) fuel (.nt rule none) ⟨0, [], (c.reader, c.st)⟩ with
  | none => rw [hr] at h; cases h
  | some x => rw [hr] at h; rw [run_mono _ _ _ _ hr _ hle]; exact h

theorem eachLoop_mono {S : Source σ} {cb : κ → PSeg → Int × κ} {rule : Rule} {single : Bool}
    {fuel fuel' : Nat} (hle : fuel ≤ fuel') : ∀ {n n' : Nat} {c : PCtx σ} {ordinal : Nat}
    {last : Option Pos} {k : κ} {r : Except Stop (Ret κ)},
    eachLoop S cb rule single fuel n c ordinal last k = some r → n ≤ n' →
    eachLoop S cb rule single fuel' n' c ordinal last k = some r
  | 0, _, _, _, _, _, _, h, _ => by cases h
  | n + 1, 0, _, _, _, _, _, _, hn => by omega
  | n + 1, n' + 1, c, ordinal, last, k, r, h, hn => by
    unfold eachLoop at h ⊢
    cases h1 : parseOne S fuel rule c with
    | none => rw [h1] at h; cases h
    | some x =>
      rw [h1] at h
      rw [parseOne_mono h1 hle]
      cases x with
      | error e => exact h
      | ok c' =>
        simp only at h ⊢
        split at h
        · rename_i hz; rw [if_pos hz]; exact h
        · rename_i hz
          rw [if_neg hz]
          split at h
          · exact h
          · split at h
            · exact h
            · split at h
              · rename_i h2; rw [if_pos h2]; exact h
              · rename_i h2
                rw [if_neg h2]
                split at h
                · rename_i h3; rw [if_pos h3]; exact h
                · rename_i h3
                  rw [if_neg h3]
                  split at h
                  · rename_i h4; rw [if_pos h4]; exact h
                  · rename_i h4
                    rw [if_neg h4]
                    exact eachLoop_mono hle h (by omega)

theorem parseEach_mono {S : Source σ} {src : σ} {cb : κ → PSeg → Int × κ} {k : κ} {cfg : Config}
    {only single : Bool} {fuel fuel' : Nat} {r : Except Stop (Ret κ)}
    (h : parseEach S src cb k cfg only single fuel = some r) (hle : fuel ≤ fuel') :
    parseEach S src cb k cfg only single fuel' = some r := eachLoop_mono hle h hle

end Verif.Cypher
