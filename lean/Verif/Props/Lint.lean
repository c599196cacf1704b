import Verif.Lint.Lint
import Verif.Props.Memory
import Verif.Props.Detail
import Verif.Cypher.Pair
/-!
# C44: what `cypher-lint` says

`Says` is the specification: the exit status and the messages as a function of the segments of each input. It does not
depend on whether the input is parsed as a stream or at once.
-/
namespace Verif.Lint
open Verif Verif.Peg Verif.Cypher Verif.Print

variable {σ κ : Type}

/-! ## Specification -/

/-- For all sufficient fuel. -/
def Ends {α : Type} (f : Nat → Option α) (r : α) : Prop := ∃ N, ∀ fuel, N ≤ fuel → f fuel = some r

theorem Ends.unique {α : Type} {f : Nat → Option α} {r r' : α} (h : Ends f r) (h' : Ends f r') : r = r' := by
  obtain ⟨N, hN⟩ := h
  obtain ⟨N', hN'⟩ := h'
  have h1 := hN (max N N') (by omega)
  rw [hN' (max N N') (by omega)] at h1
  simpa using h1.symm

/-- The segments of an input. -/
def Read (c : Conf) (bytes : List UInt8) (L : List PSeg) : Prop :=
  ∃ last, StopsWith streamSource bytes (recordingP fun _ _ => 0) [] c.config c.only c.single (.ok (0, last, L))

theorem Read.unique {c : Conf} {bytes : List UInt8} {L L' : List PSeg} (h : Read c bytes L) (h' : Read c bytes L') :
    L = L' := by
  obtain ⟨_, h⟩ := h
  obtain ⟨_, h'⟩ := h'
  cases h.unique h'
  rfl

/-- The errors of segments, in order. -/
def errorsOf (L : List PSeg) : List PErr := L.flatMap PSeg.errors

/-- The lines written for an error: where and what, the text around it, and a mark below. -/
def report (name : List UInt8) (e : PErr) : List UInt8 :=
  let (context, offset) := e.context.getD ([], 0)
  cstr name ++ [58] ++ decimal e.position.line ++ [58] ++ decimal e.position.column ++ [58, 32] ++ cstr e.msg ++ [10] ++
    (cstr context ++ [10]) ++ (List.replicate offset 32 ++ [94, 10])

/-- The input that an operand names. -/
def input (w : World) (i : Nat) (a : List UInt8) : Except (List UInt8) (List UInt8) :=
  if a = ascii "-" then .ok (w.stdin i) else w.opened i a

/-- The name under which the errors of an operand are reported. -/
def shownName (a : List UInt8) : List UInt8 := if a = ascii "-" then ascii "<stdin>" else a

/-- What is said about the operands from index `i` on: whether all is well, and the messages. -/
inductive Says (w : World) (c : Conf) : Nat → List (List UInt8) → Bool → List UInt8 → Prop
  | nil {i} : Says w c i [] true []
  | missing {i a as m} : input w i a = .error m →
      Says w c i (a :: as) false (w.prog ++ ascii ": " ++ a ++ ascii ": " ++ m ++ [10])
  | cons {i a as bytes L ok t} : input w i a = .ok bytes → Read c bytes L → Says w c (i + 1) as ok t →
      Says w c i (a :: as) ((errorsOf L).isEmpty && ok) ((errorsOf L).flatMap (report (shownName a)) ++ t)

/-- The result for an input. -/
def statusOf (L : List PSeg) : Int := if (errorsOf L).isEmpty then 0 else 1

/-! ## The error loops -/

theorem blanks_eq (n : Nat) : blanks n = List.replicate n 32 := by
  cases n with
  | zero => rfl
  | succ n =>
    have : (ascii " ").take (n + 1) = [32] := by rw [List.take_of_length_le] <;> simp [ascii]
    simp only [blanks, padLeft, this, List.length_singleton, Nat.add_sub_cancel]
    exact List.replicate_succ'.symm

theorem printError_ok {name : List UInt8} {e : PErr} (h : e.context.isSome = true) :
    printError name e = .ok (report name e) := by
  obtain ⟨c, hc⟩ := Option.isSome_iff_exists.1 h
  obtain ⟨context, offset⟩ := c
  have h1 : ascii ":" = [58] := by decide
  have h2 : ascii ": " = [58, 32] := by decide
  have h3 : ascii "\n" = [10] := by decide
  have h4 : ascii "^\n" = [94, 10] := by decide
  simp [printError, report, hc, blanks_eq, h1, h2, h3, h4]

theorem errorLoop_ok {name : List UInt8} {get : Nat → Except Fault (Option PErr)} {es : List PErr}
    (hg : ∀ i, get i = .ok es[i]?) (hc : ∀ e ∈ es, e.context.isSome = true) :
    ∀ (fuel i : Nat) (err : List UInt8), i ≤ es.length → es.length < fuel + i →
      errorLoop name get fuel i err = some (.ok (es.length, err ++ (es.drop i).flatMap (report name))) := by
  intro fuel
  induction fuel with
  | zero => intro i err h1 h2; omega
  | succ fuel ih =>
    intro i err h1 h2
    rw [errorLoop, hg]
    by_cases hi : i < es.length
    · rw [List.getElem?_eq_getElem hi]
      simp only [printError_ok (hc _ (List.getElem_mem hi))]
      rw [ih _ _ (by omega) (by omega), List.drop_eq_getElem_cons hi, List.flatMap_cons, List.append_assoc]
    · have : i = es.length := by omega
      subst this
      rw [List.getElem?_eq_none (Nat.le_refl _), List.drop_of_length_le (Nat.le_refl _)]
      simp

theorem segment_errors (s : PSeg) (i : Nat) : s.toSegment.getError i = .ok s.errors[i]? :=
  (accessors_total s.ordinal (PSeg.desc s) [] (.node .statement default 0 [] [])).1.2 i

/-! ## Streaming -/

/-- A callback that answers 0 as long as all is well sees the same segments as one that records them. -/
theorem eachLoop_fold {S : Source σ} {cb : κ → PSeg → Int × κ} {bad : κ → Prop} {rule : Rule} {single : Bool} {fuel : Nat}
    (hb : ∀ k s, (cb k s).1 ≠ 0 → bad (cb k s).2) :
    ∀ {n : Nat} {c : PCtx σ} {ordinal : Nat} {last : Option Pos} {k : κ} {ret : Int} {last' : Option Pos} {k' : κ},
      eachLoop S cb rule single fuel n c ordinal last k = some (.ok (ret, last', k')) → ¬ bad k' → ∀ h : List PSeg,
      ret = 0 ∧ ∃ L, eachLoop S (recordingP fun _ _ => 0) rule single fuel n c ordinal last h =
        some (.ok (0, last', h ++ L)) ∧ k' = L.foldl (fun k s => (cb k s).2) k := by
  intro n
  induction n with
  | zero => intro c ordinal last k ret last' k' he; cases he
  | succ n ih =>
    intro c ordinal last k ret last' k' he hn h
    rw [eachLoop] at he ⊢
    cases h1 : parseOne S fuel rule c with
    | none => simp [h1] at he
    | some x =>
      cases x with
      | error e => simp [h1] at he
      | ok c1 =>
        simp only [h1] at he ⊢
        by_cases h2 : c1.mach.consumed = 0
        · simp only [h2, if_true] at he ⊢
          split at he
          · rename_i hx
            simp only [Option.some.injEq, Except.ok.injEq, Prod.mk.injEq] at he
            obtain ⟨rfl, rfl, rfl⟩ := he
            rw [if_pos hx]
            exact ⟨rfl, [], by simp, rfl⟩
          · cases he
        · simp only [h2, if_false] at he ⊢
          cases h3 : inputPosition c1.st.off c1.st.lines c1.mach.consumed with
          | error f => simp [h3] at he
          | ok stop =>
            simp only [h3] at he ⊢
            cases h4 : c1.mach.blocks with
            | nil => simp [h4] at he
            | cons top bs =>
              simp only [h4] at he ⊢
              obtain ⟨seg, hseg⟩ : ∃ seg : PSeg, seg = ⟨ordinal, ⟨c1.st.off, stop⟩, c1.st.errs.errors, top.children,
                c1.mach.result, c1.mach.eof⟩ := ⟨_, rfl⟩
              rw [← hseg] at he ⊢
              have hz : (cb k seg).1 = 0 := by
                refine Classical.byContradiction fun hne => ?_
                have hbad := hb k seg hne
                rcases Int.lt_or_gt_of_ne hne with hlt | hgt
                · rw [if_neg (by omega), if_pos hlt] at he
                  simp only [Option.some.injEq, Except.ok.injEq, Prod.mk.injEq] at he
                  exact hn (he.2.2 ▸ hbad)
                · rw [if_pos hgt] at he
                  simp only [Option.some.injEq, Except.ok.injEq, Prod.mk.injEq] at he
                  exact hn (he.2.2 ▸ hbad)
              rw [if_neg (by omega), if_neg (by omega)] at he
              have hr : (recordingP (fun _ _ => 0) h seg) = (0, h ++ [seg]) := rfl
              simp only [hr]
              rw [if_neg (by omega), if_neg (by omega)]
              by_cases h5 : (c1.mach.eof || single) = true
              · rw [if_pos h5] at he ⊢
                simp only [Option.some.injEq, Except.ok.injEq, Prod.mk.injEq] at he
                obtain ⟨rfl, rfl, rfl⟩ := he
                exact ⟨rfl, [seg], rfl, rfl⟩
              · rw [if_neg h5] at he ⊢
                obtain ⟨g0, L, g1, g2⟩ := ih he hn (h ++ [seg])
                exact ⟨g0, seg :: L, by rw [g1]; simp, g2⟩

theorem Read.segments {c : Conf} {bytes : List UInt8} {L : List PSeg} (h : Read c bytes L) :
    ∃ rest, Segments c.only c.config.colorization bytes ⟨1, 1, 0⟩ 0 L rest := by
  obtain ⟨last, h⟩ := h
  obtain ⟨rest, h1, -⟩ := cypher_callback_protocol (stream_delivers bytes) _ _ _ _ h
  exact ⟨rest, h1⟩

theorem Read.context {c : Conf} {bytes : List UInt8} {L : List PSeg} (h : Read c bytes L) :
    ∀ s ∈ L, ∀ e ∈ s.errors, e.context.isSome = true := by
  obtain ⟨rest, h⟩ := h.segments
  refine h.all (P := fun s => ∀ e ∈ s.errors, e.context.isSome = true) fun w off n seg hs e he => ?_
  obtain ⟨buf, rs, -, -, g3⟩ := hs.errors
  exact (g3 e he).context.1

/-- What the standard output gets for the segments of an input when they are printed one by one. -/
def Listed (junk : Nat → List UInt8) (c : Conf) (L : List PSeg) (t : List UInt8) : Prop :=
  if c.dump then ∃ ts, List.Forall₂ (fun (s : PSeg) t => printRoots junk c.colours c.width s.ordinal s.roots = .ok t) L ts ∧
    t = ts.flatten
  else t = []

theorem callback_abort {junk : Nat → List UInt8} {c : Conf} {name : List UInt8} {k : Cb} {s : PSeg}
    (h : (callback junk c name k s).1 ≠ 0) : (callback junk c name k s).2.abort.isSome = true := by
  revert h
  unfold callback
  split
  · simp
  · simp
  · split
    · split <;> simp
    · simp

theorem callback_keeps {junk : Nat → List UInt8} {c : Conf} {name : List UInt8} {k : Cb} {s : PSeg}
    (h : (callback junk c name k s).2.abort = none) : k.abort = none := by
  revert h
  unfold callback
  split
  · simp
  · simp
  · split
    · split <;> simp
    · simp

theorem fold_keeps {junk : Nat → List UInt8} {c : Conf} {name : List UInt8} : ∀ {L : List PSeg} {k : Cb},
    (L.foldl (fun k s => (callback junk c name k s).2) k).abort = none → k.abort = none
  | [], _, h => h
  | _ :: _, _, h => callback_keeps (fold_keeps h)

theorem callback_ok {junk : Nat → List UInt8} {c : Conf} {name : List UInt8} {k : Cb} {s : PSeg}
    (hc : ∀ e ∈ s.errors, e.context.isSome = true) (h : (callback junk c name k s).2.abort = none) :
    ∃ t, Listed junk c [s] t ∧ (callback junk c name k s).2.out.out = k.out.out ++ t ∧
      (callback junk c name k s).2.out.err = k.out.err ++ s.errors.flatMap (report name) ∧
      (callback junk c name k s).2.nerrors = k.nerrors + s.errors.length := by
  have h1 := errorLoop_ok (name := name) (segment_errors s) hc (s.errors.length + 1) 0 k.out.err (Nat.zero_le _) (by omega)
  rw [List.drop_zero] at h1
  unfold callback at h ⊢
  rw [h1] at h ⊢
  simp only at h ⊢
  cases hd : c.dump with
  | false => exact ⟨[], by simp [Listed, hd], by simp, by simp, by simp⟩
  | true =>
    simp only [hd, if_true] at h ⊢
    cases hp : printRoots junk c.colours c.width s.ordinal s.roots with
    | error x => simp [hp] at h
    | ok t =>
      refine ⟨t, ?_, by simp, by simp, by simp⟩
      simp only [Listed, hd, if_true]
      exact ⟨[t], .cons hp .nil, by simp⟩

theorem Listed.append {junk : Nat → List UInt8} {c : Conf} {L L' : List PSeg} {t t' : List UInt8}
    (h : Listed junk c L t) (h' : Listed junk c L' t') : Listed junk c (L ++ L') (t ++ t') := by
  unfold Listed at *
  split at h
  · rename_i hd
    simp only [hd, if_true] at h' ⊢
    obtain ⟨ts, h1, rfl⟩ := h
    obtain ⟨ts', h1', rfl⟩ := h'
    exact ⟨ts ++ ts', List.rel_append h1 h1', by simp⟩
  · rename_i hd
    simp only [hd] at h' ⊢
    simp_all

theorem fold_ok {junk : Nat → List UInt8} {c : Conf} {name : List UInt8} : ∀ {L : List PSeg} {k : Cb},
    (∀ s ∈ L, ∀ e ∈ s.errors, e.context.isSome = true) →
    (L.foldl (fun k s => (callback junk c name k s).2) k).abort = none →
    ∃ t, Listed junk c L t ∧ (L.foldl (fun k s => (callback junk c name k s).2) k).out.out = k.out.out ++ t ∧
      (L.foldl (fun k s => (callback junk c name k s).2) k).out.err =
        k.out.err ++ (errorsOf L).flatMap (report name) ∧
      (L.foldl (fun k s => (callback junk c name k s).2) k).nerrors = k.nerrors + (errorsOf L).length
  | [], k, _, _ => by
    refine ⟨[], ?_, by simp, by simp [errorsOf], by simp [errorsOf]⟩
    unfold Listed
    split
    · exact ⟨[], .nil, rfl⟩
    · rfl
  | s :: L, k, hc, h => by
    rw [List.foldl_cons] at h ⊢
    obtain ⟨t, a1, a2, a3, a4⟩ := callback_ok (hc s (List.mem_cons_self ..)) (fold_keeps h)
    obtain ⟨t', b1, b2, b3, b4⟩ := fold_ok (fun x hx => hc x (List.mem_cons_of_mem _ hx)) h
    refine ⟨t ++ t', a1.append b1, ?_, ?_, ?_⟩
    · rw [b2, a2, List.append_assoc]
    · rw [b3, a3]; simp [errorsOf]
    · rw [b4, a4]; simp [errorsOf]; omega

theorem streamed_ok {junk : Nat → List UInt8} {why : List UInt8} {c : Conf} {name bytes : List UInt8} {o o' : Out}
    {fuel : Nat} {res : Int} (h : streamed junk why c name bytes o fuel = some (.ok (res, o'))) :
    ∃ L, Read c bytes L ∧ res = statusOf L ∧
      o'.err = o.err ++ (errorsOf L).flatMap (report name) ∧ ∃ t, Listed junk c L t ∧ o'.out = o.out ++ t := by
  unfold streamed at h
  cases hp : parseEach streamSource bytes (callback junk c name) { out := o } c.config c.only c.single fuel with
  | none => simp [hp] at h
  | some x =>
    rw [hp] at h
    cases x with
    | error s => cases h
    | ok r =>
      obtain ⟨ret, last, k⟩ := r
      simp only at h
      cases ha : k.abort with
      | some a => simp [ha] at h
      | none =>
        simp only [ha] at h
        obtain ⟨h0, L, h1, h2⟩ := eachLoop_fold (bad := fun k : Cb => k.abort.isSome = true)
          (fun k s => callback_abort) hp (by simp [ha]) []
        subst h0
        rw [List.nil_append] at h1
        have hL : Read c bytes L := ⟨last, fuel, fun f hf => parseEach_mono (fuel := fuel) h1 hf⟩
        rw [h2] at ha
        obtain ⟨t, b1, b2, b3, b4⟩ := fold_ok hL.context ha
        rw [if_neg (by simp)] at h
        simp only [Option.some.injEq, Except.ok.injEq, Prod.mk.injEq] at h
        obtain ⟨rfl, rfl⟩ := h
        rw [← h2] at b2 b3 b4
        refine ⟨L, hL, ?_, b3, t, b1, b2⟩
        rw [b4, statusOf]
        simp

/-! ## At once -/

mutual
theorem size_ids : ∀ n : Node, n.toAst.size = n.ids.length
  | .mk id c o a s t r children => by
    rw [Node.toAst, Ast.size, Node.ids, sizeList_ids, List.length_cons, Nat.add_comm]
theorem sizeList_ids : ∀ ns : List Node, sizeList (Node.toAsts ns) = (Node.idss ns).length
  | [] => rfl
  | n :: ns => by rw [Node.toAsts, sizeList, Node.idss, List.length_append, size_ids n, sizeList_ids ns]
end

theorem numberAll_append (a b : List Node) : ∀ (n : Nat) (ord : Nat → Nat),
    numberAll (a ++ b) n ord = numberAll b (numberAll a n ord).1 (numberAll a n ord).2 := by
  induction a with
  | nil => intro n ord; rfl
  | cons x a ih => intro n ord; simp only [List.cons_append, numberAll, ih]

theorem Segments.numbered {only : Bool} {color : Colorization} {w : List UInt8} {off : Pos} {ordinal : Nat} {L : List PSeg}
    {rest : List UInt8} (h : Segments only color w off ordinal L rest) : ∀ ord : Nat → Nat,
    L.foldl (fun ord s => (numberAll s.roots s.ordinal ord).2) ord = (numberAll (L.flatMap PSeg.roots) ordinal ord).2 := by
  induction h with
  | nil => intro ord; rfl
  | cons h1 h2 _ _ ih =>
    intro ord
    rw [List.foldl_cons, ih, List.flatMap_cons, numberAll_append, h2, nnodes_eq, sizeList_ids, (numberAll_spec _ _ _).next]

/-- What the standard output gets when the whole input is printed: all trees, numbered from 0. -/
def ListedAll (junk : Nat → List UInt8) (c : Conf) (header : Option (List UInt8)) (L : List PSeg) (t : List UInt8) : Prop :=
  if c.dump then ∃ u, printRoots junk c.colours c.width 0 (L.flatMap PSeg.roots) = .ok u ∧
    t = (header.elim [] fun h => cstr h ++ [58, 10]) ++ u
  else t = []

theorem all_value {junk : Nat → List UInt8} {why : List UInt8} {c : Conf} {name bytes : List UInt8}
    {header : Option (List UInt8)} {o : Out} {fuel : Nat} {ret : Int} {last : Option Pos} {L : List PSeg}
    (hp : collect streamSource bytes c.config c.only c.single fuel = some (.ok (ret, last, L))) :
    Read c bytes L ∧ all junk why c name header bytes o fuel = some
      (if c.dump then match printRoots junk c.colours c.width 0 (L.flatMap PSeg.roots) with
        | .error x => .error (.print x)
        | .ok u => .ok (statusOf L, ⟨o.out ++ ((header.elim [] fun h => cstr h ++ [58, 10]) ++ u),
            o.err ++ (errorsOf L).flatMap (report name)⟩)
      else .ok (statusOf L, ⟨o.out, o.err ++ (errorsOf L).flatMap (report name)⟩)) := by
  have hret : ret = 0 := by
    obtain ⟨h0, -⟩ := eachLoop_fold (bad := fun _ : List PSeg => False) (fun k s hs => absurd rfl hs) hp (by simp) []
    exact h0
  subst hret
  have hL : Read c bytes L := ⟨last, fuel, fun f hf => parseEach_mono (fuel := fuel) hp hf⟩
  refine ⟨hL, ?_⟩
  obtain ⟨rest, hs⟩ := hL.segments
  obtain ⟨r, h1, errs, rts, e1, -, e2, -⟩ := result_is_concatenation 0 (L.map PSeg.desc)
  rw [← hs.built] at h1 e1
  have e3 : errs = L.map PSeg.errors := by
    clear hp hL hs h1 e2
    rw [List.forall₂_map_left_iff] at e1
    induction e1 with
    | nil => rfl
    | cons hx _ ih =>
      rw [List.map_cons, ih]
      congr 1
      refine List.ext_getElem? fun i => ?_
      have := hx.2 i
      rw [segment_errors] at this
      simpa using this.symm
  subst e3
  rw [← List.flatMap_def] at e2
  have hlen : r.nerrors = (errorsOf L).length := e2.1
  have hg := errorLoop_ok (name := name) e2.2 (es := errorsOf L) (fun e he => by
    obtain ⟨s, h3, h4⟩ := List.mem_flatMap.1 he
    exact hL.context s h3 e h4) (r.nerrors + 1) 0 o.err (Nat.zero_le _) (by omega)
  have hn : (if r.nerrors = 0 then (0 : Int) else 1) = statusOf L := by
    rw [hlen, statusOf]; simp
  have hpr : printResult junk c.colours c.width L = printRoots junk c.colours c.width 0 (L.flatMap PSeg.roots) := by
    simp only [printResult, printRoots, Segments.numbered hs]
    rfl
  have ha : ascii ":\n" = [58, 10] := by decide
  unfold all
  rw [hp]
  simp only [ne_eq, not_true_eq_false, if_false, h1, hg, hn, hpr, List.drop_zero]
  cases hd : c.dump with
  | false => rfl
  | true =>
    simp only [if_true]
    cases printRoots junk c.colours c.width 0 (L.flatMap PSeg.roots) with
    | error x => rfl
    | ok u => cases header <;> simp [ha]

theorem all_ok {junk : Nat → List UInt8} {why : List UInt8} {c : Conf} {name bytes : List UInt8}
    {header : Option (List UInt8)} {o o' : Out} {fuel : Nat} {res : Int}
    (h : all junk why c name header bytes o fuel = some (.ok (res, o'))) :
    ∃ L, Read c bytes L ∧ res = statusOf L ∧
      o'.err = o.err ++ (errorsOf L).flatMap (report name) ∧ ∃ t, ListedAll junk c header L t ∧ o'.out = o.out ++ t := by
  cases hp : collect streamSource bytes c.config c.only c.single fuel with
  | none => simp [all, hp] at h
  | some x =>
    cases x with
    | error s => simp [all, hp] at h
    | ok r =>
      obtain ⟨ret, last, L⟩ := r
      obtain ⟨hL, hv⟩ := all_value (junk := junk) (why := why) (name := name) (header := header) (o := o) hp
      rw [hv] at h
      cases hd : c.dump with
      | false =>
        simp only [hd, Bool.false_eq_true, if_false, Option.some.injEq, Except.ok.injEq, Prod.mk.injEq] at h
        obtain ⟨rfl, rfl⟩ := h
        exact ⟨L, hL, rfl, rfl, [], by simp [ListedAll, hd], by simp⟩
      | true =>
        simp only [hd, if_true] at h
        cases hq : printRoots junk c.colours c.width 0 (L.flatMap PSeg.roots) with
        | error x => simp [hq] at h
        | ok u =>
          simp only [hq, Option.some.injEq, Except.ok.injEq, Prod.mk.injEq] at h
          obtain ⟨rfl, rfl⟩ := h
          refine ⟨L, hL, rfl, rfl, _, ?_, rfl⟩
          simp only [ListedAll, hd, if_true]
          exact ⟨u, hq, rfl⟩

/-! ## Operands -/

/-- What the standard output gets for an input. -/
def Printed (w : World) (c : Conf) (header : Option (List UInt8)) (L : List PSeg) (t : List UInt8) : Prop :=
  if c.stream then Listed w.junk c L t else ListedAll w.junk c header L t

theorem process_ok {w : World} {c : Conf} {filename : Option (List UInt8)} {bytes : List UInt8} {o o' : Out} {fuel : Nat}
    {res : Int} (h : process w.junk w.why c filename bytes o fuel = some (.ok (res, o'))) :
    ∃ L, Read c bytes L ∧ res = statusOf L ∧
      o'.err = o.err ++ (errorsOf L).flatMap (report (filename.getD (ascii "<stdin>"))) ∧
      ∃ t, Printed w c filename L t ∧ o'.out = o.out ++ t := by
  unfold process at h
  unfold Printed
  cases hs : c.stream with
  | true => simp only [hs, if_true] at h ⊢; exact streamed_ok h
  | false => simp only [hs, Bool.false_eq_true, if_false] at h ⊢; exact all_ok h

/-- What is printed for the operands from index `i` on. -/
inductive Lists (w : World) (c : Conf) : Nat → List (List UInt8) → List UInt8 → Prop
  | nil {i} : Lists w c i [] []
  | missing {i a as m} : input w i a = .error m → Lists w c i (a :: as) []
  | cons {i a as bytes L t u} : input w i a = .ok bytes → Read c bytes L → Printed w c (some (shownName a)) L t →
      Lists w c (i + 1) as u → Lists w c i (a :: as) (t ++ u)

theorem files_ok {w : World} {c : Conf} {fuel : Nat} : ∀ {as : List (List UInt8)} {i : Nat} {bad : Bool} {o o' : Out}
    {status : Nat}, files w c fuel i as bad o = some (.ok (status, o')) →
    ∃ ok t u, Says w c i as ok t ∧ Lists w c i as u ∧ status = (if ok && !bad then 0 else 1) ∧ o'.err = o.err ++ t ∧
      o'.out = o.out ++ u := by
  intro as
  induction as with
  | nil =>
    intro i bad o o' status h
    simp only [files, Option.some.injEq, Except.ok.injEq, Prod.mk.injEq] at h
    obtain ⟨rfl, rfl⟩ := h
    exact ⟨true, [], [], .nil, .nil, by cases bad <;> rfl, by simp, by simp⟩
  | cons a as ih =>
    intro i bad o o' status h
    have key : ∀ {bytes res o1}, input w i a = .ok bytes →
        process w.junk w.why c (some (shownName a)) bytes o fuel = some (.ok (res, o1)) →
        ¬ res < 0 ∧ (files w c fuel (i + 1) as (bad || res != 0) o1 = some (.ok (status, o')) →
        ∃ ok t u, Says w c i (a :: as) ok t ∧ Lists w c i (a :: as) u ∧ status = (if ok && !bad then 0 else 1) ∧
          o'.err = o.err ++ t ∧ o'.out = o.out ++ u) := by
      intro bytes res o1 hi hp
      obtain ⟨L, h1, h2, h3, t, h4, h5⟩ := process_ok hp
      refine ⟨by rw [h2, statusOf]; split <;> decide, fun hf => ?_⟩
      obtain ⟨ok, t', u', g1, g2, g3, g4, g5⟩ := ih hf
      refine ⟨_, _, _, .cons hi h1 g1, .cons hi h1 h4 g2, ?_, ?_, ?_⟩
      · rw [g3, h2, statusOf]
        cases (errorsOf L).isEmpty <;> cases bad <;> cases ok <;> rfl
      · rw [g4, h3, List.append_assoc]; rfl
      · rw [g5, h5, List.append_assoc]
    rw [files] at h
    by_cases ha : a = ascii "-"
    · rw [if_pos ha] at h
      have hi : input w i a = .ok (w.stdin i) := by simp [input, ha]
      have hn : shownName a = ascii "<stdin>" := by simp [shownName, ha]
      cases hp : process w.junk w.why c (some (ascii "<stdin>")) (w.stdin i) o fuel with
      | none => simp [hp] at h
      | some x =>
        cases x with
        | error x => simp [hp] at h
        | ok r =>
          simp only [hp] at h
          exact (key hi (by rw [hn]; exact hp)).2 h
    · rw [if_neg ha] at h
      have hi : input w i a = w.opened i a := by simp [input, ha]
      have hn : shownName a = a := by simp [shownName, ha]
      cases ho : w.opened i a with
      | error m =>
        simp only [ho, Option.some.injEq, Except.ok.injEq, Prod.mk.injEq] at h
        obtain ⟨rfl, rfl⟩ := h
        exact ⟨false, _, _, .missing (hi.trans ho), .missing (hi.trans ho), rfl, rfl, by simp⟩
      | ok bytes =>
        simp only [ho] at h
        cases hp : process w.junk w.why c (some a) bytes o fuel with
        | none => simp [hp] at h
        | some x =>
          cases x with
          | error x => simp [hp] at h
          | ok r =>
            simp only [hp] at h
            obtain ⟨k1, k2⟩ := key (hi.trans ho) (by rw [hn]; exact hp)
            rw [if_neg k1] at h
            exact k2 h

/-! ## C44 -/

/-- The operands that are read: without any, the standard input. -/
def operands (as : List (List UInt8)) : List (List UInt8) := if as = [] then [ascii "-"] else as

/-- Which settings matter to what is read and reported. -/
structure Alike (c c' : Conf) : Prop where
  single : c.single = c'.single
  only : c.only = c'.only
  colorErr : c.colorErr = c'.colorErr

theorem Read.alike {c c' : Conf} (h : Alike c c') {bytes : List UInt8} {L : List PSeg} (hr : Read c bytes L) :
    Read c' bytes L := by
  unfold Read Conf.config at *
  rw [← h.single, ← h.only, ← h.colorErr]
  exact hr

theorem Says.alike {w : World} {c c' : Conf} (h : Alike c c') {i : Nat} {as : List (List UInt8)} {ok : Bool} {t : List UInt8}
    (hs : Says w c i as ok t) : Says w c' i as ok t := by
  induction hs with
  | nil => exact .nil
  | missing h1 => exact .missing h1
  | cons h1 h2 _ ih => exact .cons h1 (h2.alike h) ih

theorem Says.unique {w : World} {c : Conf} {i : Nat} {as : List (List UInt8)} {ok ok' : Bool} {t t' : List UInt8}
    (h : Says w c i as ok t) (h' : Says w c i as ok' t') : ok = ok' ∧ t = t' := by
  induction h generalizing ok' t' with
  | nil => cases h'; exact ⟨rfl, rfl⟩
  | missing h1 =>
    cases h' with
    | missing h2 => rw [h1] at h2; cases h2; exact ⟨rfl, rfl⟩
    | cons h2 _ _ => rw [h1] at h2; cases h2
  | cons h1 h2 _ ih =>
    cases h' with
    | missing h3 => rw [h1] at h3; cases h3
    | cons h3 h4 h5 =>
      rw [h1] at h3; cases h3
      obtain rfl := h2.unique h4
      obtain ⟨rfl, rfl⟩ := ih h5
      exact ⟨rfl, rfl⟩

/-- C44. Whenever `cypher-lint` returns from `main`, however it was told to read its input, the exit status and
everything on the standard error output are what `Says` says of the operands. -/
theorem lint_says {w : World} {tty : Bool × Bool} {os : List Opt} {as : List (List UInt8)} {c : Conf} {fuel status : Nat}
    {o : Out} (hc : options { colorOut := tty.1, colorErr := tty.2 } os = .go c)
    (h : main w tty os as fuel = some (.ok (status, o))) :
    ∃ ok, Says w c 0 (operands as) ok o.err ∧ status = if ok then 0 else 1 := by
  obtain ⟨c', hc'⟩ : ∃ c', c' = if c.dump then c else { c with stream := true } := ⟨_, rfl⟩
  have ha : Alike c' c := by subst hc'; split <;> exact ⟨rfl, rfl, rfl⟩
  simp only [main, hc, ← hc'] at h
  by_cases he : as = []
  · rw [if_pos he] at h
    cases hp : process w.junk w.why c' none (w.stdin 0) {} fuel with
    | none => simp [hp] at h
    | some x =>
      cases x with
      | error x => simp [hp] at h
      | ok r =>
        obtain ⟨res, o1⟩ := r
        simp only [hp, Option.some.injEq, Except.ok.injEq, Prod.mk.injEq] at h
        obtain ⟨rfl, rfl⟩ := h
        obtain ⟨L, h1, h2, h3, -⟩ := process_ok hp
        have hd : shownName (ascii "-") = ascii "<stdin>" := by simp [shownName]
        have hi : input w 0 (ascii "-") = .ok (w.stdin 0) := by simp [input]
        refine ⟨(errorsOf L).isEmpty && true, ?_, ?_⟩
        · rw [operands, if_pos he, h3, ← List.append_nil (List.flatMap _ _)]
          simp only [List.nil_append, Option.getD_none]
          rw [← hd]
          exact .cons hi (h1.alike ha) .nil
        · rw [h2, statusOf]
          cases (errorsOf L).isEmpty <;> rfl
  · rw [if_neg he] at h
    obtain ⟨ok, t, u, h1, -, h3, h4, -⟩ := files_ok h
    refine ⟨ok, ?_, by rw [h3]; simp⟩
    rw [operands, if_neg he, h4]
    exact h1.alike ha

theorem Says.good {w : World} {c : Conf} {i : Nat} {as : List (List UInt8)} {ok : Bool} {t : List UInt8}
    (h : Says w c i as ok t) : ok = true ↔ ∀ k a, as[k]? = some a → ∃ bytes L, input w (i + k) a = .ok bytes ∧
      Read c bytes L ∧ ∀ s ∈ L, s.errors = [] := by
  induction h with
  | nil => simp
  | @missing i a as m h1 =>
    refine ⟨fun h => by simp at h, fun h => ?_⟩
    obtain ⟨bytes, L, h2, -⟩ := h 0 a rfl
    rw [Nat.add_zero, h1] at h2
    cases h2
  | @cons i a as bytes L ok t h1 h2 _ ih =>
    rw [Bool.and_eq_true, ih]
    have hz : (errorsOf L).isEmpty = true ↔ ∀ s ∈ L, s.errors = [] := by
      rw [List.isEmpty_iff, errorsOf, List.flatMap_eq_nil_iff]
    rw [hz]
    constructor
    · rintro ⟨g1, g2⟩ k b hk
      cases k with
      | zero =>
        cases hk
        exact ⟨bytes, L, h1, h2, g1⟩
      | succ k =>
        have := g2 k b hk
        rwa [Nat.add_right_comm] at this
    · intro g
      refine ⟨?_, fun k b hk => ?_⟩
      · obtain ⟨bytes', L', g1, g2, g3⟩ := g 0 a rfl
        rw [Nat.add_zero, h1] at g1
        cases g1
        rwa [h2.unique g2]
      · have := g (k + 1) b hk
        rwa [Nat.add_right_comm]

/-- C44. The exit status is 0 exactly if all operands can be read and no segment of any of them has an error;
otherwise it is 1. -/
theorem lint_status {w : World} {tty : Bool × Bool} {os : List Opt} {as : List (List UInt8)} {c : Conf} {fuel status : Nat}
    {o : Out} (hc : options { colorOut := tty.1, colorErr := tty.2 } os = .go c)
    (h : main w tty os as fuel = some (.ok (status, o))) : status ≤ 1 ∧
    (status = 0 ↔ ∀ i a, (operands as)[i]? = some a → ∃ bytes L, input w i a = .ok bytes ∧ Read c bytes L ∧
      ∀ s ∈ L, s.errors = []) := by
  obtain ⟨ok, h1, h2⟩ := lint_says hc h
  have := h1.good
  simp only [Nat.zero_add] at this
  rw [← this, h2]
  cases ok <;> simp

/-- C44. `--ast`, `--stream`, the width and the colours of the trees change neither the exit status nor the messages. -/
theorem lint_same {w w' : World} {tty tty' : Bool × Bool} {os os' : List Opt} {as : List (List UInt8)} {c c' : Conf}
    {fuel fuel' status status' : Nat} {o o' : Out}
    (hc : options { colorOut := tty.1, colorErr := tty.2 } os = .go c)
    (hc' : options { colorOut := tty'.1, colorErr := tty'.2 } os' = .go c')
    (ha : Alike c c') (hw : w'.prog = w.prog ∧ w'.stdin = w.stdin ∧ w'.opened = w.opened)
    (h : main w tty os as fuel = some (.ok (status, o))) (h' : main w' tty' os' as fuel' = some (.ok (status', o'))) :
    status = status' ∧ o.err = o'.err := by
  obtain ⟨ok, h1, h2⟩ := lint_says hc h
  obtain ⟨ok', h1', h2'⟩ := lint_says hc' h'
  have hs : Says w c' 0 (operands as) ok' o'.err := by
    generalize operands as = l at h1'
    generalize 0 = i at h1'
    generalize o'.err = t at h1'
    clear h h' h1 h2 hc hc' h2'
    have hi : ∀ i a, input w' i a = input w i a := fun i a => by rw [input, input, hw.2.1, hw.2.2]
    induction h1' with
    | nil => exact .nil
    | missing g => rw [hw.1]; exact .missing ((hi _ _).symm.trans g)
    | cons g1 g2 _ ih => exact .cons ((hi _ _).symm.trans g1) g2 ih
  obtain ⟨rfl, e⟩ := (h1.alike ha).unique hs
  exact ⟨h2.trans h2'.symm, e⟩

/-- C44. The standard output: nothing without `--ast`; else the trees of each operand, segment by segment with
`--stream`, or all at once below the name of the operand, with ordinals from 0. -/
theorem lint_lists {w : World} {tty : Bool × Bool} {os : List Opt} {as : List (List UInt8)} {c : Conf} {fuel status : Nat}
    {o : Out} (hc : options { colorOut := tty.1, colorErr := tty.2 } os = .go c)
    (h : main w tty os as fuel = some (.ok (status, o))) :
    (c.dump = false → o.out = []) ∧
    (c.dump = true → if as = [] then ∃ L, Read c (w.stdin 0) L ∧ Printed w c none L o.out else Lists w c 0 as o.out) := by
  obtain ⟨c', hc'⟩ : ∃ c', c' = if c.dump then c else { c with stream := true } := ⟨_, rfl⟩
  simp only [main, hc, ← hc'] at h
  by_cases he : as = []
  · rw [if_pos he] at h
    cases hp : process w.junk w.why c' none (w.stdin 0) {} fuel with
    | none => simp [hp] at h
    | some x =>
      cases x with
      | error x => simp [hp] at h
      | ok r =>
        obtain ⟨res, o1⟩ := r
        simp only [hp, Option.some.injEq, Except.ok.injEq, Prod.mk.injEq] at h
        obtain ⟨rfl, rfl⟩ := h
        obtain ⟨L, h1, h2, -, t, h4, h5⟩ := process_ok hp
        rw [List.nil_append] at h5
        subst h5
        cases hd : c.dump with
        | false =>
          rw [hd] at hc'
          subst hc'
          simpa [Printed, Listed, hd] using h4
        | true =>
          rw [hd] at hc'
          subst hc'
          simp only [he, if_true, true_imp_iff]
          exact ⟨by simp, L, h1, h4⟩
  · rw [if_neg he] at h
    obtain ⟨ok, t, u, -, h1, -, -, h4⟩ := files_ok h
    rw [List.nil_append] at h4
    subst h4
    cases hd : c.dump with
    | false =>
      rw [hd] at hc'
      refine ⟨fun _ => ?_, fun h => by cases h⟩
      simp only [Bool.false_eq_true, if_false] at hc'
      have h2 : c'.dump = false ∧ c'.stream = true := by subst hc'; exact ⟨rfl, rfl⟩
      clear h hc' he
      generalize 0 = i at h1
      generalize o.out = t at h1
      induction h1 with
      | nil => rfl
      | missing => rfl
      | cons _ _ g _ ih =>
        simp only [Printed, h2.2, if_true, Listed, h2.1, Bool.false_eq_true, if_false] at g
        rw [g, ih]; rfl
    | true =>
      rw [hd] at hc'
      subst hc'
      refine ⟨fun h => (by cases h), fun _ => ?_⟩
      rw [if_neg he]
      exact h1

/-! ## `cypher-lint` always ends -/

theorem callback_aborts {junk : Nat → List UInt8} {c : Conf} {name : List UInt8} {k : Cb} {s : PSeg}
    (hc : ∀ e ∈ s.errors, e.context.isSome = true) (hk : k.abort = none) :
    ∀ a, (callback junk c name k s).2.abort = some a → c.dump = true ∧ ∃ p, a = .print p := by
  have h1 := errorLoop_ok (name := name) (segment_errors s) hc (s.errors.length + 1) 0 k.out.err (Nat.zero_le _) (by omega)
  intro a
  unfold callback
  rw [h1]
  simp only
  cases hd : c.dump with
  | false => simp [hk]
  | true =>
    simp only [if_true]
    split
    · intro h
      cases h
      exact ⟨trivial, _, rfl⟩
    · simp [hk]

theorem callback_zero {junk : Nat → List UInt8} {c : Conf} {name : List UInt8} {k k' : Cb} {s : PSeg}
    (hc : ∀ e ∈ s.errors, e.context.isSome = true) (hk : k.abort = none) (h : callback junk c name k s = (0, k')) :
    k'.abort = none := by
  have h1 := errorLoop_ok (name := name) (segment_errors s) hc (s.errors.length + 1) 0 k.out.err (Nat.zero_le _) (by omega)
  unfold callback at h
  rw [h1] at h
  simp only at h
  cases hd : c.dump with
  | false =>
    simp only [hd, Bool.false_eq_true, if_false] at h
    cases h
    exact hk
  | true =>
    simp only [hd, if_true] at h
    split at h
    · cases h
    · cases h; exact hk

theorem session_abort {junk : Nat → List UInt8} {c : Conf} {name : List UInt8} {only single : Bool} {color : Colorization}
    {w : List UInt8} {off : Pos} {ordinal : Nat} {last : Option Pos} {k : Cb} {ret : Ret Cb}
    (h : Session only single color (callback junk c name) w off ordinal last k ret) (hk : k.abort = none) :
    ∀ a, ret.2.2.abort = some a → c.dump = true ∧ ∃ p, a = .print p := by
  have hc : ∀ {w off n seg}, SegOk only color w off n seg → ∀ e ∈ seg.errors, e.context.isSome = true := by
    intro w off n seg hs e he
    obtain ⟨buf, rs, -, -, g3⟩ := hs.errors
    exact (g3 e he).context.1
  have hc' : ∀ {w off n seg} {k : Cb} {err k'}, SegOk only color w off n seg → callback junk c name k seg = (err, k') →
      k.abort = none → ∀ a, k'.abort = some a → c.dump = true ∧ ∃ p, a = .print p := by
    intro w off n seg k err k' hs he hk
    have := callback_aborts (junk := junk) (c := c) (name := name) (hc hs) hk
    rwa [he] at this
  induction h with
  | nothing => intro a ha; rw [hk] at ha; cases ha
  | stopped hs _ he _ => exact hc' hs he hk
  | failed hs _ he _ => exact hc' hs he hk
  | done hs _ he _ => exact hc' hs he hk
  | next hs _ he _ _ ih =>
    exact ih (callback_zero (hc hs) hk he)

/-- How the parse of an input may end: the callback only has to answer 0 and to keep from aborting. -/
theorem streamed_ends (w : World) (c : Conf) (name bytes : List UInt8) (o : Out) :
    ∃ r, Ends (streamed w.junk w.why c name bytes o) r ∧ ∀ x, r = .error x →
      (∃ s, x = .parse s ∧ Known bytes s) ∨ (c.dump = true ∧ ∃ p, x = .print p) := by
  obtain ⟨r, ⟨N, hN⟩, hr⟩ := (stream_delivers bytes).session (callback w.junk c name) { out := o } c.config c.only c.single
  rcases hr with ⟨e, rfl, he⟩ | ⟨⟨ret, last, k⟩, rfl, hs⟩
  · refine ⟨.error (.parse e), ⟨N, fun f hf => by rw [streamed, hN f hf]⟩, fun x hx => ?_⟩
    cases hx
    exact .inl ⟨e, rfl, he⟩
  · have hk : ∀ a, k.abort = some a → c.dump = true ∧ ∃ p, a = .print p := by
      intro a ha
      exact session_abort hs (by simp) _ ha
    refine ⟨match k.abort with
      | some a => .error a
      | none => if ret ≠ 0 then
          .ok (-1, { k.out with err := k.out.err ++ (ascii "cypher_fparse_each: " ++ w.why ++ ascii "\n") })
        else .ok (if k.nerrors = 0 then 0 else 1, k.out), ⟨N, fun f hf => ?_⟩, fun x hx => ?_⟩
    · rw [streamed, hN f hf]
      simp only
      cases k.abort with
      | some a => rfl
      | none => simp only; split <;> rfl
    · cases ha : k.abort with
      | some a =>
        rw [ha] at hx
        cases hx
        exact .inr (hk _ ha)
      | none =>
        rw [ha] at hx
        simp only at hx
        split at hx <;> cases hx


theorem all_ends (w : World) (c : Conf) (name : List UInt8) (header : Option (List UInt8)) (bytes : List UInt8) (o : Out) :
    ∃ r, Ends (all w.junk w.why c name header bytes o) r ∧ ∀ x, r = .error x →
      (∃ s, x = .parse s ∧ Known bytes s) ∨ (c.dump = true ∧ ∃ p, x = .print p) := by
  obtain ⟨r, ⟨N, hN⟩, hr⟩ := (stream_delivers bytes).session (fun k s => (0, k ++ [s])) [] c.config c.only c.single
  rcases hr with ⟨e, rfl, he⟩ | ⟨⟨ret, last, L⟩, rfl, hs⟩
  · refine ⟨.error (.parse e), ⟨N, fun f hf => ?_⟩, fun x hx => ?_⟩
    · have h1 : collect streamSource bytes c.config c.only c.single f = some (.error e) := hN f hf
      simp only [all, h1]
    · cases hx
      exact .inl ⟨e, rfl, he⟩
  · refine ⟨_, ⟨N, fun f hf => (all_value (hN f hf)).2⟩, fun x hx => ?_⟩
    split at hx
    · rename_i hd
      split at hx
      · cases hx; exact .inr ⟨hd, _, rfl⟩
      · cases hx
    · cases hx

theorem process_ends (w : World) (c : Conf) (filename : Option (List UInt8)) (bytes : List UInt8) (o : Out) :
    ∃ r, Ends (process w.junk w.why c filename bytes o) r ∧ ∀ x, r = .error x →
      (∃ s, x = .parse s ∧ Known bytes s) ∨ (c.dump = true ∧ ∃ p, x = .print p) := by
  cases hs : c.stream with
  | true =>
    obtain ⟨r, ⟨N, h1⟩, h2⟩ := streamed_ends w c (filename.getD (ascii "<stdin>")) bytes o
    exact ⟨r, ⟨N, fun f hf => by simp only [process, hs, if_true]; exact h1 f hf⟩, h2⟩
  | false =>
    obtain ⟨r, ⟨N, h1⟩, h2⟩ := all_ends w c (filename.getD (ascii "<stdin>")) filename bytes o
    exact ⟨r, ⟨N, fun f hf => by simp only [process, hs, Bool.false_eq_true, if_false]; exact h1 f hf⟩, h2⟩

/-- Why the process may end early: an assertion of the parser, about an operand; or printing a tree. -/
def Early (w : World) (c : Conf) (i : Nat) (as : List (List UInt8)) (x : Abort) : Prop :=
  (∃ k a bytes s, as[k]? = some a ∧ input w (i + k) a = .ok bytes ∧ x = .parse s ∧ Known bytes s) ∨
    (c.dump = true ∧ ∃ p, x = .print p)

theorem files_ends (w : World) (c : Conf) : ∀ (as : List (List UInt8)) (i : Nat) (bad : Bool) (o : Out),
    ∃ r, Ends (fun fuel => files w c fuel i as bad o) r ∧ ∀ x, r = .error x → Early w c i as x := by
  intro as
  induction as with
  | nil => intro i bad o; exact ⟨_, ⟨0, fun _ _ => rfl⟩, fun x hx => by cases hx⟩
  | cons a as ih =>
    intro i bad o
    have hlater : ∀ {x}, Early w c (i + 1) as x → Early w c i (a :: as) x := by
      rintro x (⟨k, b, bytes, s, h1, h2, h3⟩ | h)
      · exact .inl ⟨k + 1, b, bytes, s, h1, by rw [← h2]; congr 1; omega, h3⟩
      · exact .inr h
    have hnow : ∀ {x bytes}, input w i a = .ok bytes → ((∃ s, x = .parse s ∧ Known bytes s) ∨
        (c.dump = true ∧ ∃ p, x = Abort.print p)) → Early w c i (a :: as) x := by
      rintro x bytes hb (⟨s, h1, h2⟩ | h)
      · exact .inl ⟨0, a, bytes, s, rfl, hb, h1, h2⟩
      · exact .inr h
    by_cases ha : a = ascii "-"
    · obtain ⟨r, ⟨N, h1⟩, h2⟩ := process_ends w c (some (ascii "<stdin>")) (w.stdin i) o
      have hi : input w i a = .ok (w.stdin i) := by simp [input, ha]
      cases r with
      | error x =>
        refine ⟨.error x, ⟨N, fun f hf => ?_⟩, fun y hy => ?_⟩
        · simp only [files, ha, if_true, h1 f hf]
        · cases hy; exact hnow hi (h2 x rfl)
      | ok r =>
        obtain ⟨res, o1⟩ := r
        obtain ⟨r', ⟨N', h1'⟩, h2'⟩ := ih (i + 1) (bad || res != 0) o1
        refine ⟨r', ⟨max N N', fun f hf => ?_⟩, fun y hy => hlater (h2' y hy)⟩
        simp only [files, ha, if_true, h1 f (by omega)]
        exact h1' f (by omega)
    · have hi : input w i a = w.opened i a := by simp [input, ha]
      cases ho : w.opened i a with
      | error m =>
        refine ⟨.ok (1, { o with err := o.err ++ (w.prog ++ ascii ": " ++ a ++ ascii ": " ++ m ++ ascii "\n") }),
          ⟨0, fun f hf => ?_⟩, ?_⟩
        · simp only [files, ha, if_false, ho]
        · intro x hx; cases hx
      | ok bytes =>
        obtain ⟨r, ⟨N, h1⟩, h2⟩ := process_ends w c (some a) bytes o
        cases r with
        | error x =>
          refine ⟨.error x, ⟨N, fun f hf => ?_⟩, fun y hy => ?_⟩
          · simp only [files, ha, if_false, ho, h1 f hf]
          · cases hy; exact hnow (hi.trans ho) (h2 x rfl)
        | ok r =>
          obtain ⟨res, o1⟩ := r
          by_cases hres : res < 0
          · refine ⟨.ok (1, o1), ⟨N, fun f hf => ?_⟩, fun y hy => by cases hy⟩
            simp only [files, ha, if_false, ho, h1 f hf, hres, if_true]
          · obtain ⟨r', ⟨N', h1'⟩, h2'⟩ := ih (i + 1) (bad || res != 0) o1
            refine ⟨r', ⟨max N N', fun f hf => ?_⟩, fun y hy => hlater (h2' y hy)⟩
            simp only [files, ha, if_false, ho, h1 f (by omega), hres]
            exact h1' f (by omega)

/-- C44. `cypher-lint` ends for all inputs; it does not return from `main` only where the parser stops at a known
assertion, or where a tree cannot be printed. -/
theorem lint_ends (w : World) (tty : Bool × Bool) (os : List Opt) (as : List (List UInt8)) :
    ∃ r, Ends (main w tty os as) r ∧ ∀ x, r = .error x →
      ∃ c, options { colorOut := tty.1, colorErr := tty.2 } os = .go c ∧ Early w c 0 (operands as) x := by
  cases hc : options { colorOut := tty.1, colorErr := tty.2 } os with
  | help => exact ⟨_, ⟨0, fun f _ => by simp only [main, hc]; rfl⟩, fun x hx => by cases hx⟩
  | version => exact ⟨_, ⟨0, fun f _ => by simp only [main, hc]; rfl⟩, fun x hx => by cases hx⟩
  | usage => exact ⟨_, ⟨0, fun f _ => by simp only [main, hc]; rfl⟩, fun x hx => by cases hx⟩
  | go c =>
    obtain ⟨c', hc'⟩ : ∃ c', c' = if c.dump then c else { c with stream := true } := ⟨_, rfl⟩
    have hd : c'.dump = c.dump := by subst hc'; split <;> rfl
    by_cases he : as = []
    · obtain ⟨r, ⟨N, h1⟩, h2⟩ := process_ends w c' none (w.stdin 0) {}
      cases r with
      | error x =>
        refine ⟨.error x, ⟨N, fun f hf => ?_⟩, fun y hy => ?_⟩
        · simp only [main, hc, ← hc', he, if_true, h1 f hf]
        · cases hy
          refine ⟨c, rfl, ?_⟩
          rcases h2 x rfl with ⟨s, g1, g2⟩ | g
          · exact .inl ⟨0, ascii "-", w.stdin 0, s, by simp [operands, he], by simp [input], g1, g2⟩
          · exact .inr (hd ▸ g)
      | ok r =>
        obtain ⟨res, o1⟩ := r
        refine ⟨.ok (if res ≠ 0 then 1 else 0, o1), ⟨N, fun f hf => ?_⟩, ?_⟩
        · simp only [main, hc, ← hc', he, if_true, h1 f hf]
        · intro x hx; cases hx
    · obtain ⟨r, ⟨N, h1⟩, h2⟩ := files_ends w c' as 0 false {}
      refine ⟨r, ⟨N, fun f hf => ?_⟩, fun x hx => ⟨c, rfl, ?_⟩⟩
      · simp only [main, hc, ← hc', he, if_false]
        exact h1 f hf
      · rw [operands, if_neg he]
        rcases h2 x hx with g | g
        · exact .inl g
        · exact .inr (hd ▸ g)

/-! ## Examples -/

theorem streamed_mono {junk : Nat → List UInt8} {why : List UInt8} {c : Conf} {name bytes : List UInt8} {o : Out}
    {fuel fuel' : Nat} {r : Except Abort (Int × Out)} (h : streamed junk why c name bytes o fuel = some r)
    (hf : fuel ≤ fuel') : streamed junk why c name bytes o fuel' = some r := by
  unfold streamed at h ⊢
  cases hp : parseEach streamSource bytes (callback junk c name) { out := o } c.config c.only c.single fuel with
  | none => simp [hp] at h
  | some x => rw [parseEach_mono hp hf]; rwa [hp] at h

theorem all_mono {junk : Nat → List UInt8} {why : List UInt8} {c : Conf} {name bytes : List UInt8}
    {header : Option (List UInt8)} {o : Out} {fuel fuel' : Nat} {r : Except Abort (Int × Out)}
    (h : all junk why c name header bytes o fuel = some r) (hf : fuel ≤ fuel') :
    all junk why c name header bytes o fuel' = some r := by
  unfold all at h ⊢
  cases hp : collect streamSource bytes c.config c.only c.single fuel with
  | none => simp [hp] at h
  | some x =>
    have : collect streamSource bytes c.config c.only c.single fuel' = some x := parseEach_mono hp hf
    rw [this]; rwa [hp] at h

theorem process_mono {junk : Nat → List UInt8} {why : List UInt8} {c : Conf} {filename : Option (List UInt8)}
    {bytes : List UInt8} {o : Out} {fuel fuel' : Nat} {r : Except Abort (Int × Out)}
    (h : process junk why c filename bytes o fuel = some r) (hf : fuel ≤ fuel') :
    process junk why c filename bytes o fuel' = some r := by
  unfold process at h ⊢
  split
  · rename_i hs; rw [if_pos hs] at h; exact streamed_mono h hf
  · rename_i hs; rw [if_neg hs] at h; exact all_mono h hf

theorem files_mono {w : World} {c : Conf} {fuel fuel' : Nat} (hf : fuel ≤ fuel') :
    ∀ {as : List (List UInt8)} {i : Nat} {bad : Bool} {o : Out} {r : Except Abort (Nat × Out)},
      files w c fuel i as bad o = some r → files w c fuel' i as bad o = some r := by
  intro as
  induction as with
  | nil => intro i bad o r h; exact h
  | cons a as ih =>
    intro i bad o r h
    unfold files at h ⊢
    split
    · rename_i ha
      rw [if_pos ha] at h
      cases hp : process w.junk w.why c (some (ascii "<stdin>")) (w.stdin i) o fuel with
      | none => simp [hp] at h
      | some x =>
        rw [process_mono hp hf]
        rw [hp] at h
        cases x with
        | error x => exact h
        | ok x => exact ih h
    · rename_i ha
      rw [if_neg ha] at h
      cases ho : w.opened i a with
      | error m => rw [ho] at h; exact h
      | ok bytes =>
        rw [ho] at h
        simp only at h ⊢
        cases hp : process w.junk w.why c (some a) bytes o fuel with
        | none => simp [hp] at h
        | some x =>
          rw [process_mono hp hf]
          rw [hp] at h
          cases x with
          | error x => exact h
          | ok x =>
            obtain ⟨res, o1⟩ := x
            simp only at h ⊢
            by_cases hr : res < 0
            · rw [if_pos hr] at h ⊢; exact h
            · rw [if_neg hr] at h ⊢; exact ih h

theorem main_mono {w : World} {tty : Bool × Bool} {os : List Opt} {as : List (List UInt8)} {fuel fuel' : Nat}
    {r : Except Abort (Nat × Out)} (h : main w tty os as fuel = some r) (hf : fuel ≤ fuel') :
    main w tty os as fuel' = some r := by
  unfold main at h ⊢
  cases hc : options { colorOut := tty.1, colorErr := tty.2 } os with
  | help => rw [hc] at h; exact h
  | version => rw [hc] at h; exact h
  | usage => rw [hc] at h; exact h
  | go c =>
    rw [hc] at h
    simp only at h ⊢
    by_cases he : as = []
    · rw [if_pos he] at h ⊢
      generalize (if c.dump = true then c else { c with stream := true }) = c' at h ⊢
      cases hp : process w.junk w.why c' none (w.stdin 0) {} fuel with
      | none => simp [hp] at h
      | some x =>
        rw [process_mono hp hf]
        rwa [hp] at h
    · rw [if_neg he] at h ⊢
      exact files_mono hf h

private instance [DecidableEq α] [DecidableEq β] : DecidableEq (Except α β)
  | .ok a, .ok b => decidable_of_iff (a = b) (by simp)
  | .error a, .error b => decidable_of_iff (a = b) (by simp)
  | .ok _, .error _ => .isFalse (by simp)
  | .error _, .ok _ => .isFalse (by simp)

theorem ends_of_run {w : World} {tty : Bool × Bool} {os : List Opt} {as : List (List UInt8)} (fuel : Nat)
    {r : Except Abort (Nat × Out)} (h : main w tty os as fuel = some r) : Ends (main w tty os as) r :=
  ⟨fuel, fun _ hf => main_mono h hf⟩

/-- A terminal, a standard input, and two files: `f`, and `g` which cannot be read. -/
private def desk (stdin f : String) : World where
  prog := ascii "lint"
  why := []
  versions := ([], [])
  junk n := List.replicate (n + 1) 0
  stdin _ := ascii stdin
  opened _ a := if a = ascii "f" then .ok (ascii f) else .error (ascii "no")

/-- What may begin an expression. -/
private def begins : String :=
  "NOT, '+', '-', TRUE, FALSE, NULL, \"...string...\", a float, an integer, '[', a parameter, '{', " ++
  "CASE, FILTER, EXTRACT, REDUCE, ALL, ANY, NONE, SINGLE, shortestPath, allShortestPaths, '(', a function name or an identifier"

/-- An error is reported with its place, its text and a mark, and the exit status is 1. -/
example : Ends (main (desk "RETURN 1;\n RETURN 1 +" "") (false, false) [] []) (.ok (1, ⟨[],
    ascii ("<stdin>:2:12: Invalid input at end of input: expected " ++ begins ++ "\n RETURN 1 +\n           ^\n")⟩)) :=
  ends_of_run 150 (by decide +kernel)

/-- C44 (negation). `lint -a` of nothing converts `log10(0)` to an integer (ast.c:857-859, C37). -/
theorem lint_empty_undefined : Ends (main (desk "" "") (false, false) [.ast] []) (.error (.print .conversion)) :=
  ends_of_run 100 (by decide +kernel)

/-- C44 (negation). `lint -a --stream` does so for each statement that ends with a newline: there is a last segment
with nothing in it. -/
theorem lint_newline_undefined :
    Ends (main (desk "RETURN 1;\n" "") (false, false) [.ast, .stream] []) (.error (.print .conversion)) :=
  ends_of_run 150 (by decide +kernel)

/-- At once, the same input is printed. -/
example : Ends (main (desk "RETURN 1;\n" "") (false, false) [.ast] []) (.ok (0, ⟨
    ascii ("@0  0..9  statement           body=@1\n" ++
      "@1  0..9  > query             clauses=[@2]\n" ++
      "@2  0..8  > > RETURN          projections=[@3]\n" ++
      "@3  7..8  > > > projection    expression=@4, alias=@5\n" ++
      "@4  7..8  > > > > integer     1\n" ++
      "@5  7..8  > > > > identifier  `1`\n"), []⟩)) :=
  ends_of_run 150 (by decide +kernel)

/-- Operands are taken in order up to the first that cannot be read. -/
example : Ends (main (desk "" "RETURN") (false, false) [] [ascii "f", ascii "g", ascii "f"]) (.ok (1, ⟨[],
    ascii ("f:1:7: Invalid input at end of input: expected DISTINCT, '*', " ++ begins ++
      "\nRETURN\n      ^\nlint: g: no\n")⟩)) :=
  ends_of_run 150 (by decide +kernel)

/-! ## Options -/

/-- Options after which nothing is parsed. -/
def Opt.ends : Opt → Bool
  | .help | .version | .other => true
  | _ => false

/-- The last of the options that `f` has something to say about, or else `d`. -/
def lastOf {α : Type} (f : Opt → Option α) (os : List Opt) (d : α) : α := (os.filterMap f).getLast?.getD d

/-- `--colorize` and `--no-colorize`. -/
def Opt.color? : Opt → Option Bool
  | .colorize => some true
  | .noColorize => some false
  | _ => none

/-- `--output-width`. -/
def Opt.width? : Opt → Option Nat
  | .outputWidth n => some n
  | _ => none

theorem lastOf_cons {α : Type} {f : Opt → Option α} {o : Opt} {os : List Opt} {d : α} :
    lastOf f (o :: os) d = lastOf f os ((f o).getD d) := by
  unfold lastOf
  cases h : f o with
  | none => simp [List.filterMap_cons, h]
  | some a => simp [List.filterMap_cons, h, List.getLast?_cons]

/-- C44. Each switch is on when it is given or was on before; of widths and colours the last counts. Nothing is parsed
after `--help`, `--version` or an unknown option, and the first of these says what happens. -/
theorem lint_options (c : Conf) (os : List Opt) :
    ((∀ o ∈ os, o.ends = false) → options c os = .go
      { width := lastOf Opt.width? os c.width
        single := c.single || os.contains .one
        only := c.only || os.contains .onlyStatements
        dump := c.dump || os.contains .ast
        colorOut := lastOf Opt.color? os c.colorOut
        colorErr := lastOf Opt.color? os c.colorErr
        stream := c.stream || os.contains .stream }) ∧
    (∀ pre o post, os = pre ++ o :: post → (∀ x ∈ pre, x.ends = false) → o.ends = true →
      options c os = (match o with | .help => .help | .version => .version | _ => .usage)) := by
  induction os generalizing c with
  | nil =>
    refine ⟨fun _ => ?_, fun pre o post h => ?_⟩
    · simp [options, lastOf]
    · simp at h
  | cons x os ih =>
    refine ⟨fun h => ?_, fun pre o post h hp ho => ?_⟩
    · have hx := h x (by simp)
      have ht : ∀ o ∈ os, o.ends = false := fun o ho => h o (by simp [ho])
      cases x <;> simp only [Opt.ends, Bool.true_eq_false] at hx <;>
        simp [options, (ih _).1 ht, lastOf_cons, Opt.width?, Opt.color?]
    · cases pre with
      | nil =>
        simp only [List.nil_append, List.cons.injEq] at h
        obtain ⟨rfl, rfl⟩ := h
        cases x <;> simp only [Opt.ends, Bool.false_eq_true] at ho <;> rfl
      | cons y pre =>
        simp only [List.cons_append, List.cons.injEq] at h
        obtain ⟨rfl, rfl⟩ := h
        have hx := hp x (by simp)
        have ht : ∀ o ∈ pre, o.ends = false := fun o ho => hp o (by simp [ho])
        cases x <;> simp only [Opt.ends, Bool.true_eq_false] at hx <;>
          simp only [options] <;> exact (ih _).2 pre o post rfl ht ho

example : options {} [.colorize, .onlyStatements, .outputWidth 3, .noColorize, .outputWidth 7] =
    .go { width := 7, only := true } := by decide

end Verif.Lint
