import Verif.Cypher.DetailItems
import Verif.Cypher.Typing
import Verif.Props.Print
/-!
# The steps of `detailstr` as items
-/
namespace Verif.Cypher
open Verif Verif.Print List

def D.toks : D → List Tok
  | .fmt ts => ts
  | .put c | .close c _ => [.ch c]
  | .copy t k | .copyAnd t k => lits (t.take k)

def toksOf (ds : List D) : List Tok := ds.flatMap D.toks

@[simp] theorem toksOf_nil : toksOf [] = [] := rfl
@[simp] theorem toksOf_cons {d : D} {ds : List D} : toksOf (d :: ds) = d.toks ++ toksOf ds := rfl
@[simp] theorem toksOf_append {a b : List D} : toksOf (a ++ b) = toksOf a ++ toksOf b := by simp [toksOf]

@[simp] theorem lits_nil : lits [] = [] := rfl
@[simp] theorem lits_append {a b : List UInt8} : lits (a ++ b) = lits a ++ lits b := by simp [lits]

theorem bytesOf_lits {t : List UInt8} : bytesOf (lits t) = t := by
  induction t with
  | nil => rfl
  | cons c t ih => show [c] ++ bytesOf (lits t) = _; rw [ih]; rfl

theorem textOf_toW (ds : List D) : textOf (ds.map D.toW) = bytesOf (toksOf ds) := by
  induction ds with
  | nil => rfl
  | cons d ds ih =>
    have e : textOf ((d :: ds).map D.toW) = d.toW.text ++ textOf (ds.map D.toW) := by simp [textOf]
    rw [e, ih, toksOf_cons, bytesOf, bytesOf, flatMap_append]
    congr 1
    cases d with
    | fmt ts => rfl
    | put c => rfl
    | close c n => rfl
    | copy t k => exact bytesOf_lits.symm
    | copyAnd t k => exact bytesOf_lits.symm

/-! ## Items -/

def Pc.items : Pc → Option (List Item)
  | .s t => some [.lit (ascii t)]
  | .a i => some [.arg i]
  | .flag k t => some [.flag k (ascii t)]
  | .pick k ts => some [.pick k (ts.map ascii)]
  | _ => none

def fmtItems : List Pc → Option (List Item)
  | [] => some []
  | p :: ps => do
    let x ← p.items
    let y ← fmtItems ps
    some (x ++ y)

def Prim.items : Prim → Option (List Item)
  | .fmt ps => fmtItems ps
  | .ifArg i pre post => some [.opt i (ascii pre) (ascii post)]
  | .put c | .close c _ => some [.lit [byte c]]
  | .copy t k | .copyAnd t k => some [.lit ((ascii t).take k)]
  | .elems k => some [.rep k [] [44, 32] [44, 32] []]
  | .each k first next => some [.rep k (ascii first) (ascii next) (ascii next) []]
  | .pairs k l r => some [.rep k (ascii l) (ascii ":") (ascii r ++ ascii ", " ++ ascii l) (ascii r)]
  | .path k => some [.rep k (ascii "(") (ascii ")" ++ ascii "-[") (ascii "]-" ++ ascii "(") (ascii ")")]
  | .comparison => none

def Prim.lit : Prim → Option (List UInt8)
  | .fmt [.s t] => some (ascii t)
  | .put c => some [byte c]
  | .copy t k | .copyAnd t k => some ((ascii t).take k)
  | _ => none

def litAll : List Prim → Option (List UInt8)
  | [] => some []
  | p :: ps => do
    let x ← p.lit
    let y ← litAll ps
    some (x ++ y)

def ifSeqItem (k : Nat) : List Prim → List UInt8 → Option Item
  | [], _ => none
  | p :: ps, acc =>
    if p = .elems k then (litAll ps).map fun l => .rep k acc [44, 32] [44, 32] l
    else p.lit.bind fun t => ifSeqItem k ps (acc ++ t)

def stepsItems : List Step → Option (List Item)
  | [] => some []
  | .prim p :: ss => do
    let x ← p.items
    let y ← stepsItems ss
    some (x ++ y)
  | .ifSeq k ps :: ss => do
    let x ← ifSeqItem k ps []
    let y ← stepsItems ss
    some (x :: y)
  | .ifFlag k t n :: ss => do
    let y ← stepsItems ss
    some (.flag k ((ascii t).take n) :: y)
  | .unlessNone _ _ :: _ => none

/-- Pairs are not torn apart. -/
def Prim.Fair (g : Given) : Prim → Prop
  | .pairs k _ _ => (g.array k).length % 2 = 0
  | _ => True

def Step.Fair (g : Given) : Step → Prop
  | .prim p => p.Fair g
  | _ => True

theorem need_ok {α : Type} {x : Option α} {a : α} (h : need x = .ok a) : x = some a := by
  cases x with
  | none => cases h
  | some b => injection h with h; rw [h]

theorem Pc.toks_items {g : Given} {p : Pc} {is : List Item} {ts : List Tok} (h : p.items = some is)
    (ht : p.toks g = .ok ts) : ts = itemToks g is ∧ ∀ i ∈ is, i.Present g := by
  cases p with
  | s t =>
    injection h with h; injection ht with ht; subst h ht
    simp [Item.toks, Item.Present]
  | a i =>
    injection h with h; subst h
    simp only [Pc.toks] at ht
    cases hn : need (g.arg i) with
    | error e => rw [hn] at ht; cases ht
    | ok o =>
      rw [hn] at ht
      injection ht with ht; subst ht
      have := need_ok hn
      simp [Item.toks, Item.Present, this]
  | flag k t =>
    injection h with h; injection ht with ht; subst h ht
    simp [Item.toks, Item.Present]
  | pick k ts =>
    injection h with h; subst h
    simp only [Pc.toks] at ht
    cases hn : need ts[g.flag k]? with
    | error e => rw [hn] at ht; cases ht
    | ok o =>
      rw [hn] at ht
      injection ht with ht; subst ht
      have hs := need_ok hn
      obtain ⟨hl, hs⟩ := List.getElem?_eq_some_iff.1 hs
      subst hs
      simp [Item.toks, Item.Present, hl]
  | _ => cases h

theorem fmtToks_items {g : Given} : ∀ {ps : List Pc} {is : List Item} {ts : List Tok}, fmtItems ps = some is →
    fmtToks g ps = .ok ts → ts = itemToks g is ∧ ∀ i ∈ is, i.Present g
  | [], is, ts, h, ht => by
    injection h with h; injection ht with ht; subst h ht
    simp
  | p :: ps, is, ts, h, ht => by
    simp only [fmtItems, bind, Option.bind] at h
    simp only [fmtToks, bind, Except.bind] at ht
    cases h1 : p.items with
    | none => rw [h1] at h; cases h
    | some x =>
      cases h2 : fmtItems ps with
      | none => rw [h1, h2] at h; cases h
      | some y =>
        cases h3 : p.toks g with
        | error e => rw [h3] at ht; cases ht
        | ok a =>
          cases h4 : fmtToks g ps with
          | error e => rw [h3, h4] at ht; cases ht
          | ok b =>
            rw [h1, h2] at h; rw [h3, h4] at ht
            injection h with h; injection ht with ht; subst h ht
            have r1 := Pc.toks_items h1 h3
            have r2 := fmtToks_items h2 h4
            refine ⟨by rw [itemToks_append, r1.1, r2.1], fun i hi => ?_⟩
            rcases mem_append.1 hi with hi | hi
            · exact r1.2 i hi
            · exact r2.2 i hi

/-! ## Loops -/

theorem elems_toks : ∀ (x : Nat) (xs : List Nat), toksOf (elemsD (x :: xs)) = .ord x :: altToks [44, 32] [44, 32] xs
  | x, [] => rfl
  | x, y :: ys => by
    simp only [elemsD, toksOf_cons, D.toks, altToks, elems_toks y ys]
    rfl

theorem each_toks (next : List UInt8) (xs : List Nat) :
    toksOf (xs.map fun y => .fmt (lits next ++ [.ord y])) = altToks next next xs := by
  induction xs with
  | nil => rfl
  | cons x xs ih => simp [altToks, ih, D.toks]

theorem pairs_toks (l r : List UInt8) : ∀ (xs : List Nat) (sep : List UInt8), xs.length % 2 = 0 →
    toksOf (pairsD l r sep xs) = match xs with
      | [] => []
      | x :: xs => lits sep ++ lits l ++ .ord x :: (altToks (ascii ":") (r ++ ascii ", " ++ l) xs ++ lits r)
  | [], _, _ => rfl
  | [x], _, h => by simp at h
  | [x, y], sep, h => by simp [pairsD, D.toks, altToks]
  | x :: y :: z :: zs, sep, h => by
    have ih := pairs_toks l r (z :: zs) (ascii ", ") (by simp only [length_cons] at h ⊢; omega)
    simp only [pairsD, toksOf_cons, ih, D.toks, altToks, lits_append]
    simp

theorem path_toks : ∀ (xs : List Nat), xs.length % 2 = 1 → ∃ x ys, xs = x :: ys ∧
    toksOf (pathD xs) = lits (ascii "(") ++ .ord x ::
      (altToks (ascii ")" ++ ascii "-[") (ascii "]-" ++ ascii "(") ys ++ lits (ascii ")"))
  | [], h => by simp at h
  | [x], h => ⟨x, [], rfl, by simp [pathD, D.toks, altToks]⟩
  | [x, y], h => by simp at h
  | x :: y :: z :: zs, h => by
    obtain ⟨x', ys, e, ih⟩ := path_toks (z :: zs) (by simp only [length_cons] at h ⊢; omega)
    injection e with e1 e2; subst e1 e2
    refine ⟨x, y :: z :: zs, rfl, ?_⟩
    simp only [pathD, toksOf_cons, ih, D.toks, altToks, lits_append]
    simp

theorem Prim.run_items {g : Given} {p : Prim} {is : List Item} {ds : List D} (hf : p.Fair g)
    (h : p.items = some is) (hd : p.run g = .ok ds) : toksOf ds = itemToks g is ∧ ∀ i ∈ is, i.Present g := by
  cases p with
  | fmt ps =>
    simp only [Prim.run, bind, Except.bind] at hd
    cases h1 : fmtToks g ps with
    | error e => rw [h1] at hd; cases hd
    | ok ts =>
      rw [h1] at hd
      injection hd with hd; subst hd
      simpa [D.toks] using fmtToks_items h h1
  | ifArg i pre post =>
    injection h with h; injection hd with hd; subst h hd
    cases ha : g.arg i <;> simp [Item.toks, Item.Present, ha, D.toks]
  | put c => injection h with h; injection hd with hd; subst h hd; simp [Item.toks, Item.Present, D.toks, lits]
  | close c nul => injection h with h; injection hd with hd; subst h hd; simp [Item.toks, Item.Present, D.toks, lits]
  | copy t k => injection h with h; injection hd with hd; subst h hd; simp [Item.toks, Item.Present, D.toks]
  | copyAnd t k => injection h with h; injection hd with hd; subst h hd; simp [Item.toks, Item.Present, D.toks]
  | elems k =>
    injection h with h; injection hd with hd; subst h hd
    cases ha : g.array k with
    | nil => simp [Item.toks, Item.Present, ha, elemsD]
    | cons x xs => simp [Item.toks, Item.Present, ha, elems_toks]
  | each k first next =>
    injection h with h; injection hd with hd; subst h hd
    cases ha : g.array k with
    | nil => simp [Item.toks, Item.Present, ha, eachD]
    | cons x xs => simp [Item.toks, Item.Present, ha, eachD, each_toks, D.toks]
  | pairs k l r =>
    injection h with h; injection hd with hd; subst h hd
    simp only [Prim.Fair] at hf
    rw [pairs_toks _ _ _ _ hf]
    cases ha : g.array k with
    | nil => simp [Item.toks, Item.Present, ha]
    | cons x xs => simp [Item.toks, Item.Present, ha]
  | path k =>
    injection h with h; subst h
    simp only [Prim.run] at hd
    split at hd
    · rename_i ho
      injection hd with hd; subst hd
      obtain ⟨x, ys, e, h1⟩ := path_toks _ ho
      rw [h1]
      simp [Item.toks, Item.Present, e]
    · cases hd
  | comparison => cases h

theorem Prim.run_lit {g : Given} {p : Prim} {t : List UInt8} {ds : List D} (h : p.lit = some t)
    (hd : p.run g = .ok ds) : toksOf ds = lits t := by
  unfold Prim.lit at h
  split at h
  · injection h with h; subst h
    injection hd with hd; subst hd
    simp [D.toks]
  · injection h with h; subst h
    injection hd with hd; subst hd
    simp [D.toks, lits]
  · injection h with h; subst h
    injection hd with hd; subst hd
    simp [D.toks]
  · injection h with h; subst h
    injection hd with hd; subst hd
    simp [D.toks]
  · cases h

theorem runPrims_cons {g : Given} {p : Prim} {ps : List Prim} {ds : List D} (h : runPrims g (p :: ps) = .ok ds) :
    ∃ a b, p.run g = .ok a ∧ runPrims g ps = .ok b ∧ ds = a ++ b := by
  simp only [runPrims, bind, Except.bind] at h
  cases h1 : p.run g with
  | error e => rw [h1] at h; cases h
  | ok a =>
    cases h2 : runPrims g ps with
    | error e => rw [h1, h2] at h; cases h
    | ok b =>
      rw [h1, h2] at h
      injection h with h
      exact ⟨a, b, rfl, rfl, h.symm⟩

theorem litAll_toks {g : Given} : ∀ {ps : List Prim} {t : List UInt8} {ds : List D}, litAll ps = some t →
    runPrims g ps = .ok ds → toksOf ds = lits t
  | [], t, ds, h, hd => by
    injection h with h; injection hd with hd; subst h hd; rfl
  | p :: ps, t, ds, h, hd => by
    obtain ⟨a, b, h1, h2, rfl⟩ := runPrims_cons hd
    simp only [litAll, bind, Option.bind] at h
    cases h3 : p.lit with
    | none => rw [h3] at h; cases h
    | some x =>
      cases h4 : litAll ps with
      | none => rw [h3, h4] at h; cases h
      | some y =>
        rw [h3, h4] at h
        injection h with h; subst h
        rw [toksOf_append, Prim.run_lit h3 h1, litAll_toks h4 h2, lits_append]

theorem ifSeqItem_toks {g : Given} {k x : Nat} {xs : List Nat} (ha : g.array k = x :: xs) :
    ∀ {ps : List Prim} {acc : List UInt8} {i : Item} {ds : List D}, ifSeqItem k ps acc = some i →
    runPrims g ps = .ok ds → lits acc ++ toksOf ds = i.toks g
  | [], acc, i, ds, h, hd => by cases h
  | p :: ps, acc, i, ds, h, hd => by
    obtain ⟨a, b, h1, h2, rfl⟩ := runPrims_cons hd
    unfold ifSeqItem at h
    split at h
    · rename_i hp
      subst hp
      injection h1 with h1; subst h1
      cases h3 : litAll ps with
      | none => rw [h3] at h; cases h
      | some l =>
        rw [h3] at h
        injection h with h; subst h
        rw [toksOf_append, ha, elems_toks, litAll_toks h3 h2]
        simp [Item.toks, ha]
    · cases h3 : p.lit with
      | none => rw [h3] at h; cases h
      | some t =>
        rw [h3] at h
        have := ifSeqItem_toks ha h h2
        rw [toksOf_append, Prim.run_lit h3 h1, ← this]
        simp

theorem ifSeqItem_rep {k : Nat} : ∀ {ps : List Prim} {acc : List UInt8} {i : Item}, ifSeqItem k ps acc = some i →
    ∃ f p q l, i = .rep k f p q l
  | [], acc, i, h => by cases h
  | p :: ps, acc, i, h => by
    unfold ifSeqItem at h
    split at h
    · cases h3 : litAll ps with
      | none => rw [h3] at h; cases h
      | some l =>
        rw [h3] at h
        injection h with h
        exact ⟨_, _, _, _, h.symm⟩
    · cases h3 : p.lit with
      | none => rw [h3] at h; cases h
      | some t => rw [h3] at h; exact ifSeqItem_rep h

/-- The steps write the text of the items. -/
theorem runSteps_items {g : Given} : ∀ {ss : List Step} {is : List Item} {ds : List D}, (∀ s ∈ ss, s.Fair g) →
    stepsItems ss = some is → runSteps g ss = .ok ds → toksOf ds = itemToks g is ∧ ∀ i ∈ is, i.Present g
  | [], is, ds, _, h, hd => by
    injection h with h; injection hd with hd; subst h hd; simp
  | s :: ss, is, ds, hf, h, hd => by
    have ih : ∀ {is ds}, stepsItems ss = some is → runSteps g ss = .ok ds →
      toksOf ds = itemToks g is ∧ ∀ i ∈ is, i.Present g :=
      runSteps_items fun s hs => hf s (mem_cons_of_mem _ hs)
    cases s with
    | prim p =>
      simp only [stepsItems, bind, Option.bind] at h
      simp only [runSteps, bind, Except.bind] at hd
      cases h1 : p.items with
      | none => rw [h1] at h; cases h
      | some x =>
        cases h2 : stepsItems ss with
        | none => rw [h1, h2] at h; cases h
        | some y =>
          cases h3 : p.run g with
          | error e => rw [h3] at hd; cases hd
          | ok a =>
            cases h4 : runSteps g ss with
            | error e => rw [h3, h4] at hd; cases hd
            | ok b =>
              rw [h1, h2] at h; rw [h3, h4] at hd
              injection h with h; injection hd with hd; subst h hd
              have r1 := Prim.run_items (hf (.prim p) mem_cons_self) h1 h3
              have r2 := ih h2 h4
              refine ⟨by rw [toksOf_append, itemToks_append, r1.1, r2.1], fun i hi => ?_⟩
              rcases mem_append.1 hi with hi | hi
              · exact r1.2 i hi
              · exact r2.2 i hi
    | ifSeq k ps =>
      simp only [stepsItems, bind, Option.bind] at h
      cases h1 : ifSeqItem k ps [] with
      | none => rw [h1] at h; cases h
      | some x =>
        cases h2 : stepsItems ss with
        | none => rw [h1, h2] at h; cases h
        | some y =>
          rw [h1, h2] at h
          injection h with h; subst h
          obtain ⟨f, p, q, l, e⟩ := ifSeqItem_rep h1
          simp only [runSteps, bind, Except.bind] at hd
          cases ha : g.array k with
          | nil =>
            rw [ha, if_pos rfl] at hd
            cases h4 : runSteps g ss with
            | error e => rw [h4] at hd; cases hd
            | ok b =>
              rw [h4] at hd
              injection hd with hd; subst hd
              have r2 := ih h2 h4
              subst e
              refine ⟨by rw [itemToks_cons, toksOf_append, r2.1]; simp [Item.toks, ha], fun i hi => ?_⟩
              rcases mem_cons.1 hi with rfl | hi
              · trivial
              · exact r2.2 i hi
          | cons z zs =>
            rw [ha, if_neg (by simp)] at hd
            cases h3 : runPrims g ps with
            | error e => rw [h3] at hd; cases hd
            | ok a =>
              cases h4 : runSteps g ss with
              | error e => rw [h3, h4] at hd; cases hd
              | ok b =>
                rw [h3, h4] at hd
                injection hd with hd; subst hd
                have r1 := ifSeqItem_toks ha h1 h3
                have r2 := ih h2 h4
                refine ⟨by rw [itemToks_cons, toksOf_append, r2.1, ← r1]; rfl, fun i hi => ?_⟩
                rcases mem_cons.1 hi with rfl | hi
                · rw [e]; trivial
                · exact r2.2 i hi
    | ifFlag k t n =>
      simp only [stepsItems, bind, Option.bind] at h
      simp only [runSteps, bind, Except.bind] at hd
      cases h2 : stepsItems ss with
      | none => rw [h2] at h; cases h
      | some y =>
        cases h4 : runSteps g ss with
        | error e => rw [h4] at hd; cases hd
        | ok b =>
          rw [h2] at h; rw [h4] at hd
          injection h with h; injection hd with hd; subst h hd
          have r2 := ih h2 h4
          refine ⟨?_, fun i hi => ?_⟩
          · rw [itemToks_cons, toksOf_append, r2.1]
            congr 1
            simp only [Item.toks]
            split <;> simp [D.toks]
          · rcases mem_cons.1 hi with rfl | hi
            · trivial
            · exact r2.2 i hi
    | unlessNone i j => cases h

/-! ## Bytes -/

/-- Bytes that are printed as they are and do not belong to an ordinal. -/
def plainByte (c : UInt8) : Bool := escape c == [c] && c != 64 && !(48 ≤ c.toNat && c.toNat ≤ 57)

def Tok.plain : Tok → Bool
  | .ord _ => true
  | .ch c => plainByte c

theorem bytesOf_cons {t : Tok} {ts : List Tok} : bytesOf (t :: ts) = t.bytes ++ bytesOf ts := rfl
theorem bytesOf_append {a b : List Tok} : bytesOf (a ++ b) = bytesOf a ++ bytesOf b := by simp [bytesOf]

/-- The first byte is not a digit. -/
theorem bytesOf_head {ts : List Tok} (h : ∀ t ∈ ts, t.plain = true) :
    bytesOf ts = [] ∨ ∃ c l, bytesOf ts = c :: l ∧ ¬ (48 ≤ c.toNat ∧ c.toNat ≤ 57) := by
  cases ts with
  | nil => exact .inl rfl
  | cons t ts =>
    right
    cases t with
    | ord n => exact ⟨64, decimal n ++ bytesOf ts, rfl, by decide⟩
    | ch c =>
      refine ⟨c, bytesOf ts, rfl, ?_⟩
      have := h _ mem_cons_self
      simp [Tok.plain, plainByte] at this
      omega

theorem digits_unique {a b x y : List UInt8} (ha : ∀ c ∈ a, 48 ≤ c.toNat ∧ c.toNat ≤ 57)
    (hb : ∀ c ∈ b, 48 ≤ c.toNat ∧ c.toNat ≤ 57)
    (hx : x = [] ∨ ∃ c l, x = c :: l ∧ ¬ (48 ≤ c.toNat ∧ c.toNat ≤ 57))
    (hy : y = [] ∨ ∃ c l, y = c :: l ∧ ¬ (48 ≤ c.toNat ∧ c.toNat ≤ 57))
    (h : a ++ x = b ++ y) : a = b ∧ x = y := by
  induction a generalizing b with
  | nil =>
    cases b with
    | nil => exact ⟨rfl, h⟩
    | cons d b =>
      rw [nil_append, cons_append] at h
      rcases hx with rfl | ⟨c, l, rfl, hc⟩
      · cases h
      · injection h with h1 h2
        exact absurd (h1 ▸ hb d mem_cons_self) hc
  | cons c a ih =>
    cases b with
    | nil =>
      rw [nil_append, cons_append] at h
      rcases hy with rfl | ⟨d, l, rfl, hd⟩
      · cases h
      · injection h with h1 h2
        exact absurd (h1 ▸ ha c mem_cons_self) hd
    | cons d b =>
      rw [cons_append, cons_append] at h
      injection h with h1 h2
      obtain ⟨r1, r2⟩ := ih (fun c hc => ha c (mem_cons_of_mem _ hc)) (fun c hc => hb c (mem_cons_of_mem _ hc)) h2
      exact ⟨by rw [h1, r1], r2⟩

theorem bytesOf_inj : ∀ {ts ts' : List Tok}, (∀ t ∈ ts, t.plain = true) → (∀ t ∈ ts', t.plain = true) →
    bytesOf ts = bytesOf ts' → ts = ts'
  | [], [], _, _, _ => rfl
  | [], t :: ts', _, _, h => by cases t <;> simp [bytesOf, Tok.bytes] at h
  | t :: ts, [], _, _, h => by cases t <;> simp [bytesOf, Tok.bytes] at h
  | t :: ts, t' :: ts', hp, hp', h => by
    have hq : ∀ t ∈ ts, t.plain = true := fun t h => hp t (mem_cons_of_mem _ h)
    have hq' : ∀ t ∈ ts', t.plain = true := fun t h => hp' t (mem_cons_of_mem _ h)
    rw [bytesOf_cons, bytesOf_cons] at h
    have h1 := hp _ mem_cons_self
    have h2 := hp' _ mem_cons_self
    cases t with
    | ord n =>
      cases t' with
      | ord n' =>
        simp only [Tok.bytes, cons_append, cons.injEq, true_and] at h
        obtain ⟨r1, r2⟩ := digits_unique (decimal_digits n).all (decimal_digits n').all (bytesOf_head hq)
          (bytesOf_head hq') h
        rw [decimal_inj r1, bytesOf_inj hq hq' r2]
      | ch c =>
        simp only [Tok.bytes, cons_append, cons.injEq, nil_append] at h
        simp [Tok.plain, plainByte, ← h.1] at h2
    | ch c =>
      cases t' with
      | ord n' =>
        simp only [Tok.bytes, cons_append, cons.injEq, nil_append] at h
        simp [Tok.plain, plainByte, h.1] at h1
      | ch c' =>
        simp only [Tok.bytes, cons_append, cons.injEq, nil_append] at h
        rw [h.1, bytesOf_inj hq hq' h.2]

theorem digit_escape {c : UInt8} (h : 48 ≤ c.toNat ∧ c.toNat ≤ 57) : escape c = [c] := by
  have h' : ∀ d : UInt8, d.toNat < 48 → c ≠ d := fun d hd e => by rw [e] at h; omega
  simp only [escape, h' 7 (by decide), h' 8 (by decide), h' 12 (by decide), h' 10 (by decide), h' 13 (by decide),
    h' 9 (by decide), h' 11 (by decide), h' 0 (by decide), if_false]

theorem flatMap_self {f : UInt8 → List UInt8} : ∀ {l : List UInt8}, (∀ c ∈ l, f c = [c]) → l.flatMap f = l
  | [], _ => rfl
  | c :: l, h => by
    rw [flatMap_cons, h c mem_cons_self, flatMap_self fun c hc => h c (mem_cons_of_mem _ hc)]; rfl

/-- Plain texts are printed as they are. -/
theorem bytesOf_escape {ts : List Tok} (h : ∀ t ∈ ts, t.plain = true) :
    (bytesOf ts).flatMap escape = bytesOf ts := by
  refine flatMap_self fun c hc => ?_
  obtain ⟨t, ht, hc⟩ := mem_flatMap.1 hc
  cases t with
  | ord n =>
    rcases mem_cons.1 hc with rfl | hc
    · decide
    · exact digit_escape ((decimal_digits n).all c hc)
  | ch d =>
    have := h _ ht
    simp only [Tok.bytes, mem_singleton] at hc
    subst hc
    simp [Tok.plain, plainByte] at this
    exact this.1.1

end Verif.Cypher
