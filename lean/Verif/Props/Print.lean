import Verif.Data.Print
import Verif.Props.Util
import Mathlib.Data.List.Forall2
/-!
# Property C37: printing trees
-/
namespace Verif.Print
open Verif List

/-! ## Specification -/

/-- What a node has to show. -/
structure Entry where
  depth : Nat
  ordinal : Nat
  start : Nat
  stop : Nat
  name : List UInt8
  detail : List UInt8
  deriving DecidableEq, Repr

/-- The text a step of `detailstr` contributes. -/
def W.text : W → List UInt8
  | .fmt t => t
  | .put c => [c]
  | .close c _ => [c]
  | .copy t k => t.take k
  | .copyAnd t k => t.take k

def textOf (ws : List W) : List UInt8 := ws.flatMap W.text

mutual
/-- The nodes of a tree, parents first, with their depth. -/
def Tree.entries : Nat → Tree → List Entry
  | depth, .node ty r o ws cs =>
    ⟨depth, o, r.start.offset, r.stop.offset, ascii (ty.name.getD ""), textOf ws⟩ ::
      Tree.entriesAll (depth + 1) cs
def Tree.entriesAll : Nat → List Tree → List Entry
  | _, [] => []
  | depth, t :: ts => t.entries depth ++ Tree.entriesAll depth ts
end

/-- `l` is `t` aligned right or left in a column of width `w`. -/
def Right (w : Nat) (t l : List UInt8) : Prop := l.length = w ∧ ∃ k, l = replicate k 32 ++ t
def Left (w : Nat) (t l : List UInt8) : Prop := l.length = w ∧ ∃ k, l = t ++ replicate k 32

/-- `x` is `d`, escaped, on one line or on several: all but the last have `w` bytes, the last has at most
one more; `off` blanks stand before all but the first. -/
def Wrapped (render off : Nat) (d x : List UInt8) : Prop :=
  if render = 0 then x = d.flatMap escape
  else ∃ (full : List (List UInt8)) (last : List UInt8),
    d.flatMap escape = full.flatten ++ last ∧
    x = (full.flatMap fun l => l ++ 10 :: replicate off 32) ++ last ∧
    (∀ l ∈ full, l.length = if off < render then render - off else 10) ∧
    last.length ≤ (if off < render then render - off else 10) + 1

/-- What is printed for one node. -/
def Line (C : Colours) (render : Nat) (cols : Columns) (e : Entry) (l : List UInt8) : Prop :=
  ∃ f1 f2 f3 back,
    Right cols.ordinal (64 :: decimal e.ordinal) f1 ∧ Right cols.start (decimal e.start) f2 ∧
    Left cols.stop (decimal e.stop) f3 ∧
    l = C.ordinal.1 ++ f1 ++ C.ordinal.2 ++ ascii "  " ++ C.range.1 ++ f2 ++ ascii ".." ++ f3 ++ C.range.2 ++
      ascii "  " ++ C.indent.1 ++ (replicate e.depth (ascii "> ")).flatten ++ C.indent.2 ++ C.type.1 ++
      e.name ++ C.type.2 ++ back ∧
    (e.detail = [] ∧ back = ascii "\n" ∨
     e.detail ≠ [] ∧ ∃ k x, Wrapped render (cols.name + cols.start + cols.stop + cols.ordinal + 8) e.detail x ∧
      e.depth * 2 + e.name.length + k = cols.name ∧
      back = replicate (k + 2) 32 ++ C.desc.1 ++ x ++ ascii "\n" ++ C.desc.2)

/-! ## Numbers -/

/-- The number written with some digits. -/
def valueOf (l : List UInt8) : Nat := l.foldl (fun v c => v * 10 + (c.toNat - 48)) 0

theorem digit_toNat {n : Nat} (h : n < 10) : (digit n).toNat = 48 + n := by
  unfold digit
  rw [UInt8.toNat_ofNat']
  omega

theorem foldl_value (l : List UInt8) : ∀ v, l.foldl (fun v c => v * 10 + (c.toNat - 48)) v =
    v * 10 ^ l.length + valueOf l := by
  induction l with
  | nil => intro v; simp [valueOf]
  | cons c l ih =>
    intro v
    rw [foldl_cons, ih]
    show _ = _ + foldl _ 0 (c :: l)
    rw [foldl_cons, ih]
    simp only [length_cons, Nat.pow_succ, Nat.zero_mul, Nat.zero_add]
    rw [Nat.add_mul, Nat.add_assoc, Nat.mul_assoc, Nat.mul_comm 10]

theorem valueOf_append (a b : List UInt8) : valueOf (a ++ b) = valueOf a * 10 ^ b.length + valueOf b := by
  rw [valueOf, foldl_append, foldl_value]; rfl

structure Digits (n : Nat) (ds : List UInt8) : Prop where
  value : valueOf ds = n
  below : n < 10 ^ ds.length
  least : 0 < ds.length ∧ (10 ^ (ds.length - 1) ≤ n ∨ ds.length = 1)
  all : ∀ c ∈ ds, 48 ≤ c.toNat ∧ c.toNat ≤ 57

theorem decAux_spec : ∀ f n acc, n < f → ∃ ds, decAux f n acc = ds ++ acc ∧ Digits n ds := by
  intro f
  induction f with
  | zero => intro n acc h; omega
  | succ f ih =>
    intro n acc h
    unfold decAux
    split
    · rename_i h10
      refine ⟨[digit n], rfl, ?_, by simpa using h10, by simp, ?_⟩
      · simp [valueOf, digit_toNat h10]
      · intro c hc
        simp only [mem_singleton] at hc
        subst hc
        rw [digit_toNat h10]; omega
    · rename_i h10
      obtain ⟨ds, h1, h2⟩ := ih (n / 10) (digit (n % 10) :: acc) (by omega)
      have hm : n % 10 < 10 := by omega
      refine ⟨ds ++ [digit (n % 10)], by simp [h1], ?_, ?_, ?_, ?_⟩
      · rw [valueOf_append, h2.value]
        simp [valueOf, digit_toNat hm]; omega
      · have := h2.below
        simp only [length_append, length_singleton, Nat.pow_succ]
        omega
      · refine ⟨by simp, .inl ?_⟩
        have h3 := h2.least
        simp only [length_append, length_singleton, Nat.add_sub_cancel]
        have e : 10 ^ ds.length = 10 ^ (ds.length - 1) * 10 := by
          rw [← Nat.pow_succ]; congr 1; omega
        rcases h3.2 with h | h
        · omega
        · rw [h] at e ⊢; omega
      · intro c hc
        rcases mem_append.1 hc with hc | hc
        · exact h2.all c hc
        · simp only [mem_singleton] at hc
          subst hc
          rw [digit_toNat hm]; omega

theorem decimal_digits (n : Nat) : Digits n (decimal n) := by
  obtain ⟨ds, h, hd⟩ := decAux_spec (n + 1) n [] (by omega)
  rw [decimal, h, append_nil]
  exact hd

theorem decimal_inj {a b : Nat} (h : decimal a = decimal b) : a = b := by
  rw [← (decimal_digits a).value, h, (decimal_digits b).value]

theorem logAux_spec : ∀ f n, 0 < n → n ≤ f → 10 ^ logAux f n ≤ n ∧ n < 10 ^ (logAux f n + 1) := by
  intro f
  induction f with
  | zero => intro n h h'; omega
  | succ f ih =>
    intro n h h'
    unfold logAux
    split
    · simp; omega
    · obtain ⟨h1, h2⟩ := ih (n / 10) (by omega) (by omega)
      rw [Nat.add_comm 1]
      simp only [Nat.pow_succ] at h2 ⊢
      omega

theorem decimal_short {n m : Nat} (h : n ≤ m) (hm : 0 < m) : (decimal n).length ≤ logAux m m + 1 := by
  have h1 := decimal_digits n
  have h2 := (logAux_spec m m hm (Nat.le_refl _)).2
  rcases h1.least.2 with h3 | h3
  · have : 10 ^ ((decimal n).length - 1) < 10 ^ (logAux m m + 1) := by omega
    have := (Nat.pow_lt_pow_iff_right (by decide : 1 < 10)).1 this
    omega
  · omega

theorem decimal_no {n : Nat} {c : UInt8} (h : c.toNat < 48 ∨ 57 < c.toNat) : c ∉ decimal n := fun hc => by
  have := (decimal_digits n).all c hc
  omega

/-! ## Details -/

def stored (buf : List UInt8) (i : Nat) (bs : List UInt8) : List UInt8 :=
  buf.take i ++ (bs ++ buf.drop (i + bs.length))

theorem store_ok {buf : List UInt8} {i : Nat} {bs : List UInt8} (h : i + bs.length ≤ buf.length) :
    store buf i bs = .ok (stored buf i bs) := by simp [store, stored, h]

theorem stored_length {buf : List UInt8} {i : Nat} {bs : List UInt8} (h : i + bs.length ≤ buf.length) :
    (stored buf i bs).length = buf.length := by
  simp only [stored, length_append, length_take, length_drop]; omega

theorem stored_take {buf : List UInt8} {i k : Nat} {bs : List UInt8} (h : i ≤ buf.length)
    (hk : k ≤ bs.length) : (stored buf i bs).take (i + k) = buf.take i ++ bs.take k := by
  have : (buf.take i).length = i := by simp; omega
  rw [stored, take_append, this, Nat.add_sub_cancel_left, take_append_of_le_length hk,
    take_of_length_le (by omega)]

theorem stored_before {buf : List UInt8} {i j : Nat} {bs : List UInt8} (h : i ≤ buf.length) (hj : j ≤ i) :
    (stored buf i bs).take j = buf.take j := by
  have : (buf.take i).length = i := by simp; omega
  rw [stored, take_append_of_le_length (by omega), take_take]
  congr 1; omega

/-- The constants of `detailstr` functions that copy are not beyond the text copied. -/
def W.Ok : W → Prop
  | .copy t k | .copyAnd t k => k ≤ t.length
  | _ => True

theorem snBytes_length {m : Nat} {t : List UInt8} : (snBytes m t).length ≤ m := by
  unfold snBytes; split
  · simp
  · simp; omega

theorem cpBytes_length {m : Nat} {t : List UInt8} : (cpBytes m t).length = m := by
  simp [cpBytes]; omega

theorem copied {size n k : Nat} {buf t : List UInt8} (hb : buf.length = size) (hn : n < size)
    (hk : k ≤ t.length) (hs : n + k < size) :
    (stored (stored buf n (cpBytes (size - n) t)) (size - 1) [0]).take (n + k) = buf.take n ++ t.take k := by
  have hc : (cpBytes (size - n) t).length = size - n := cpBytes_length
  rw [stored_before (by rw [stored_length (by omega)]; omega) (by omega), stored_take (by omega) (by omega)]
  congr 1
  rw [cpBytes, take_append_of_le_length (by simp; omega), take_take]
  congr 1; omega

/-- A step stays in the buffer, counts its text, and writes it if there is room for one byte more. -/
theorem step_spec {size n : Nat} {buf : List UInt8} (hb : buf.length = size) (w : W) (hw : w.Ok) :
    ∃ buf', w.step size buf n = .ok (buf', n + w.text.length) ∧ buf'.length = size ∧
      (n + w.text.length < size → buf'.take (n + w.text.length) = buf.take n ++ w.text) := by
  cases w with
  | fmt t =>
    by_cases h : n < size
    · have h1 : n + (snBytes (size - n) t).length ≤ buf.length := by
        have := @snBytes_length (size - n) t; omega
      refine ⟨stored buf n (snBytes (size - n) t), ?_, by rw [stored_length h1, hb], fun hs => ?_⟩
      · simp only [W.step, h, if_true, store_ok h1]; rfl
      · simp only [W.text] at hs ⊢
        have e : snBytes (size - n) t = t ++ [0] := by
          rw [snBytes, if_neg (by omega), take_of_length_le (by omega)]
        rw [e, stored_take (by omega) (by simp), take_left]
    · exact ⟨buf, by simp only [W.step, h, if_false]; rfl, hb, fun hs => absurd hs (by omega)⟩
  | put c =>
    by_cases h : n < size
    · have h1 : n + [c].length ≤ buf.length := by simp; omega
      refine ⟨stored buf n [c], ?_, by rw [stored_length h1, hb], fun hs => ?_⟩
      · simp only [W.step, h, if_true, store_ok h1]; rfl
      · exact stored_take (k := 1) (by omega) (by simp)
    · exact ⟨buf, by simp only [W.step, h, if_false]; rfl, hb,
        fun hs => absurd hs (by simp only [W.text]; omega)⟩
  | close c nul =>
    by_cases h : n + 1 < size
    · have h1 : n + [c].length ≤ buf.length := by simp; omega
      have l1 : (stored buf n [c]).length = size := by rw [stored_length h1, hb]
      have t1 : (stored buf n [c]).take (n + 1) = buf.take n ++ [c] := stored_take (by omega) (by simp)
      cases nul with
      | no =>
        refine ⟨stored buf n [c], ?_, l1, fun _ => t1⟩
        simp only [W.step, h, if_true, store_ok h1]; rfl
      | next =>
        have h2 : n + 1 + [(0 : UInt8)].length ≤ (stored buf n [c]).length := by simp; omega
        refine ⟨stored (stored buf n [c]) (n + 1) [0], ?_, by rw [stored_length h2, l1], fun _ => ?_⟩
        · simp only [W.step, h, if_true, store_ok h1]
          show (do let buf ← store (stored buf n [c]) (n + 1) [0]; .ok (buf, n + 1) : Except Fault _) = _
          rw [store_ok h2]; rfl
        · exact (stored_before (by omega) (Nat.le_refl _)).trans t1
      | last =>
        have h2 : size - 1 + [(0 : UInt8)].length ≤ (stored buf n [c]).length := by simp; omega
        refine ⟨stored (stored buf n [c]) (size - 1) [0], ?_, by rw [stored_length h2, l1], fun _ => ?_⟩
        · simp only [W.step, h, if_true, store_ok h1]
          show (do let buf ← store (stored buf n [c]) (size - 1) [0]; .ok (buf, n + 1) : Except Fault _) = _
          rw [store_ok h2]; rfl
        · exact (stored_before (by omega) (by simp only [W.text, length_singleton]; omega)).trans t1
    · exact ⟨buf, by simp only [W.step, h, if_false]; rfl, hb,
        fun hs => absurd hs (by simp only [W.text, length_singleton]; omega)⟩
  | copy t k =>
    have ek : (W.copy t k).text.length = k := by simp only [W.text, length_take]; exact Nat.min_eq_left hw
    rw [ek]
    by_cases h : n < size
    · have h1 : n + (cpBytes (size - n) t).length ≤ buf.length := by rw [cpBytes_length]; omega
      have h2 : size - 1 + [(0 : UInt8)].length ≤ (stored buf n (cpBytes (size - n) t)).length := by
        rw [stored_length h1]; simp; omega
      refine ⟨stored (stored buf n (cpBytes (size - n) t)) (size - 1) [0], ?_,
        by rw [stored_length h2, stored_length h1, hb], fun hs => copied hb h hw hs⟩
      simp only [W.step, h, if_true, store_ok h1]
      show (do let buf ← store (stored buf n (cpBytes (size - n) t)) (size - 1) [0]; .ok (buf, n + k) :
        Except Fault _) = _
      rw [store_ok h2]; rfl
    · exact ⟨buf, by simp only [W.step, h, if_false], hb, fun hs => absurd hs (by omega)⟩
  | copyAnd t k =>
    have ek : (W.copyAnd t k).text.length = k := by simp only [W.text, length_take]; exact Nat.min_eq_left hw
    rw [ek]
    by_cases h : n < size
    · have h1 : n + (cpBytes (size - n) t).length ≤ buf.length := by rw [cpBytes_length]; omega
      have h2 : size - 1 + [(0 : UInt8)].length ≤ (stored buf n (cpBytes (size - n) t)).length := by
        rw [stored_length h1]; simp; omega
      refine ⟨stored (stored buf n (cpBytes (size - n) t)) (size - 1) [0], ?_,
        by rw [stored_length h2, stored_length h1, hb], fun hs => copied hb h hw hs⟩
      have h0 : 0 < size := by omega
      simp only [W.step, h, h0, if_true, store_ok h1]
      show (do let buf ← store (stored buf n (cpBytes (size - n) t)) (size - 1) [0]; .ok (buf, n + k) :
        Except Fault _) = _
      rw [store_ok h2]; rfl
    · by_cases h0 : 0 < size
      · have h2 : size - 1 + [(0 : UInt8)].length ≤ buf.length := by simp; omega
        refine ⟨stored buf (size - 1) [0], ?_, by rw [stored_length h2, hb], fun hs => absurd hs (by omega)⟩
        simp only [W.step, h, h0, if_true, if_false]
        show (do let buf ← store buf (size - 1) [0]; .ok (buf, n + k) : Except Fault _) = _
        rw [store_ok h2]; rfl
      · exact ⟨buf, by simp only [W.step, h, h0, if_false]; rfl, hb, fun hs => absurd hs (by omega)⟩

theorem writeAll_spec {size : Nat} : ∀ (ws : List W) {n : Nat} {buf : List UInt8}, buf.length = size →
    (∀ w ∈ ws, w.Ok) →
    ∃ buf', writeAll size ws buf n = .ok (buf', n + (textOf ws).length) ∧ buf'.length = size ∧
      (n + (textOf ws).length < size → buf'.take (n + (textOf ws).length) = buf.take n ++ textOf ws)
  | [], n, buf, hb, _ => ⟨buf, rfl, hb, fun _ => by simp [textOf]⟩
  | w :: ws, n, buf, hb, hw => by
    obtain ⟨b1, h1, h2, h3⟩ := step_spec (n := n) hb w (hw w mem_cons_self)
    obtain ⟨b2, g1, g2, g3⟩ := writeAll_spec ws (n := n + w.text.length) h2
      fun w h => hw w (mem_cons_of_mem _ h)
    have e : textOf (w :: ws) = w.text ++ textOf ws := by simp [textOf]
    rw [e, length_append, ← Nat.add_assoc]
    refine ⟨b2, ?_, g2, fun hs => ?_⟩
    · simp only [writeAll, h1]; exact g1
    · rw [g3 hs, h3 (by omega), append_assoc]

/-- The capacity after a text of some length has been written. -/
def capAfter (cap len : Nat) : Nat := if len > cap then len + 1 else cap

theorem detailRealloc_spec {junk : Nat → List UInt8} (hj : ∀ n, n < (junk n).length) {ws : List W}
    (hw : ∀ w ∈ ws, w.Ok) {buf : List UInt8} {cap : Nat} (hb : buf.length = cap) :
    ∃ buf', detailRealloc junk ws buf cap = .ok (buf', capAfter cap (textOf ws).length, (textOf ws).length) ∧
      buf'.length = capAfter cap (textOf ws).length ∧
      ((textOf ws).length ≠ cap → buf'.take (textOf ws).length = textOf ws) := by
  obtain ⟨b1, h1, h2, h3⟩ := writeAll_spec ws (n := 0) hb hw
  rw [Nat.zero_add] at h1 h3
  by_cases h : (textOf ws).length > cap
  · have hl : ((b1 ++ junk (textOf ws).length).take ((textOf ws).length + 1)).length =
        (textOf ws).length + 1 := by
      have := hj (textOf ws).length
      simp only [length_take, length_append]; omega
    obtain ⟨b2, g1, g2, g3⟩ := writeAll_spec ws (n := 0) hl hw
    rw [Nat.zero_add] at g1 g3
    refine ⟨b2, ?_, by rw [g2, capAfter, if_pos h], fun _ => ?_⟩
    · simp only [detailRealloc, h1, capAfter, if_pos h]
      show (if _ then _ else _ : Except Fault _) = _
      rw [if_pos h]
      show (do let (buf, width') ← writeAll _ ws _ 0; .ok (buf, _, width') : Except Fault _) = _
      rw [g1]; rfl
    · simpa using g3 (by omega)
  · refine ⟨b1, ?_, by rw [h2, capAfter, if_neg h], fun hne => ?_⟩
    · simp only [detailRealloc, h1, capAfter, if_neg h]
      show (if _ then _ else _ : Except Fault _) = _
      rw [if_neg h]
    · simpa using h3 (by omega)

/-! ## Wrapping -/

/-- `out` is `e` broken into lines, with room for `w` bytes on the first. -/
inductive Broken (width off : Nat) : Nat → List UInt8 → List UInt8 → Prop
  | done {w e} : e.length ≤ w + 1 → Broken width off w e e
  | next {w a e out} : a.length = w → Broken width off width e out →
      Broken width off w (a ++ e) (a ++ 10 :: (replicate off 32 ++ out))

theorem Broken.cons {width off w : Nat} {e out : List UInt8} (c : UInt8) (h : Broken width off w e out) :
    Broken width off (w + 1) (c :: e) (c :: out) := by
  cases h with
  | done h => exact .done (by simp; omega)
  | next h1 h2 => exact .next (a := c :: _) (by simp [h1]) h2

theorem detailBytes_more {render width off : Nat} (hr : 0 < render) (hw : 0 < width) :
    ∀ (cs : List UInt8) {w : Nat}, 0 < w → 0 < (detailBytes render width off true cs w).2 ∧
      ∀ {e out}, Broken width off (detailBytes render width off true cs w).2 e out →
        Broken width off w (cs ++ e) ((detailBytes render width off true cs w).1 ++ out)
  | [], w, h => ⟨h, fun b => b⟩
  | c :: cs, w, h => by
    have hd : decrement w = w - 1 := by simp [decrement]; omega
    by_cases h1 : w - 1 = 0
    · obtain ⟨i1, i2⟩ := detailBytes_more (off := off) hr hw cs hw
      have e1 : detailBytes render width off true (c :: cs) w =
          (c :: 10 :: (replicate off 32 ++ (detailBytes render width off true cs width).1),
            (detailBytes render width off true cs width).2) := by
        rw [detailBytes]; simp only [hr, hd, h1, if_true, and_self]
      rw [e1]
      refine ⟨i1, fun b => ?_⟩
      have := Broken.next (width := width) (off := off) (a := [c]) (w := w) (by simp; omega) (i2 b)
      simpa using this
    · obtain ⟨i1, i2⟩ := detailBytes_more (off := off) hr hw cs (w := w - 1) (by omega)
      have e1 : detailBytes render width off true (c :: cs) w =
          (c :: (detailBytes render width off true cs (w - 1)).1,
            (detailBytes render width off true cs (w - 1)).2) := by
        rw [detailBytes]; simp only [hr, hd, h1, if_true, false_and, if_false]
      rw [e1]
      refine ⟨i1, fun b => ?_⟩
      have := (i2 b).cons c
      rw [Nat.sub_add_cancel h] at this
      exact this

theorem detailBytes_last {render width off : Nat} : ∀ (cs : List UInt8) (w : Nat),
    (detailBytes render width off false cs w).1 = cs
  | [], _ => rfl
  | c :: cs, w => by
    rw [detailBytes]
    split
    · simp [detailBytes_last cs]
    · simp [detailBytes_last cs]

theorem detailBytes_plain {width off : Nat} {more : Bool} : ∀ (cs : List UInt8) (w : Nat),
    (detailBytes 0 width off more cs w).1 = cs
  | [], _ => rfl
  | c :: cs, w => by simp [detailBytes, detailBytes_plain cs]

theorem escape_length (c : UInt8) : (escape c).length ≤ 2 := by
  unfold escape
  repeat' split
  all_goals simp

theorem detailLoop_plain {width off : Nat} : ∀ (d : List UInt8) (w : Nat),
    detailLoop 0 width off d w = d.flatMap escape
  | [], _ => rfl
  | c :: cs, w => by simp [detailLoop, detailLoop_plain cs, detailBytes_plain]

theorem detailLoop_broken {render width off : Nat} (hr : 0 < render) (hw : 0 < width) :
    ∀ (d : List UInt8) {w : Nat}, 0 < w → Broken width off w (d.flatMap escape)
      (detailLoop render width off d w)
  | [], w, _ => .done (by simp)
  | [c], w, h => by
    simp only [detailLoop, isEmpty_nil, Bool.not_true, detailBytes_last, append_nil, flatMap_cons, flatMap_nil]
    exact .done (by have := escape_length c; omega)
  | c :: c' :: cs, w, h => by
    obtain ⟨h1, h2⟩ := detailBytes_more (off := off) hr hw (escape c) h
    have := h2 (detailLoop_broken hr hw (c' :: cs) h1)
    rw [detailLoop, flatMap_cons]
    exact this

theorem Broken.lines {width off w : Nat} {e out : List UInt8} (h : Broken width off w e out) :
    ∃ (full : List (List UInt8)) (last : List UInt8), e = full.flatten ++ last ∧
      out = (full.flatMap fun l => l ++ 10 :: replicate off 32) ++ last ∧
      (w = width → (∀ l ∈ full, l.length = width) ∧ last.length ≤ width + 1) ∧
      (∀ l ∈ full.tail, l.length = width) ∧ (∀ l ∈ full.head?, l.length = w) ∧
      (full ≠ [] → last.length ≤ width + 1) := by
  induction h with
  | done h => exact ⟨[], _, rfl, rfl, fun hw => ⟨by simp, by omega⟩, by simp, by simp, by simp⟩
  | @next w a e out h1 _ ih =>
    obtain ⟨full, last, h2, h3, h4, -⟩ := ih
    refine ⟨a :: full, last, by rw [h2]; simp, by rw [h3]; simp, fun hw => ⟨?_, (h4 rfl).2⟩, (h4 rfl).1,
      by simp [h1], fun _ => (h4 rfl).2⟩
    intro l hl
    rcases mem_cons.1 hl with rfl | hl
    · omega
    · exact (h4 rfl).1 l hl

theorem printDetail_spec (C : Colours) (d : List UInt8) (render off : Nat) :
    ∃ x, printDetail C d render off = C.desc.1 ++ x ++ [10] ++ C.desc.2 ∧ Wrapped render off d x := by
  refine ⟨_, rfl, ?_⟩
  unfold Wrapped
  by_cases h : render = 0
  · subst h
    simp [detailLoop_plain]
  · rw [if_neg h, if_neg h]
    have hw : 0 < (if off < render then render - off else 10) := by split <;> omega
    obtain ⟨full, last, h1, h2, h3, -⟩ :=
      (detailLoop_broken (off := off) (by omega : 0 < render) hw d hw).lines
    exact ⟨full, last, h1, h2, (h3 rfl).1, (h3 rfl).2⟩

/-! ## Lines -/

mutual
/-- Trees as constructors make them: the types have names, ordinals are `unsigned int`s and the details are
written properly. -/
def Tree.Ok : Tree → Prop
  | .node ty _ o ws cs => ty.name.isSome = true ∧ o < 2 ^ 32 ∧ (∀ w ∈ ws, w.Ok) ∧ Tree.OkAll cs
def Tree.OkAll : List Tree → Prop
  | [] => True
  | t :: ts => t.Ok ∧ Tree.OkAll ts
end

/-- The columns have room for the fields of a node. -/
structure Fits (cols : Columns) (e : Entry) : Prop where
  ordinal : (decimal e.ordinal).length < cols.ordinal
  start : (decimal e.start).length ≤ cols.start
  stop : (decimal e.stop).length ≤ cols.stop
  name : e.depth * 2 + e.name.length ≤ cols.name

/-- No detail is exactly as long as the buffer is when it is written. -/
def Roomy : Nat → List Entry → Prop
  | _, [] => True
  | cap, e :: es => e.detail.length ≠ cap ∧ Roomy (capAfter cap e.detail.length) es

def capAfterAll (cap : Nat) (es : List Entry) : Nat := es.foldl (fun c e => capAfter c e.detail.length) cap

theorem roomy_append {a b : List Entry} : ∀ {cap : Nat}, Roomy cap (a ++ b) →
    Roomy cap a ∧ Roomy (capAfterAll cap a) b := by
  induction a with
  | nil => intro cap h; exact ⟨trivial, h⟩
  | cons e a ih =>
    intro cap h
    obtain ⟨h1, h2⟩ := ih h.2
    exact ⟨⟨h.1, h1⟩, h2⟩

theorem le_capAfter (cap len : Nat) : cap ≤ capAfter cap len := by
  unfold capAfter; split <;> omega

theorem typeName_named {ty : AstType} (h : ty.name.isSome = true) :
    typeName ty = .ok (ascii (ty.name.getD "")) := by
  cases ty <;> first | (cases h; done) | rfl

theorem vsnprintf_length {buf t : List UInt8} {cap : Nat} (hb : buf.length = cap) (h : t.length < cap) :
    (vsnprintf buf cap t).length = cap := by
  unfold vsnprintf
  rw [if_neg (by omega)]
  simp only [length_append, length_take, length_drop, length_singleton]
  omega

theorem ordinal_length {o : Nat} (h : o < 2 ^ 32) : (64 :: decimal o).length < 1024 := by
  have h1 := decimal_short (n := o) (m := 2 ^ 32) (by omega) (by decide)
  have h2 : logAux (2 ^ 32) (2 ^ 32) < 20 := by
    have := (logAux_spec (2 ^ 32) (2 ^ 32) (by decide) (Nat.le_refl _)).1
    refine Nat.lt_of_not_le fun hc => ?_
    have : 10 ^ 20 ≤ 10 ^ logAux (2 ^ 32) (2 ^ 32) := Nat.pow_le_pow_right (by decide) (by omega)
    have h3 : (2 : Nat) ^ 32 < 10 ^ 20 := by decide
    omega
  simp only [length_cons]
  omega

theorem padLeft_right {w : Nat} {t : List UInt8} (h : t.length ≤ w) : Right w t (padLeft w t) :=
  ⟨by simp [padLeft]; omega, _, rfl⟩
theorem padRight_left {w : Nat} {t : List UInt8} (h : t.length ≤ w) : Left w t (padRight w t) :=
  ⟨by simp [padRight]; omega, _, rfl⟩

section
variable {junk : Nat → List UInt8} (hj : ∀ n, n < (junk n).length) (C : Colours) (render : Nat) (cols : Columns)

/-- The result of printing some entries. -/
def Prints (es : List Entry) (cap : Nat) (r : Except Stop (List UInt8 × List UInt8 × Nat)) : Prop :=
  ∃ lines buf, r = .ok (lines.flatten, buf, capAfterAll cap es) ∧ buf.length = capAfterAll cap es ∧
    1024 ≤ capAfterAll cap es ∧ Forall₂ (Line C render cols) es lines

include hj
mutual
theorem printTree_spec : ∀ (t : Tree) {depth cap : Nat} {buf : List UInt8}, t.Ok → buf.length = cap →
    1024 ≤ cap → (∀ e ∈ t.entries depth, Fits cols e) → Roomy cap (t.entries depth) →
    Prints C render cols (t.entries depth) cap (printTree junk C render cols t depth buf cap)
  | .node ty r o ws cs, depth, cap, buf, ht, hb, hc, hf, hr => by
    obtain ⟨hty, ho, hws, hcs⟩ := ht
    simp only [Tree.entries] at hf hr
    have hfe := hf _ mem_cons_self
    have hlen := ordinal_length ho
    -- the ordinal
    have h0 : (0 : UInt8) ∉ (64 :: decimal o : List UInt8) := by
      simp only [mem_cons, not_or]
      exact ⟨by decide, decimal_no (by decide)⟩
    have e1 : snprintfRealloc (junk cap) buf cap (64 :: decimal o) =
        (vsnprintf buf cap (64 :: decimal o), cap, (64 :: decimal o : List UInt8).length) := by
      unfold snprintfRealloc
      simp only
      rw [if_neg (by omega)]
    have e2 := (snprintf_realloc_complete_partial (junk cap) buf _ cap h0 (by omega)).1
    rw [e1] at e2
    have hb1 : (vsnprintf buf cap (64 :: decimal o)).length = cap := vsnprintf_length hb (by omega)
    -- the detail
    obtain ⟨b2, d1, d2, d3⟩ := detailRealloc_spec hj hws hb1
    have d3 := d3 hr.1
    -- the children
    obtain ⟨lines, b3, p1, p2, p3, p4⟩ := printAll_spec cs (depth := depth + 1) (cap := capAfter cap (textOf ws).length)
      (buf := b2) hcs d2 (Nat.le_trans hc (le_capAfter _ _)) (fun e he => hf e (mem_cons_of_mem _ he)) hr.2
    have key : ∃ back, printBack C render cols (depth * 2 + (ascii (ty.name.getD "")).length) b2
        (textOf ws).length = .ok back ∧
        (textOf ws = [] ∧ back = ascii "\n" ∨
         textOf ws ≠ [] ∧ ∃ k x, Wrapped render (cols.name + cols.start + cols.stop + cols.ordinal + 8) (textOf ws) x ∧
          depth * 2 + (ascii (ty.name.getD "")).length + k = cols.name ∧
          back = replicate (k + 2) 32 ++ C.desc.1 ++ x ++ ascii "\n" ++ C.desc.2) := by
      by_cases hd : textOf ws = []
      · exact ⟨[10], by simp [hd, printBack], .inl ⟨hd, rfl⟩⟩
      · have hp : 0 < (textOf ws).length := length_pos_iff.2 hd
        obtain ⟨x, x1, x2⟩ := printDetail_spec C (textOf ws) render
          (cols.name + cols.start + cols.stop + cols.ordinal + 8)
        have hn : depth * 2 + (ascii (ty.name.getD "")).length ≤ cols.name := hfe.name
        have hl : (textOf ws).length ≤ b2.length := by
          rw [d2]; unfold capAfter; split <;> omega
        refine ⟨_, by rw [printBack, if_pos hp, if_pos hn, if_pos hl], .inr ⟨hd,
          cols.name - (depth * 2 + (ascii (ty.name.getD "")).length), x, x2, ?_, ?_⟩⟩
        · omega
        · rw [d3, x1]
          simp only [append_assoc]
          rfl
    obtain ⟨back, k1, k2⟩ := key
    refine ⟨(C.ordinal.1 ++ padLeft cols.ordinal (64 :: decimal o) ++ C.ordinal.2 ++ [32, 32] ++
      C.range.1 ++ padLeft cols.start (decimal r.start.offset) ++ [46, 46] ++
      padRight cols.stop (decimal r.stop.offset) ++ C.range.2 ++ [32, 32] ++ C.indent.1 ++
      (List.replicate depth [62, 32]).flatten ++ C.indent.2 ++ C.type.1 ++ ascii (ty.name.getD "") ++ C.type.2 ++
      back) :: lines, b3, ?_, p2, p3, ?_⟩
    · simp only [printTree, e1, e2, liftF, typeName_named hty, d1]
      simp only [bind, Except.bind, k1, p1, flatten_cons]
      rfl
    · simp only [Tree.entries]
      refine .cons ⟨_, _, _, back, padLeft_right ?_, padLeft_right hfe.start, padRight_left hfe.stop, rfl, k2⟩ p4
      exact hfe.ordinal
theorem printAll_spec : ∀ (ts : List Tree) {depth cap : Nat} {buf : List UInt8}, Tree.OkAll ts →
    buf.length = cap → 1024 ≤ cap → (∀ e ∈ Tree.entriesAll depth ts, Fits cols e) →
    Roomy cap (Tree.entriesAll depth ts) →
    Prints C render cols (Tree.entriesAll depth ts) cap (printAll junk C render cols ts depth buf cap)
  | [], depth, cap, buf, _, hb, hc, _, _ => ⟨[], buf, rfl, hb, hc, .nil⟩
  | t :: ts, depth, cap, buf, ht, hb, hc, hf, hr => by
    simp only [Tree.entriesAll] at hf hr ⊢
    obtain ⟨r1, r2⟩ := roomy_append hr
    obtain ⟨l1, b1, p1, p2, p3, p4⟩ := printTree_spec t (depth := depth) ht.1 hb hc
      (fun e he => hf e (mem_append_left _ he)) r1
    obtain ⟨l2, b2, q1, q2, q3, q4⟩ := printAll_spec ts (depth := depth) ht.2 p2 p3
      (fun e he => hf e (mem_append_right _ he)) r2
    have e : capAfterAll cap (t.entries depth ++ Tree.entriesAll depth ts) =
        capAfterAll (capAfterAll cap (t.entries depth)) (Tree.entriesAll depth ts) := foldl_append ..
    refine ⟨l1 ++ l2, b2, ?_, by rw [e]; exact q2, by rw [e]; exact q3, rel_append p4 q4⟩
    rw [printAll, p1]
    show (do let (rest, buf, cap) ← printAll junk C render cols ts depth b1 _; _ : Except Stop _) = _
    rw [q1, e, flatten_append]
    rfl
end
end

/-! ## Widths -/

/-- What the maxima are: bounds for all entries, each attained or as before. -/
structure Maxima (es : List Entry) (m m' : Widths) : Prop where
  ordinal : m.ordinal ≤ m'.ordinal ∧ (∀ e ∈ es, e.ordinal ≤ m'.ordinal) ∧
    (m'.ordinal = m.ordinal ∨ ∃ e ∈ es, m'.ordinal = e.ordinal)
  start : m.start ≤ m'.start ∧ (∀ e ∈ es, e.start ≤ m'.start) ∧
    (m'.start = m.start ∨ ∃ e ∈ es, m'.start = e.start)
  stop : m.stop ≤ m'.stop ∧ (∀ e ∈ es, e.stop ≤ m'.stop) ∧
    (m'.stop = m.stop ∨ ∃ e ∈ es, m'.stop = e.stop)
  name : m.name ≤ m'.name ∧ ∀ e ∈ es, e.depth * 2 + e.name.length ≤ m'.name

theorem max_attained {α : Type} (f : α → Nat) {e : α} {es : List α} {m m' : Nat} (h1 : max m (f e) ≤ m')
    (h2 : ∀ x ∈ es, f x ≤ m') (h3 : m' = max m (f e) ∨ ∃ x ∈ es, m' = f x) :
    m ≤ m' ∧ (∀ x ∈ e :: es, f x ≤ m') ∧ (m' = m ∨ ∃ x ∈ e :: es, m' = f x) := by
  refine ⟨by omega, ?_, ?_⟩
  · intro x hx
    rcases mem_cons.1 hx with rfl | hx
    · omega
    · exact h2 x hx
  · rcases h3 with h | ⟨x, hx, h⟩
    · by_cases hm : m ≤ f e
      · exact .inr ⟨e, mem_cons_self, by omega⟩
      · exact .inl (by omega)
    · exact .inr ⟨x, mem_cons_of_mem _ hx, h⟩

theorem Maxima.append_field {α : Type} {f : α → Nat} {a b : List α} {m m1 m2 : Nat}
    (h1 : m ≤ m1 ∧ (∀ x ∈ a, f x ≤ m1) ∧ (m1 = m ∨ ∃ x ∈ a, m1 = f x))
    (h2 : m1 ≤ m2 ∧ (∀ x ∈ b, f x ≤ m2) ∧ (m2 = m1 ∨ ∃ x ∈ b, m2 = f x)) :
    m ≤ m2 ∧ (∀ x ∈ a ++ b, f x ≤ m2) ∧ (m2 = m ∨ ∃ x ∈ a ++ b, m2 = f x) := by
  refine ⟨by omega, ?_, ?_⟩
  · intro x hx
    rcases mem_append.1 hx with hx | hx
    · exact Nat.le_trans (h1.2.1 x hx) h2.1
    · exact h2.2.1 x hx
  · rcases h2.2.2 with h | ⟨x, hx, h⟩
    · rcases h1.2.2 with h' | ⟨x, hx, h'⟩
      · exact .inl (by omega)
      · exact .inr ⟨x, mem_append_left _ hx, by omega⟩
    · exact .inr ⟨x, mem_append_right _ hx, h⟩

mutual
theorem fieldWidths_spec : ∀ (t : Tree) {depth : Nat} {m : Widths}, t.Ok →
    ∃ m', fieldWidths t depth m = .ok m' ∧ Maxima (t.entries depth) m m'
  | .node ty r o ws cs, depth, m, ht => by
    obtain ⟨m', h1, h2⟩ := fieldWidthsAll_spec cs (depth := depth + 1)
      (m := ⟨max m.ordinal o, max m.start r.start.offset, max m.stop r.stop.offset,
        max m.name ((ascii (ty.name.getD "")).length + depth * 2)⟩) ht.2.2.2
    refine ⟨m', ?_, ?_⟩
    · simp only [fieldWidths, typeName_named ht.1]
      exact h1
    · simp only [Tree.entries]
      refine ⟨max_attained Entry.ordinal h2.ordinal.1 h2.ordinal.2.1 h2.ordinal.2.2,
        max_attained Entry.start h2.start.1 h2.start.2.1 h2.start.2.2,
        max_attained Entry.stop h2.stop.1 h2.stop.2.1 h2.stop.2.2, ?_, ?_⟩
      · have := h2.name.1; simp only at this; omega
      · intro e he
        rcases mem_cons.1 he with rfl | he
        · have := h2.name.1; simp only at this ⊢; omega
        · exact h2.name.2 e he
theorem fieldWidthsAll_spec : ∀ (ts : List Tree) {depth : Nat} {m : Widths}, Tree.OkAll ts →
    ∃ m', fieldWidthsAll ts depth m = .ok m' ∧ Maxima (Tree.entriesAll depth ts) m m'
  | [], depth, m, _ => ⟨m, rfl, by
      constructor <;> simp [Tree.entriesAll]⟩
  | t :: ts, depth, m, ht => by
    obtain ⟨m1, h1, h2⟩ := fieldWidths_spec t (depth := depth) (m := m) ht.1
    obtain ⟨m2, g1, g2⟩ := fieldWidthsAll_spec ts (depth := depth) (m := m1) ht.2
    refine ⟨m2, ?_, ?_⟩
    · simp only [fieldWidthsAll, h1]
      exact g1
    · simp only [Tree.entriesAll]
      refine ⟨Maxima.append_field h2.ordinal g2.ordinal, Maxima.append_field h2.start g2.start,
        Maxima.append_field h2.stop g2.stop, Nat.le_trans h2.name.1 g2.name.1, ?_⟩
      intro e he
      rcases mem_append.1 he with he | he
      · exact Nat.le_trans (h2.name.2 e he) g2.name.1
      · exact g2.name.2 e he
end

/-! ## C37 -/

/-- Every column has something to show that is not zero. -/
def Measurable (es : List Entry) : Prop :=
  (∃ e ∈ es, e.ordinal ≠ 0) ∧ (∃ e ∈ es, e.start ≠ 0) ∧ ∃ e ∈ es, e.stop ≠ 0

theorem log10_pos {n : Nat} (h : n ≠ 0) : log10 n = .ok (logAux n n) := by simp [log10, h]
theorem log10_zero : log10 0 = .error .conversion := rfl

/-- C37, part. Every tree is printed with one line for every node (or, within a given width, one line and
its continuations), parents first, showing ordinal, range, depth, type and detail, in columns. *Missing:* trees
in which all ordinals, all starts or all ends are zero, for which the code computes `log10(0)`
(`fprint_undefined`), and details as long as the buffer, which lose a byte (`fprint_loses_byte`). -/
theorem fprint_lines_partial {junk : Nat → List UInt8} (hj : ∀ n, n < (junk n).length) (C : Colours) (render : Nat)
    {ts : List Tree} (hok : Tree.OkAll ts) (hm : Measurable (Tree.entriesAll 0 ts))
    (hr : Roomy 1024 (Tree.entriesAll 0 ts)) :
    ∃ cols lines, fprintv junk C render ts = .ok lines.flatten ∧
      Forall₂ (Line C render cols) (Tree.entriesAll 0 ts) lines := by
  obtain ⟨m, h1, h2⟩ := fieldWidthsAll_spec ts (depth := 0) (m := ⟨0, 0, 0, 0⟩) hok
  obtain ⟨⟨e1, he1, h01⟩, ⟨e2, he2, h02⟩, ⟨e3, he3, h03⟩⟩ := hm
  have p1 : 0 < m.ordinal := Nat.lt_of_lt_of_le (Nat.pos_of_ne_zero h01) (h2.ordinal.2.1 e1 he1)
  have p2 : 0 < m.start := Nat.lt_of_lt_of_le (Nat.pos_of_ne_zero h02) (h2.start.2.1 e2 he2)
  have p3 : 0 < m.stop := Nat.lt_of_lt_of_le (Nat.pos_of_ne_zero h03) (h2.stop.2.1 e3 he3)
  obtain ⟨lines, buf, g1, g2, g3, g4⟩ := printAll_spec hj C render
    ⟨logAux m.ordinal m.ordinal + 2, logAux m.start m.start + 1, logAux m.stop m.stop + 1, m.name⟩ ts
    (depth := 0) (cap := 1024) (buf := (junk 1024).take 1024) hok
    (by have := hj 1024; simp only [length_take]; omega) (Nat.le_refl _)
    (fun e he => ⟨Nat.lt_succ_of_le (decimal_short (h2.ordinal.2.1 e he) p1),
      decimal_short (h2.start.2.1 e he) p2, decimal_short (h2.stop.2.1 e he) p3, h2.name.2 e he⟩) hr
  refine ⟨_, lines, ?_, g4⟩
  simp only [fprintv, h1, liftF, bind, Except.bind, log10_pos (Nat.pos_iff_ne_zero.1 p1),
    log10_pos (Nat.pos_iff_ne_zero.1 p2), log10_pos (Nat.pos_iff_ne_zero.1 p3), g1]

/-- C37 (negation). Of all other trees, `log10(0)` is computed; among them are no trees at all (the result of parsing
an empty input) and every tree that starts at the beginning with all of its nodes. -/
theorem fprint_undefined (junk : Nat → List UInt8) (C : Colours) (render : Nat) {ts : List Tree}
    (hok : Tree.OkAll ts) (hm : ¬ Measurable (Tree.entriesAll 0 ts)) :
    fprintv junk C render ts = .error .conversion := by
  obtain ⟨m, h1, h2⟩ := fieldWidthsAll_spec ts (depth := 0) (m := ⟨0, 0, 0, 0⟩) hok
  simp only [fprintv, h1, liftF, bind, Except.bind]
  by_cases z1 : m.ordinal = 0
  · rw [z1, log10_zero]
  rw [log10_pos z1]
  by_cases z2 : m.start = 0
  · rw [z2, log10_zero]
  rw [log10_pos z2]
  by_cases z3 : m.stop = 0
  · rw [z3, log10_zero]
  refine absurd ⟨?_, ?_, ?_⟩ hm
  · rcases h2.ordinal.2.2 with h | ⟨e, he, h⟩
    · exact absurd h z1
    · exact ⟨e, he, by omega⟩
  · rcases h2.start.2.2 with h | ⟨e, he, h⟩
    · exact absurd h z2
    · exact ⟨e, he, by omega⟩
  · rcases h2.stop.2.2 with h | ⟨e, he, h⟩
    · exact absurd h z3
    · exact ⟨e, he, by omega⟩

theorem detailRealloc_edge {junk : Nat → List UInt8} {t buf : List UInt8} {cap : Nat} (hb : buf.length = cap)
    (ht : t.length = cap) (hc : 0 < cap) :
    detailRealloc junk [.fmt t] buf cap = .ok (t.dropLast ++ [0], cap, cap) ∧
    detailRealloc junk [.fmt t.dropLast] buf cap = .ok (t.dropLast ++ [0], cap, cap - 1) := by
  have hd : t.dropLast.length = cap - 1 := by simp [ht]
  have e1 : snBytes (cap - 0) t = t.dropLast ++ [0] := by
    rw [snBytes, if_neg (by omega), dropLast_eq_take, ht]; rfl
  have e2 : snBytes (cap - 0) t.dropLast = t.dropLast ++ [0] := by
    rw [snBytes, if_neg (by omega), take_of_length_le (by omega)]
  have e3 : stored buf 0 (t.dropLast ++ [0]) = t.dropLast ++ [0] := by
    simp only [stored, take_zero, nil_append, Nat.zero_add]
    rw [drop_of_length_le (by simp; omega), append_nil]
  have hs : 0 + (t.dropLast ++ [0]).length ≤ buf.length := by simp; omega
  constructor
  · simp only [detailRealloc, writeAll, W.step, hc, if_true, e1, store_ok hs, e3, bind, Except.bind, Nat.zero_add,
      ht, gt_iff_lt, Nat.lt_irrefl, if_false]
  · have : ¬ cap - 1 > cap := by omega
    simp only [detailRealloc, writeAll, W.step, hc, if_true, e2, store_ok hs, e3, bind, Except.bind, Nat.zero_add,
      hd, this, if_false]

/-- C37 (negation). A detail of 1024 bytes loses its last byte: the same is printed without it. -/
theorem fprint_loses_byte {junk : Nat → List UInt8} (hj : ∀ n, n < (junk n).length) (C : Colours)
    (ty : AstType) (r : Range) {o : Nat} (ho : o < 2 ^ 32) {t : List UInt8} (ht : t.length = 1024) :
    fprintv junk C 0 [.node ty r o [.fmt t] []] = fprintv junk C 0 [.node ty r o [.fmt t.dropLast] []] := by
  have hb : ((junk 1024).take 1024).length = 1024 := by have := hj 1024; simp only [length_take]; omega
  have hlen := ordinal_length ho
  have e1 : snprintfRealloc (junk 1024) ((junk 1024).take 1024) 1024 (64 :: decimal o) =
      (vsnprintf ((junk 1024).take 1024) 1024 (64 :: decimal o), 1024, (64 :: decimal o : List UInt8).length) := by
    unfold snprintfRealloc
    simp only
    rw [if_neg (by omega)]
  have hb1 : (vsnprintf ((junk 1024).take 1024) 1024 (64 :: decimal o)).length = 1024 := vsnprintf_length hb hlen
  obtain ⟨d1, d2⟩ := detailRealloc_edge (junk := junk) hb1 ht (by decide)
  have hd : t.dropLast.length = 1023 := by simp [ht]
  have key : ∀ cols consumed, printBack C 0 cols consumed (t.dropLast ++ [0]) 1024 =
      printBack C 0 cols consumed (t.dropLast ++ [0]) (1024 - 1) := by
    intro cols consumed
    unfold printBack
    have t1 : (t.dropLast ++ [0]).take 1024 = t.dropLast ++ [0] := take_of_length_le (by simp; omega)
    have t2 : (t.dropLast ++ [0]).take (1024 - 1) = t.dropLast := by
      rw [show 1024 - 1 = t.dropLast.length from hd.symm, take_left]
    have l1 : (1024 : Nat) ≤ (t.dropLast ++ [0]).length := by simp; omega
    have l2 : (1024 - 1 : Nat) ≤ (t.dropLast ++ [0]).length := by simp; omega
    rw [if_pos (show 0 < 1024 by decide), if_pos (show 0 < 1024 - 1 by decide), if_pos l1, if_pos l2, t1, t2]
    simp only [printDetail, detailLoop_plain, flatMap_append]
    have : flatMap escape [0] = [] := rfl
    rw [this, append_nil]
  simp only [fprintv, fieldWidthsAll, fieldWidths, printAll, printTree, e1]
  refine bind_congr fun m => bind_congr fun ow => bind_congr fun sw => bind_congr fun ew => ?_
  congr 1
  congr 1
  refine bind_congr fun number => bind_congr fun name => ?_
  rw [d1, d2]
  simp only [liftF]
  simp only [bind, Except.bind]
  rw [key]

/-! ## What is printed can be read -/

theorem span_unique {p : UInt8 → Bool} : ∀ {a b : List UInt8} {c d : UInt8} {x y : List UInt8},
    (∀ u ∈ a, p u = true) → (∀ u ∈ b, p u = true) → p c = false → p d = false →
    a ++ c :: x = b ++ d :: y → a = b ∧ c = d ∧ x = y
  | [], [], c, d, x, y, _, _, _, _, h => by simpa using h
  | [], v :: b, c, d, x, y, _, hb, hc, _, h => by
    simp only [nil_append, cons_append, cons.injEq] at h
    rw [h.1, hb v mem_cons_self] at hc; cases hc
  | u :: a, [], c, d, x, y, ha, _, _, hd, h => by
    simp only [nil_append, cons_append, cons.injEq] at h
    rw [← h.1, ha u mem_cons_self] at hd; cases hd
  | u :: a, v :: b, c, d, x, y, ha, hb, hc, hd, h => by
    simp only [cons_append, cons.injEq] at h
    obtain ⟨rfl, h⟩ := h
    obtain ⟨rfl, h1, h2⟩ := span_unique (fun u hu => ha u (mem_cons_of_mem _ hu))
      (fun u hu => hb u (mem_cons_of_mem _ hu)) hc hd h
    exact ⟨rfl, h1, h2⟩

/-- Two blanks in a row, or a blank at the end. -/
def gap : List UInt8 → Bool
  | [] => false
  | [c] => c == 32
  | c :: d :: l => (c == 32 && d == 32) || gap (d :: l)

theorem gap_append : ∀ {a y : List UInt8}, y ≠ [] → gap y = true → gap (a ++ y) = true
  | [], _, _, h => h
  | [c], d :: l, _, h => by simp [gap, h]
  | c :: d :: a, y, hy, h => by
    have := gap_append (a := d :: a) hy h
    simp only [cons_append] at this ⊢
    simp [gap, this]

/-- What may follow a name. -/
def Tail (r : List UInt8) : Prop := r = [] ∨ ∃ z, r = 32 :: 32 :: z

theorem name_unique {a b r r' : List UInt8} (ha : gap a = false) (hb : gap b = false) (hr : Tail r)
    (hr' : Tail r') (h : a ++ r = b ++ r') : a = b ∧ r = r' := by
  have key : ∀ {a y r r' : List UInt8}, gap (a ++ y) = false → Tail r → r = y ++ r' → y = [] := by
    intro a y r r' hg hr h
    rcases y with _ | ⟨c, _ | ⟨d, y⟩⟩
    · rfl
    · rcases hr with hr | ⟨z, hr⟩
      · rw [hr] at h; cases h
      · rw [hr] at h
        simp only [cons_append, cons.injEq] at h
        rw [gap_append (by simp) (by simp [gap, ← h.1])] at hg
        cases hg
    · rcases hr with hr | ⟨z, hr⟩
      · rw [hr] at h; cases h
      · rw [hr] at h
        simp only [cons_append, cons.injEq] at h
        rw [gap_append (by simp) (by simp [gap, ← h.1, ← h.2.1])] at hg
        cases hg
  rcases append_eq_append_iff.1 h with ⟨y, h1, h2⟩ | ⟨y, h1, h2⟩
  · have := key (h1 ▸ hb) hr h2
    subst this
    simp only [append_nil, nil_append] at h1 h2
    exact ⟨h1.symm, h2⟩
  · have := key (h1 ▸ ha) hr' h2
    subst this
    simp only [append_nil, nil_append] at h1 h2
    exact ⟨h1, h2.symm⟩

/-- Names can be told from what is around them. -/
structure Clean (n : List UInt8) : Prop where
  start : ∃ c l, n = c :: l ∧ c ≠ 32 ∧ c ≠ 62
  gap : gap n = false
  line : 10 ∉ n

theorem names_clean {ty : AstType} (h : ty.name.isSome = true) : Clean (ascii (ty.name.getD "")) := by
  cases ty <;> first
    | (cases h; done)
    | exact ⟨⟨_, _, rfl, by decide, by decide⟩, by decide, by decide⟩

theorem arrows_unique {a b : List UInt8} (ha : ∃ c l, a = c :: l ∧ c ≠ (62 : UInt8))
    (hb : ∃ c l, b = c :: l ∧ c ≠ (62 : UInt8)) : ∀ {m n : Nat},
    (replicate m (ascii "> ")).flatten ++ a = (replicate n (ascii "> ")).flatten ++ b → m = n ∧ a = b
  | 0, 0, h => ⟨rfl, by simpa using h⟩
  | 0, n + 1, h => by
    obtain ⟨c, l, rfl, hc⟩ := ha
    rw [replicate_succ] at h
    have : c = 62 := (List.cons.inj h).1
    exact absurd this hc
  | m + 1, 0, h => by
    obtain ⟨c, l, rfl, hc⟩ := hb
    rw [replicate_succ] at h
    have : 62 = c := (List.cons.inj h).1
    exact absurd this.symm hc
  | m + 1, n + 1, h => by
    rw [replicate_succ, replicate_succ, flatten_cons, flatten_cons, append_assoc, append_assoc] at h
    obtain ⟨h1, h2⟩ := arrows_unique ha hb (append_cancel_left h)
    exact ⟨by omega, h2⟩

/-- What can be read of a node. -/
def Entry.shown (e : Entry) : Nat × Nat × Nat × Nat × List UInt8 × List UInt8 :=
  (e.depth, e.ordinal, e.start, e.stop, e.name, e.detail.flatMap escape)

/-- A detail does not begin with a blank. -/
def Entry.Flush (e : Entry) : Prop := e.detail.head? ≠ some 32

theorem escape_head {c : UInt8} (h0 : c ≠ 0) (h : c ≠ 32) : ∃ d l, escape c = d :: l ∧ d ≠ 32 := by
  unfold escape
  repeat' split
  all_goals first | exact ⟨_, _, rfl, by decide⟩ | exact ⟨_, _, rfl, h⟩ | contradiction

theorem blanks_of {k : Nat} : ∀ u ∈ replicate k (32 : UInt8), (u == 32) = true := by
  intro u hu; rw [(mem_replicate.1 hu).2]; rfl

/-- A byte that is no digit. -/
theorem digit_class {n : Nat} : ∀ u ∈ decimal n, (decide (48 ≤ u.toNat) && decide (u.toNat ≤ 57)) = true := by
  intro u hu
  have := (decimal_digits n).all u hu
  simp [this.1, this.2]

theorem decimal_cons (n : Nat) : ∃ c l, decimal n = c :: l ∧ c ≠ 32 := by
  have h := (decimal_digits n).least.1
  cases hd : decimal n with
  | nil => rw [hd] at h; cases h
  | cons c l =>
    refine ⟨c, l, rfl, ?_⟩
    rintro rfl
    have := (decimal_digits n).all 32 (by rw [hd]; simp)
    revert this; decide

/-- Blanks, a number and what follows. -/
theorem number_unique {k k' n n' : Nat} {c d : UInt8} {x y : List UInt8}
    (hc : c.toNat < 48) (hd : d.toNat < 48)
    (h : replicate k 32 ++ (decimal n ++ c :: x) = replicate k' 32 ++ (decimal n' ++ d :: y)) :
    n = n' ∧ c :: x = d :: y := by
  obtain ⟨u, l, e1, e2⟩ := decimal_cons n
  obtain ⟨v, m, f1, f2⟩ := decimal_cons n'
  have h' := h
  rw [e1, f1] at h'
  obtain ⟨hk, h1, h2⟩ := span_unique (p := (· == 32)) blanks_of blanks_of (by simpa using e2) (by simpa using f2) h'
  have h3 : decimal n ++ c :: x = decimal n' ++ d :: y := by rw [e1, f1, h1]; exact congrArg (v :: ·) h2
  obtain ⟨g1, g2, g3⟩ := span_unique (p := fun u => decide (48 ≤ u.toNat) && decide (u.toNat ≤ 57))
    digit_class digit_class (by simp; omega) (by simp; omega) h3
  exact ⟨decimal_inj g1, by rw [g2, g3]⟩

theorem blanks_unique {k k' : Nat} {c d : UInt8} {x y : List UInt8} (hc : c ≠ 32) (hd : d ≠ 32)
    (h : replicate k 32 ++ c :: x = replicate k' 32 ++ d :: y) : c :: x = d :: y := by
  obtain ⟨_, h1, h2⟩ := span_unique (p := (· == 32)) blanks_of blanks_of (by simpa using hc) (by simpa using hd) h
  rw [h1, h2]

/-- A line without its end. -/
def Body (e : Entry) (l : List UInt8) : Prop :=
  ∃ a b c back,
    l = replicate a 32 ++ (64 :: (decimal e.ordinal ++ 32 :: 32 :: (replicate b 32 ++ (decimal e.start ++
      46 :: 46 :: (decimal e.stop ++ (replicate c 32 ++ 32 :: 32 :: ((replicate e.depth (ascii "> ")).flatten ++
        (e.name ++ back)))))))) ∧
    (e.detail = [] ∧ back = [] ∨ e.detail ≠ [] ∧ ∃ k, back = replicate (k + 2) 32 ++ e.detail.flatMap escape)

theorem Line.body {cols : Columns} {e : Entry} {l : List UInt8} (h : Line noColours 0 cols e l) :
    ∃ b, l = b ++ [10] ∧ Body e b := by
  obtain ⟨f1, f2, f3, back, ⟨-, a, rfl⟩, ⟨-, b, rfl⟩, ⟨-, c, rfl⟩, rfl, h⟩ := h
  have nl : ascii "\n" = [10] := rfl
  rcases h with ⟨h1, h2⟩ | ⟨h1, k, x, h2, h3, h4⟩
  · refine ⟨_, ?_, a, b, c, [], rfl, .inl ⟨h1, rfl⟩⟩
    rw [h2, nl]
    simp [noColours, ascii]
  · have hx : x = e.detail.flatMap escape := by simpa [Wrapped] using h2
    refine ⟨_, ?_, a, b, c, _, rfl, .inr ⟨h1, k, rfl⟩⟩
    rw [h4, nl, hx]
    simp [noColours, ascii]

theorem replicate_cons_comm {n : Nat} {c : UInt8} {x : List UInt8} :
    replicate n c ++ c :: c :: x = c :: c :: (replicate n c ++ x) := by
  rw [show c :: c :: (replicate n c ++ x) = replicate (n + 2) c ++ x by simp [replicate_succ],
    show c :: c :: x = replicate 2 c ++ x from rfl, ← append_assoc, replicate_append_replicate]

theorem Body.unique {e e' : Entry} {l : List UInt8} (hn : Clean e.name) (hn' : Clean e'.name)
    (hf : e.Flush) (hf' : e'.Flush) (h0 : 0 ∉ e.detail) (h0' : 0 ∉ e'.detail)
    (h : Body e l) (h' : Body e' l) : e.shown = e'.shown := by
  obtain ⟨a, b, c, back, h1, h2⟩ := h
  obtain ⟨a', b', c', back', h1', h2'⟩ := h'
  rw [h1] at h1'
  have s1 := blanks_unique (by decide) (by decide) h1'
  obtain ⟨n1, s2⟩ := number_unique (k := 0) (k' := 0) (by decide) (by decide) (cons.inj s1).2
  have s3 := (cons.inj (cons.inj s2).2).2
  obtain ⟨n2, s4⟩ := number_unique (by decide) (by decide) s3
  have s5 := (cons.inj (cons.inj s4).2).2
  rw [replicate_cons_comm, replicate_cons_comm] at s5
  obtain ⟨n3, s6⟩ := number_unique (k := 0) (k' := 0) (by decide) (by decide) s5
  have s7 := (cons.inj (cons.inj s6).2).2
  have first : ∀ {e : Entry} {back : List UInt8}, Clean e.name →
      ∃ d z, (replicate e.depth (ascii "> ")).flatten ++ (e.name ++ back) = d :: z ∧ d ≠ 32 := by
    intro e back hn
    obtain ⟨d, z, hd, h32, -⟩ := hn.start
    cases hde : e.depth with
    | zero => exact ⟨d, z ++ back, by simp [hd], h32⟩
    | succ m => exact ⟨62, _, by rw [replicate_succ]; rfl, by decide⟩
  obtain ⟨d, z, hd, hd32⟩ := first (back := back) hn
  obtain ⟨d', z', hd', hd32'⟩ := first (back := back') hn'
  have s8 : (replicate e.depth (ascii "> ")).flatten ++ (e.name ++ back) =
      (replicate e'.depth (ascii "> ")).flatten ++ (e'.name ++ back') := by
    rw [hd, hd'] at s7 ⊢
    exact blanks_unique hd32 hd32' s7
  have nstart : ∀ {e : Entry} {back : List UInt8}, Clean e.name → ∃ c l, e.name ++ back = c :: l ∧ c ≠ (62 : UInt8) := by
    intro e back hn
    obtain ⟨d, z, hd, -, h62⟩ := hn.start
    exact ⟨d, z ++ back, by simp [hd], h62⟩
  obtain ⟨n4, s9⟩ := arrows_unique (nstart hn) (nstart hn') s8
  have tail : ∀ {e : Entry} {back : List UInt8}, (e.detail = [] ∧ back = [] ∨
      e.detail ≠ [] ∧ ∃ k, back = replicate (k + 2) 32 ++ e.detail.flatMap escape) → Tail back := by
    intro e back h
    rcases h with ⟨-, h⟩ | ⟨-, k, h⟩
    · exact .inl h
    · exact .inr ⟨_, by rw [h, replicate_succ, replicate_succ]; rfl⟩
  obtain ⟨n5, s10⟩ := name_unique hn.gap hn'.gap (tail h2) (tail h2') s9
  have start : ∀ {e : Entry}, e.Flush → 0 ∉ e.detail → e.detail ≠ [] → ∃ d z, e.detail.flatMap escape = d :: z ∧ d ≠ 32 := by
    intro e hf h0 hne
    unfold Entry.Flush at hf
    cases hd : e.detail with
    | nil => exact absurd hd hne
    | cons c l =>
      rw [hd] at hf h0
      simp only [mem_cons, not_or] at h0
      obtain ⟨d, z, h1, h2⟩ := escape_head (fun h => h0.1 h.symm) (fun h => hf (by rw [h]; rfl))
      exact ⟨d, z ++ l.flatMap escape, by simp [h1], h2⟩
  have n6 : e.detail.flatMap escape = e'.detail.flatMap escape := by
    rcases h2 with ⟨g1, g2⟩ | ⟨g1, k, g2⟩ <;> rcases h2' with ⟨g1', g2'⟩ | ⟨g1', k', g2'⟩
    · rw [g1, g1']
    · rw [g2, g2', replicate_succ] at s10; cases s10
    · rw [g2, g2', replicate_succ] at s10; cases s10
    · obtain ⟨d, z, i1, i2⟩ := start hf h0 g1
      obtain ⟨d', z', i1', i2'⟩ := start hf' h0' g1'
      rw [g2, g2', i1, i1'] at s10
      rw [i1, i1']
      exact blanks_unique i2 i2' s10
  simp only [Entry.shown, n1, n2, n3, n4, n5, n6]

theorem escape_no_line (c : UInt8) : 10 ∉ escape c := by
  unfold escape
  repeat' split
  all_goals first | decide | skip
  rename_i h _ _ _ _
  simp only [mem_singleton]
  exact fun e => h e.symm

theorem Body.no_line {e : Entry} {l : List UInt8} (hn : Clean e.name) (h : Body e l) :
    10 ∉ l := by
  obtain ⟨a, b, c, back, rfl, h⟩ := h
  have hb : 10 ∉ back := by
    rcases h with ⟨-, rfl⟩ | ⟨-, k, rfl⟩
    · simp
    · simp only [mem_append, mem_flatMap, not_or, not_exists, not_and]
      exact ⟨fun h => absurd (mem_replicate.1 h).2 (by decide), fun x _ => escape_no_line x⟩
  have hr : ∀ k, (10 : UInt8) ∉ replicate k 32 := fun k h => absurd (mem_replicate.1 h).2 (by decide)
  have ha : 10 ∉ (replicate e.depth (ascii "> ")).flatten := by
    intro h
    obtain ⟨x, hx, h⟩ := mem_flatten.1 h
    rw [(mem_replicate.1 hx).2] at h
    revert h; decide
  have hd : ∀ n, (10 : UInt8) ∉ decimal n := fun n => decimal_no (by decide)
  simp only [mem_append, mem_cons, not_or]
  exact ⟨hr _, by decide, hd _, by decide, by decide, hr _, hd _, by decide, by decide, hd _, hr _, by decide, by decide,
    ha, hn.line, hb⟩

theorem lines_unique : ∀ {es es' : List Entry} {ls ls' : List (List UInt8)} {cols cols' : Columns},
    Forall₂ (Line noColours 0 cols) es ls → Forall₂ (Line noColours 0 cols') es' ls' →
    (∀ e ∈ es, Clean e.name ∧ e.Flush ∧ 0 ∉ e.detail) → (∀ e ∈ es', Clean e.name ∧ e.Flush ∧ 0 ∉ e.detail) →
    ls.flatten = ls'.flatten → es.map Entry.shown = es'.map Entry.shown
  | [], [], _, _, _, _, .nil, .nil, _, _, _ => rfl
  | [], _ :: _, _, _, _, _, .nil, .cons h _, _, _, e => by
    obtain ⟨b, hb, -⟩ := h.body
    rw [hb] at e
    simp at e
  | _ :: _, [], _, _, _, _, .cons h _, .nil, _, _, e => by
    obtain ⟨b, hb, -⟩ := h.body
    rw [hb] at e
    simp at e
  | x :: es, x' :: es', _, _, cols, cols', .cons (l₂ := ls) h hs, .cons (l₂ := ls') h' hs', hc, hc', e => by
    obtain ⟨b, hb, h1⟩ := h.body
    obtain ⟨b', hb', h1'⟩ := h'.body
    obtain ⟨c1, c2, c3⟩ := hc x mem_cons_self
    obtain ⟨c1', c2', c3'⟩ := hc' x' mem_cons_self
    rw [hb, hb', flatten_cons, flatten_cons, append_assoc, append_assoc] at e
    have n1 := h1.no_line c1
    have n2 := h1'.no_line c1'
    obtain ⟨e1, -, e2⟩ := span_unique (p := (· != 10)) (fun u hu => by
      simp only [bne_iff_ne]; rintro rfl; exact n1 hu) (fun u hu => by
      simp only [bne_iff_ne]; rintro rfl; exact n2 hu) (by decide) (by decide) e
    subst e1
    rw [map_cons, map_cons, h1.unique c1 c1' c2 c2' c3 c3' h1',
      lines_unique hs hs' (fun e he => hc e (mem_cons_of_mem _ he)) (fun e he => hc' e (mem_cons_of_mem _ he)) e2]

mutual
theorem entries_clean : ∀ (t : Tree) {depth : Nat}, t.Ok → ∀ e ∈ t.entries depth, Clean e.name
  | .node ty r o ws cs, depth, ht, e, he => by
    simp only [Tree.entries] at he
    rcases mem_cons.1 he with rfl | he
    · exact names_clean ht.1
    · exact entriesAll_clean cs ht.2.2.2 e he
theorem entriesAll_clean : ∀ (ts : List Tree) {depth : Nat}, Tree.OkAll ts →
    ∀ e ∈ Tree.entriesAll depth ts, Clean e.name
  | [], _, _, e, he => by cases he
  | t :: ts, depth, ht, e, he => by
    simp only [Tree.entriesAll] at he
    rcases mem_append.1 he with he | he
    · exact entries_clean t ht.1 e he
    · exact entriesAll_clean ts ht.2 e he
end

/-- C37. What is printed tells depth, ordinal, range, type and (escaped) detail of every node: trees that are
printed alike have the same nodes. -/
theorem fprint_readable {junk junk' : Nat → List UInt8} (hj : ∀ n, n < (junk n).length)
    (hj' : ∀ n, n < (junk' n).length) {ts ts' : List Tree}
    (hok : Tree.OkAll ts) (hok' : Tree.OkAll ts')
    (hm : Measurable (Tree.entriesAll 0 ts)) (hm' : Measurable (Tree.entriesAll 0 ts'))
    (hr : Roomy 1024 (Tree.entriesAll 0 ts)) (hr' : Roomy 1024 (Tree.entriesAll 0 ts'))
    (hf : ∀ e ∈ Tree.entriesAll 0 ts, e.Flush ∧ 0 ∉ e.detail)
    (hf' : ∀ e ∈ Tree.entriesAll 0 ts', e.Flush ∧ 0 ∉ e.detail)
    (h : fprintv junk noColours 0 ts = fprintv junk' noColours 0 ts') :
    (Tree.entriesAll 0 ts).map Entry.shown = (Tree.entriesAll 0 ts').map Entry.shown := by
  obtain ⟨cols, ls, h1, h2⟩ := fprint_lines_partial hj noColours 0 hok hm hr
  obtain ⟨cols', ls', h1', h2'⟩ := fprint_lines_partial hj' noColours 0 hok' hm' hr'
  rw [h1, h1'] at h
  exact lines_unique h2 h2' (fun e he => ⟨entriesAll_clean ts hok e he, hf e he⟩)
    (fun e he => ⟨entriesAll_clean ts' hok' e he, hf' e he⟩) (by injection h)

/-- Specification: the characters written as a backslash and another character, as C would. -/
def detailEscapes : List (UInt8 × UInt8) :=
  [(7, 97), (8, 98), (9, 116), (10, 110), (11, 118), (12, 102), (13, 114)]

theorem escape_fin : ∀ n : Fin 256, escape (UInt8.ofNat n.val) =
    if n.val = 0 then [] else
      ((detailEscapes.lookup (UInt8.ofNat n.val)).elim [UInt8.ofNat n.val] fun e => [92, e]) := by decide +kernel

/-- C37. Details are escaped as in C, but for backslashes and quotes. -/
theorem escape_eq {c : UInt8} (h : c ≠ 0) :
    escape c = (detailEscapes.lookup c).elim [c] fun e => [92, e] := by
  have := escape_fin ⟨c.toNat, c.toNat_lt⟩
  have h0 : c.toNat ≠ 0 := fun e => h (UInt8.toNat_inj.1 e)
  simpa [h0] using this

/-! Examples: a statement with an operator, as `RETURN 1+\n2` gives. -/

private def zeros (n : Nat) : List UInt8 := replicate (n + 1) 0
private def rng (a b : Nat) : Range := ⟨⟨1, a + 1, a⟩, ⟨1, b + 1, b⟩⟩
private def sample : List Tree :=
  [.node .binaryOperator (rng 7 11) 0 [.fmt (ascii "@1 + @2")]
    [.node .integer (rng 7 8) 1 [.fmt (ascii "1")] [], .node .string (rng 10 11) 2 [.fmt [34, 10, 34]] []]]

example : fprintv zeros noColours 0 sample = .ok
    (ascii "@0   7..11  binary operator  @1 + @2\n" ++ ascii "@1   7..8   > integer        1\n" ++
      ascii "@2  10..11  > string         \"\\n\"\n") := by decide +kernel

example : ∃ cols lines, fprintv zeros ansiColours 40 sample = .ok lines.flatten ∧
    Forall₂ (Line ansiColours 40 cols) (Tree.entriesAll 0 sample) lines :=
  fprint_lines_partial (by simp [zeros]) _ _ (by simp [sample, Tree.OkAll, Tree.Ok, W.Ok]; decide)
    (by simp [Measurable, sample, Tree.entriesAll, Tree.entries, rng])
    (by simp [Roomy, sample, Tree.entriesAll, Tree.entries, textOf, W.text]; decide)

/-- Nothing at all, and a lone node at the beginning of the input, cannot be printed. -/
example : fprintv zeros noColours 0 [] = .error .conversion := by decide +kernel
example : fprintv zeros noColours 0 [.node .integer (rng 0 1) 1 [.fmt (ascii "1")] []] = .error .conversion := by
  decide +kernel

/-- Backslashes are not escaped: a line end and the two characters `\n` look the same. -/
example : fprintv zeros noColours 0 [.node .string (rng 7 11) 1 [.fmt [34, 10, 34]] []] =
    fprintv zeros noColours 0 [.node .string (rng 7 11) 1 [.fmt (ascii "\"\\n\"")] []] := by decide +kernel

end Verif.Print
