import Verif.Peg.Analysis
/-!
# Reading input: `yyrefill`, `yyCommit`, and the two input sources

`yyrefill` and `yyCommit` are part of what `leg` generates (see DESIGN.md); the sources are
`source_from_buffer` and `source_from_stream` (parser.c:63-82, 107-117; quick_parser.c:37-68, identical).
-/
namespace Verif.Peg
variable {R P A : Type}

/-- An input source: `int source(data, buf, n)`, returning the bytes written and the new state. -/
abbrev Source (σ : Type) := σ → Nat → List UInt8 × σ

/-- `__buf` (the first `__limit` bytes of it), `__buflen` and the source's state. -/
structure Reader (σ : Type) where
  buf : List UInt8
  buflen : Nat
  src : σ

/-- The loop `while (buflen - pos < 512) buflen *= 2` of `yyrefill`, with enough fuel. -/
def growBuf : Nat → Nat → Nat → Nat
  | 0, buflen, _ => buflen
  | n + 1, buflen, pos => if buflen < pos + 512 then growBuf n (buflen * 2) pos else buflen

/-- `yyrefill`.  It is only called with `__pos = __limit` (positions never exceed the limit, see
`Feeds.readsAs`), so that the new bytes, written at `__buf + __pos`, directly follow the old. -/
def Reader.refill {σ : Type} (S : Source σ) (pos : Nat) (r : Reader σ) : Bool × Reader σ :=
  let buflen := growBuf (pos + 512) r.buflen pos
  let (chunk, src) := S r.src (buflen - pos)
  match chunk with
  | [] => (false, ⟨r.buf, buflen, src⟩)
  | _ :: _ => (true, ⟨r.buf ++ chunk, buflen, src⟩)

/-- The test at the head of every match: `if (pos >= limit && !yyrefill(yy)) fail`, then the byte
`__buf[pos]`. -/
def Reader.peek {σ : Type} (S : Source σ) (pos : Nat) (r : Reader σ) :
    Option UInt8 × Reader σ :=
  if pos ≥ r.buf.length then
    match r.refill S pos with
    | (false, r') => (none, r')
    | (true, r') => (r'.buf[pos]?, r')
  else (r.buf[pos]?, r)

/-- `yyCommit`: drop the consumed bytes. -/
def Reader.commit {σ : Type} (pos : Nat) (r : Reader σ) : Reader σ :=
  { r with buf := r.buf.drop pos }

/-- The state of the reader before anything is read (`YY_BUFFER_SIZE` is 1024). -/
def Reader.init {σ : Type} (s : σ) : Reader σ := ⟨[], 1024, s⟩

/-- A host whose predicates see the reader but do not change it. -/
def mkHost {σ δ : Type} (S : Source σ)
    (pred : P → Nat → Reader σ → δ → Except Fault (Bool × δ × List (Thunk A))) :
    Host P A (Reader σ × δ) where
  peek p g := let (c, r') := g.1.peek S p; (c, (r', g.2))
  pred x p g := match pred x p g.1 g.2 with
    | .ok (b, d, ts) => .ok (b, (g.1, d), ts)
    | .error f => .error f

/-- `D r rest`: a reader in state `r` will go on to deliver exactly the bytes `rest`. -/
structure Feeds {σ : Type} (S : Source σ) (D : Reader σ → List UInt8 → Prop) : Prop where
  /-- refilling yields a prefix of the rest, at most as long as asked for, and nothing only at the
  end -/
  refill : ∀ r rest, D r rest → ∃ rest', rest = (S r.src
      (growBuf (r.buf.length + 512) r.buflen r.buf.length - r.buf.length)).1 ++ rest' ∧
    D (r.refill S r.buf.length).2 rest' ∧
    ((S r.src (growBuf (r.buf.length + 512) r.buflen r.buf.length - r.buf.length)).1 = [] →
      rest = []) ∧
    (S r.src (growBuf (r.buf.length + 512) r.buflen r.buf.length - r.buf.length)).1.length ≤
      growBuf (r.buf.length + 512) r.buflen r.buf.length - r.buf.length
  commit : ∀ r rest p, D r rest → p ≤ r.buf.length → D (r.commit p) rest

/-- The reader at position `pos` within the input `w`. -/
structure Reader.At {σ : Type} (D : Reader σ → List UInt8 → Prop) (w : List UInt8) (pos : Nat)
    (r : Reader σ) : Prop where
  pos_le : pos ≤ r.buf.length
  fits : r.buf.length ≤ r.buflen
  rest : ∃ rest, w = r.buf ++ rest ∧ D r rest

theorem growBuf_ge (n : Nat) : ∀ b p, b ≤ growBuf n b p := by
  induction n with
  | zero => intro b p; exact Nat.le_refl _
  | succ n ih =>
    intro b p
    simp only [growBuf]
    split
    · exact Nat.le_trans (by omega) (ih _ _)
    · exact Nat.le_refl _

/-- With a buffer of at least one byte there is enough fuel: at least 512 bytes are asked for. -/
theorem growBuf_room (n : Nat) : ∀ b p, 0 < b → p + 512 ≤ b + n → p + 512 ≤ growBuf n b p := by
  induction n with
  | zero => intro b p h1 h2; simpa [growBuf] using h2
  | succ n ih =>
    intro b p h1 h2
    simp only [growBuf]
    split
    · exact ih _ _ (by omega) (by omega)
    · omega

variable {σ δ : Type}

theorem Reader.refill_at {S : Source σ} {D : Reader σ → List UInt8 → Prop} (hf : Feeds S D)
    {w : List UInt8} {r : Reader σ} (h : r.At D w r.buf.length) :
    match r.refill S r.buf.length with
    | (false, r') => r.buf.length = w.length ∧ r'.At D w r.buf.length ∧ r'.buf = r.buf
    | (true, r') => r.buf.length < r'.buf.length ∧ r'.At D w r.buf.length := by
  obtain ⟨-, hfit, rest, hw, hd⟩ := h
  obtain ⟨rest', h1, h2, h3, h4⟩ := hf.refill r rest hd
  have hge := growBuf_ge (r.buf.length + 512) r.buflen r.buf.length
  unfold Reader.refill at h2 ⊢
  simp only at h2 ⊢
  generalize S r.src (growBuf (r.buf.length + 512) r.buflen r.buf.length - r.buf.length) = cs at *
  obtain ⟨chunk, src⟩ := cs
  cases chunk with
  | nil =>
    simp only at h1 h2 h3 h4 ⊢
    have hrest := h3 trivial
    subst hrest
    have : rest' = [] := by simpa using h1.symm
    subst this
    refine ⟨by rw [hw]; simp, ⟨Nat.le_refl _, by simp only; omega, [], hw, h2⟩, trivial⟩
  | cons c cs =>
    simp only at h1 h2 h3 h4 ⊢
    refine ⟨by simp, ⟨by simp, ?_, rest', by rw [hw, h1]; simp, h2⟩⟩
    simp only [List.length_append]
    omega

/-- A source that feeds `w` makes the host read `w`. -/
theorem Feeds.readsAs {S : Source σ} {D : Reader σ → List UInt8 → Prop} (hf : Feeds S D)
    (w : List UInt8) (pred : P → Nat → Reader σ → δ → Except Fault (Bool × δ × List (Thunk A))) :
    ReadsAs (mkHost S pred) w (fun p g => g.1.At D w p) := by
  have key : ∀ (p : Nat) (r : Reader σ), r.At D w p →
      (r.peek S p).1 = w[p]? ∧ (r.peek S p).2.At D w p ∧
      (p < w.length → (r.peek S p).2.At D w (p + 1)) := by
    intro p r h
    unfold Reader.peek
    by_cases hp : p ≥ r.buf.length
    · have hpe : p = r.buf.length := by have := h.1; omega
      subst hpe
      rw [if_pos hp]
      have := Reader.refill_at hf h
      rcases hrf : r.refill S r.buf.length with ⟨b, r'⟩
      rw [hrf] at this
      cases b with
      | false =>
        obtain ⟨h1, h2, h3⟩ := this
        refine ⟨?_, h2, fun hlt => by omega⟩
        simp only
        rw [List.getElem?_eq_none (by omega)]
      | true =>
        obtain ⟨h1, h2⟩ := this
        obtain ⟨g1, g2, rest, g3, g4⟩ := h2
        refine ⟨?_, ⟨g1, g2, rest, g3, g4⟩, fun hlt => ⟨h1, g2, rest, g3, g4⟩⟩
        simp only
        rw [g3, List.getElem?_append_left h1]
    · rw [if_neg hp]
      have hlt : p < r.buf.length := by omega
      obtain ⟨-, g2, rest, g3, g4⟩ := h
      refine ⟨?_, ⟨Nat.le_of_lt hlt, g2, rest, g3, g4⟩, fun _ => ⟨hlt, g2, rest, g3, g4⟩⟩
      simp only
      rw [g3, List.getElem?_append_left hlt]
  constructor
  · intro p g h; exact (key p g.1 h).1
  · intro p g h; exact (key p g.1 h).2.1
  · intro p g h hlt; exact (key p g.1 h).2.2 hlt
  · intro p q g h hq; exact ⟨Nat.le_trans hq h.1, h.2, h.3⟩
  · intro p g h
    obtain ⟨h1, -, rest, hw, -⟩ := h
    rw [hw]; simp; omega
  · intro x p g b g' ts h hp
    simp only [mkHost] at hp
    split at hp
    · simp only [Except.ok.injEq, Prod.mk.injEq] at hp
      obtain ⟨-, rfl, -⟩ := hp
      exact h
    · simp at hp

theorem Reader.At.commit {S : Source σ} {D : Reader σ → List UInt8 → Prop} (hf : Feeds S D)
    {w : List UInt8} {p : Nat} {r : Reader σ} (h : r.At D w p) :
    (r.commit p).At D (w.drop p) 0 := by
  obtain ⟨h1, h2, rest, h3, h4⟩ := h
  refine ⟨Nat.zero_le _, ?_, rest, ?_, hf.commit r rest p h4 h1⟩
  · simp only [Reader.commit, List.length_drop]; omega
  · rw [h3, List.drop_append_of_le_length h1]; rfl

/-! ## The two sources -/

/-- `source_from_stream` (parser.c:107-117, quick_parser.c:58-68): one byte per call, whatever room
there is. The stream's state is the bytes not yet read. -/
def streamSource : Source (List UInt8)
  | [], _ => ([], [])
  | c :: cs, _ => ([c], cs)

theorem stream_feeds : Feeds streamSource (fun r rest => r.src = rest ∧ 0 < r.buflen) := by
  constructor
  · rintro r rest ⟨h, hb⟩
    have hroom := growBuf_room (r.buf.length + 512) r.buflen r.buf.length hb (by omega)
    have hge := growBuf_ge (r.buf.length + 512) r.buflen r.buf.length
    unfold Reader.refill
    cases hs : r.src with
    | nil =>
      subst h
      refine ⟨[], by simp [streamSource, hs], ⟨by simp [streamSource], ?_⟩, fun _ => by simp [hs], by simp [streamSource]⟩
      simp [streamSource]; omega
    | cons c cs =>
      subst h
      refine ⟨cs, by simp [streamSource, hs], ⟨by simp [streamSource], ?_⟩,
        fun h => by simp [streamSource] at h, ?_⟩
      · simp [streamSource]; omega
      · simp [streamSource]; omega
  · rintro r rest p ⟨h, hb⟩ _; exact ⟨h, hb⟩

/-- State of `source_from_buffer` (quick_parser.c:37-41): `buffer` is the memory from the pointer
on, `length` the count still to deliver. -/
structure BufferState where
  buffer : List UInt8
  length : Nat

/-- `source_from_buffer` (parser.c:70-81, quick_parser.c:44-55): `length` is decreased, but `buffer` is
**not** advanced. Simplification: `min` on the mixed `size_t`/`int` types is the mathematical one
(lengths below 2^31). -/
def bufferSource : Source BufferState := fun s n =>
  let len := min s.length n
  (s.buffer.take len, { s with length := s.length - len })

/-- A buffer of at most 1024 bytes is delivered by the first read. -/
theorem buffer_feeds (w : List UInt8) (hw : w.length ≤ 1024) :
    Feeds bufferSource (fun r rest =>
      (r.buf = [] ∧ r.buflen = 1024 ∧ r.src = ⟨w, w.length⟩ ∧ rest = w) ∨
      (r.src.length = 0 ∧ rest = [])) := by
  constructor
  · rintro r rest (⟨h1, h2, h3, h4⟩ | ⟨h1, h2⟩)
    · subst h4
      have hg : growBuf (0 + 512) 1024 0 = 1024 := rfl
      have hm : min rest.length (1024 - 0) = rest.length := by omega
      refine ⟨[], ?_, Or.inr ⟨?_, rfl⟩, ?_, ?_⟩
      · simp only [h1, h2, h3, List.length_nil, hg, bufferSource, hm, List.take_length,
          List.append_nil]
      · simp only [Reader.refill, h1, h2, h3, List.length_nil, hg, bufferSource, hm]
        split <;> simp
      · simp only [h1, h2, h3, List.length_nil, hg, bufferSource, hm, List.take_length]
        exact id
      · simp only [h1, h2, h3, List.length_nil, hg, bufferSource, hm, List.take_length]
        omega
    · subst h2
      refine ⟨[], ?_, Or.inr ⟨?_, rfl⟩, fun _ => rfl, ?_⟩
      · simp [bufferSource, h1]
      · simp only [Reader.refill, bufferSource, h1]
        split <;> simp
      · simp [bufferSource, h1]
  · rintro r rest p (⟨h1, h2, h3, h4⟩ | ⟨h1, h2⟩) hp
    · exact Or.inl ⟨by simp [Reader.commit, h1], h2, h3, h4⟩
    · exact Or.inr ⟨h1, h2⟩

theorem stream_init (w : List UInt8) : (Reader.init w).At (fun r rest => r.src = rest ∧ 0 < r.buflen) w 0 :=
  ⟨Nat.zero_le _, by simp [Reader.init], w, by simp [Reader.init], by simp [Reader.init]⟩

theorem buffer_init (w : List UInt8) : (Reader.init (BufferState.mk w w.length)).At (fun r rest =>
      (r.buf = [] ∧ r.buflen = 1024 ∧ r.src = ⟨w, w.length⟩ ∧ rest = w) ∨
      (r.src.length = 0 ∧ rest = [])) w 0 :=
  ⟨Nat.zero_le _, by simp [Reader.init], w, by simp [Reader.init], by simp [Reader.init]⟩

end Verif.Peg
