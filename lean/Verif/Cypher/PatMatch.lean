import Verif.Cypher.ExprMatch
/-!
# The parser reads every pattern

Along the rules of parser.leg:706-791. White space after a node or a relationship is not read by their rules but by what
follows: `Halts` says that a rule stops before the white space that belongs to the last piece.
-/
namespace Verif.Stmts
open Verif.Peg Verif.Exprs Verif.Cypher Verif.Cypher.Win
open Verif.Ops (words bytes upper)

variable {w : List UInt8} {t : List UInt8} {X Y : List Piece} {k x : Piece} {v v' : Option Nat} {a b e : E}

/-! ## Beginnings -/

theorem Props.texts (h : Props X) : ∀ x ∈ X, x.text ≠ [] := by
  cases h with
  | map h _ => cases h <;> simp
  | param => simp
theorem Props.begins (h : Props X) : Begins ["{", "$"] (render X ++ t) := by
  cases h with
  | map h _ =>
    rw [render_cons]
    cases h <;> exact (byte_begins (x := "{") (by decide +kernel) (by decide +kernel) (by decide)).mono (by simp)
  | param =>
    rw [render_cons]
    exact (byte_begins (x := "$") (by decide +kernel) (by decide +kernel) (by decide)).mono (by simp)
theorem optProps_begins {xs : List String} (h : Opt Props X) (ht : Begins xs t) : Begins ("{" :: "$" :: xs) (render X ++ t) := by
  cases h with
  | none => exact ht.mono (by simp +contextual)
  | some h => exact h.begins.mono (by simp)

theorem Label.texts (h : Label X) : ∀ x ∈ X, x.text ≠ [] := by
  obtain ⟨h1, h2⟩ := h
  simpa using ⟨h1.text (by decide +kernel), h2.text⟩
theorem Label.begins (h : Label X) : Begins [":"] (render X ++ t) := by
  obtain ⟨h1, h2⟩ := h
  exact sign_begins h1 (by decide +kernel) (by decide +kernel)
/-! ## Labels, types, properties -/

def labelA : List Tile := [.byte (.single 58), .ws false] ++ nameA
theorem label_run : ∀ r ∈ [Rule.r_label, .r_rel_type], ∀ B ∈ wordEnds,
    okAt (labelA.length + 1) (run 100 (.mk2 labelA B [] [] [] none) (.nt r none) 0 .same []) = true := by
  decide +kernel
theorem typeName_run : ∀ r ∈ [Rule.r_rel_type_name, .r_prop_name, .r_index_name], ∀ B ∈ wordEnds,
    okAt (nameA.length + 1) (run 100 (.mk2 nameA B [] [] [] none) (.nt r none) 0 .same []) = true := by
  decide +kernel
theorem param_props : ∀ B ∈ wordEnds,
    okAt ((([.byte (.single 36)] : List Tile) ++ nameA).length + 1) (run 100 (.mk2 (([.byte (.single 36)] : List Tile) ++ nameA) B [] [] [] none)
      (.nt .r_pattern_properties none) 0 .same []) = true := by
  decide +kernel

theorem Label.takes {r : Rule} (hr : r ∈ [Rule.r_label, .r_rel_type]) (h : Label X) (ht : Solid t) : Takes w (.nt r v) X t := by
  refine ⟨h.texts, fun p h1 h2 => ?_⟩
  obtain ⟨⟨g1, g2⟩, ⟨g3, g4⟩⟩ := h
  rename_i s b s' b'
  have h3 : Here w p (s ++ (b ++ (s' ++ (b' ++ t)))) := by simpa [render] using h1
  have h4 := h3.right
  have h5 := h4.right
  obtain ⟨B, hB, h7⟩ := ends_lay g4 ht (ends_apart (x := ⟨.operand, s', b'⟩) g3.ends h2.2) h5.right (p + s.length + b.length + s'.length + b'.length)
  refine ((Win.eats (label_run r hr B hB) (Span.append (.append (Span.word g1 h3) (.cons (.of_gap g2 g3.solid h4 (by simp)) .nil))
    (g3.span h5)) h7 (by simp) (by simp) (by simp)).to ?_).var
  simp [Mark, render]; omega

theorem typeName_takes {r : Rule} (hr : r ∈ [Rule.r_rel_type_name, .r_prop_name, .r_index_name]) (h : Ident x) (ht : Solid t) :
    Takes w (.nt r v) [x] t := by
  refine ⟨by simpa using h.text, fun p h1 h2 => ?_⟩
  obtain ⟨h3, h4⟩ := h
  rename_i s b
  have h6 : Here w p (s ++ (b ++ t)) := by simpa [render] using h1
  obtain ⟨B, hB, h7⟩ := ends_lay h4 ht (ends_apart (x := ⟨.operand, s, b⟩) h3.ends h2) h6.right (p + s.length + b.length)
  refine ((Win.eats (typeName_run r hr B hB) (h3.span h6) h7 (by simp) (by simp) (by simp)).to ?_).var
  simp [Mark, render]; omega

theorem Props.takes (h : Props X) (ht : Solid t) : Takes w (.nt .r_pattern_properties v) X t := by
  refine ⟨h.texts, fun p h1 h2 => ?_⟩
  cases h with
  | @map s b h hb =>
    have h3 : Here w p (s ++ (b ++ t)) := by simpa [render] using h1
    exact ((map_read (good _) h le_rfl hb ht h3 (.nt .r_pattern_properties none) (by simp [mapEs])).to (by simp [render]; omega)).var
  | @param s b h hb =>
    have h3 : Here w p (36 :: (s ++ (b ++ t))) := by simpa [render] using h1
    have h4 := h3.tail
    obtain ⟨B, hB, h7⟩ := ends_lay hb ht (ends_apart (x := ⟨.operand, 36 :: s, b⟩) (EndsSym.append (s := [36]) h.ends) h2) h4.right
      (p + 1 + s.length + b.length)
    refine ((Win.eats (param_props B hB) (.cons (.of_byte h3 (by decide)) (h.span h4)) h7 (by simp) (by simp) (by simp)).to ?_).var
    simp [Mark, render]; omega

theorem optWord_texts (h : Opt Word X) : ∀ x ∈ X, x.text ≠ [] := h.texts fun g => by
  obtain ⟨g⟩ := g
  simpa using g.text
theorem optWord_takes (h : Opt Word X) (hs : Solid t) (hN : Refuses w (.nt .r_identifier none) t) :
    Takes w (.alt (.nt .r_identifier v) (.nt .r__null_ v')) X t := opt_takes h (fun g => by
      obtain ⟨g⟩ := g
      exact g.takes hs) hN
theorem Key.spaceless {x : String} (h : Key x k) : Gap k.blank := by obtain ⟨-, h⟩ := h; exact h

/-! ## Nodes -/

theorem Node.begins (h : Node X) : Begins ["("] (render X ++ t) := by
  obtain ⟨h, -⟩ := h
  exact sign_begins h (by decide +kernel) (by decide +kernel)

theorem Node.halts (h : Node X) : Halts w (.nt .r_node_pattern v) X t := by
  obtain ⟨hk, hI, hL, hP, hk'⟩ := h
  rename_i k I L P k'
  have b1 : Begins [")"] (render [k'] ++ t) := sign_begins hk' (by decide +kernel) (by decide +kernel)
  have b2 : Begins ["{", "$", ")"] (render P ++ (render [k'] ++ t)) := optProps_begins hP b1
  have b2' : Begins ["{", "$", ")"] (render (P ++ [k']) ++ t) := by rw [render_append, List.append_assoc]; exact b2
  have b3 : Begins [":", "{", "$", ")"] (render (L ++ (P ++ [k'])) ++ t) := by
    rw [render_append, List.append_assoc]; exact hL.begins (fun _ _ => Label.begins) b2'
  have tL := hL.texts fun _ => Label.texts
  have s1 : Spaced ((I ++ (L ++ (P ++ [k']))) ++ [endPiece t]) → Solid (render (I ++ (L ++ (P ++ [k']))) ++ t) := by
    intro _
    rw [render_append, List.append_assoc]
    cases hI with
    | none => exact b3.solid (by decide +kernel)
    | some h => obtain ⟨h⟩ := h; exact h.solid
  refine .nt (.skip .blockStart (.ws' (X := [k]) (fun _ => .sign hk (by decide +kernel) (by decide +kernel)) s1
    (by simpa using hk.text (by decide +kernel)) (.seq (fun _ => optWord_takes hI (b3.solid (by decide +kernel)) (b3.refuses (by decide +kernel)))
    (.seq (fun _ => hL.takes (fun _ _ => Label.begins) (fun _ => Label.texts)
        (fun X t hX hb => .seqIdle (hX.takes (by simp) (hb.solid (by decide +kernel))) .act) (by decide +kernel) b2')
      (.seq (fun _ => opt_takes hP (fun h => h.takes (b1.solid (by decide +kernel))) (b1.refuses (by decide +kernel)))
        (.seqIdle (.sign hk' (by decide +kernel) (by decide +kernel)) .fin) (hP.texts Props.texts)) tL) (optWord_texts hI))))

/-! ## Relationships -/

def kClose : CharSet := set "{$]"
def rangeAs : List (List Tile) :=
  let n : List Tile := [.byte kDigit, .run kDigit]
  let d : List Tile := [.byte (.single 46), .byte (.single 46)]
  let s : List Tile := [.byte (.single 42)]
  [s ++ [.ws false] ++ n, s ++ [.ws false] ++ d ++ [.ws false] ++ n, s ++ [.ws false] ++ n ++ [.ws false] ++ d ++ [.ws false] ++ n]
def rangeAs' : List (List Tile) :=
  let n : List Tile := [.byte kDigit, .run kDigit]
  let d : List Tile := [.byte (.single 46), .byte (.single 46)]
  let s : List Tile := [.byte (.single 42)]
  [s, s ++ [.ws false] ++ d, s ++ [.ws false] ++ n ++ [.ws false] ++ d]
theorem range_run : ∀ A ∈ rangeAs, ∀ B ∈ [[.ws true, .hole kClose], [.ws false, .hole (set "{]")]],
    okAt (A.length + 1) (run 100 (.mk2 A B [] [] [] none) (.nt .r_rel_varlength none) 0 .same []) = true := by
  decide +kernel
theorem range_run' : ∀ A ∈ rangeAs',
    okAt (A.length + 1) (run 100 (.mk2 A [.ws false, .hole kClose] [] [] [] none) (.nt .r_rel_varlength none) 0 .same []) = true := by
  decide +kernel

theorem close_head (h : Begins ["{", "$", "]"] t) : ∃ c r, t = c :: r ∧ kClose.mem c = true := by
  rcases h with ⟨h, -⟩ | ⟨x, hx, hn, s, r, rfl, h1, -⟩
  · exact absurd h (by decide)
  cases s with
  | nil => exact absurd h1.symm hn
  | cons c s =>
    refine ⟨c, s ++ r, rfl, ?_⟩
    have h2 : ∀ x ∈ ["{", "$", "]"], (bytes x).head?.any (fun d => d == 123 || d == 36 || d == 93) = true := by decide +kernel
    have := h2 x hx
    rw [← h1] at this
    exact imp_byte (P := fun c => upper c == 123 || upper c == 36 || upper c == 93) (by decide +kernel) (by simpa using this)

theorem Digits.solid {s : List UInt8} (h : Digits s) : Solid (s ++ t) := by
  obtain ⟨h1, h2⟩ := h
  cases s with
  | nil => exact absurd rfl h1
  | cons c s =>
    refine solid_cons ?_
    have := imp_byte (P := digit) (Q := fun c => c != 32 && c != 9 && c != 10 && c != 13 && c != 47) (by decide +kernel) (h2 c (by simp))
    simpa [and_assoc] using this
theorem Digits.span {s : List UInt8} (h : Digits s) {p : Nat} (hh : Here w p (s ++ t)) :
    Span w [.byte kDigit, .run kDigit] p (p + s.length) := by
  obtain ⟨h1, h2⟩ := h
  exact digits_span h1 h2 hh
theorem Digits.ends {s : List UInt8} (h : Digits s) : EndsSym s := by
  obtain ⟨h1, h2⟩ := h
  exact digits_ends h1 h2
theorem dots_span {p : Nat} (hh : Here w p (46 :: 46 :: t)) : Span w [.byte (.single 46), .byte (.single 46)] p (p + 1 + 1) :=
  .cons (.of_byte hh (by decide)) (.cons (.of_byte hh.tail (by decide)) .nil)
theorem gap_span {b : List UInt8} (hb : Gap b) (hs : Solid t) {p : Nat} (hh : Here w p (b ++ t)) :
    Span w [.ws false] p (p + b.length) := .cons (.of_gap hb hs hh (by simp)) .nil

theorem Range.span {s : List UInt8} (h : Range s) {p : Nat} (hh : Here w p (s ++ t)) :
    (∃ A ∈ rangeAs, Span w A p (p + s.length) ∧ EndsSym s) ∨ ∃ A ∈ rangeAs', Span w A p (p + s.length) := by
  have h46 : ∀ r, Solid (46 :: r) := fun r => solid_cons (by decide)
  have star : ∀ {r}, Here w p (42 :: r) → Span w [.byte (.single 42)] p (p + 1) := fun hh => .cons (.of_byte hh (by decide)) .nil
  cases h with
  | any => exact .inr ⟨_, by simp [rangeAs'], star hh⟩
  | @exact b n hb hn =>
    simp only [List.cons_append, List.append_assoc] at hh
    have h1 := hh.tail
    have h2 := h1.right
    refine .inl ⟨_, by simp [rangeAs]; exact .inl rfl, ?_, EndsSym.append (s := 42 :: b) hn.ends⟩
    have := ((star hh).append (gap_span hb hn.solid h1)).append (hn.span h2)
    rw [show p + (42 :: (b ++ n)).length = p + 1 + b.length + n.length by simp; omega]
    exact this
  | @all b hb =>
    simp only [List.cons_append, List.append_assoc, List.nil_append] at hh
    have h1 := hh.tail
    have h2 := h1.right
    refine .inr ⟨_, by simp [rangeAs']; exact .inr (.inl rfl), ?_⟩
    have := ((star hh).append (gap_span hb (h46 _) h1)).append (dots_span h2)
    rw [show p + (42 :: (b ++ [46, 46])).length = p + 1 + b.length + 1 + 1 by simp; omega]
    exact this
  | @least b n b' hb hn hb' =>
    simp only [List.cons_append, List.append_assoc, List.nil_append] at hh
    have h1 := hh.tail
    have h2 := h1.right
    have h3 := h2.right
    have h4 := h3.right
    refine .inr ⟨_, by simp [rangeAs']; exact .inr (.inr rfl), ?_⟩
    have := ((((star hh).append (gap_span hb hn.solid h1)).append (hn.span h2)).append (gap_span hb' (h46 _) h3)).append (dots_span h4)
    rw [show p + (42 :: (b ++ (n ++ (b' ++ [46, 46])))).length = p + 1 + b.length + n.length + b'.length + 1 + 1 by simp; omega]
    exact this
  | @most b b' m hb hb' hm =>
    simp only [List.cons_append, List.append_assoc] at hh
    have h1 := hh.tail
    have h2 := h1.right
    have h3 := h2.tail.tail
    have h4 := h3.right
    refine .inl ⟨_, by simp [rangeAs]; exact .inr (.inl rfl), ?_, ?_⟩
    · have := ((((star hh).append (gap_span hb (h46 _) h1)).append (dots_span h2)).append (gap_span hb' hm.solid h3)).append (hm.span h4)
      rw [show p + (42 :: (b ++ (46 :: 46 :: (b' ++ m)))).length = p + 1 + b.length + 1 + 1 + b'.length + m.length by simp; omega]
      exact this
    · have := EndsSym.append (s := 42 :: (b ++ 46 :: 46 :: b')) hm.ends
      simpa using this
  | @between b n b' b'' m hb hn hb' hb'' hm =>
    simp only [List.cons_append, List.append_assoc] at hh
    have h1 := hh.tail
    have h2 := h1.right
    have h3 := h2.right
    have h4 := h3.right
    have h5 := h4.tail.tail
    have h6 := h5.right
    refine .inl ⟨_, by simp [rangeAs]; exact .inr (.inr rfl), ?_, ?_⟩
    · have := ((((((star hh).append (gap_span hb hn.solid h1)).append (hn.span h2)).append (gap_span hb' (h46 _) h3)).append
        (dots_span h4)).append (gap_span hb'' hm.solid h5)).append (hm.span h6)
      rw [show p + (42 :: (b ++ (n ++ (b' ++ (46 :: 46 :: (b'' ++ m)))))).length =
        p + 1 + b.length + n.length + b'.length + 1 + 1 + b''.length + m.length by simp; omega]
      exact this
    · have := EndsSym.append (s := 42 :: (b ++ (n ++ (b' ++ 46 :: 46 :: b'')))) hm.ends
      simpa using this

theorem Length.texts (h : Length X) : ∀ x ∈ X, x.text ≠ [] := by
  obtain ⟨h, -⟩ := h
  cases h <;> simp
theorem Length.begins (h : Length X) : Begins ["*"] (render X ++ t) := by
  obtain ⟨h, -⟩ := h
  rw [render_cons]
  cases h <;> exact byte_begins (by decide +kernel) (by decide +kernel) (by decide)
theorem Length.takes (h : Length X) (ht : Begins ["{", "$", "]"] t) : Takes w (.nt .r_rel_varlength v) X t := by
  refine ⟨h.texts, fun p h1 h2 => ?_⟩
  obtain ⟨h, hb⟩ := h
  rename_i s b
  have hsol := ht.solid (by decide +kernel)
  obtain ⟨c, r, rfl, hc⟩ := close_head ht
  have h3 : Here w p (s ++ (b ++ c :: r)) := by simpa [render] using h1
  rcases h.span h3 with ⟨A, hA, hsp, he⟩ | ⟨A, hA, hsp⟩
  · by_cases hb0 : b = []
    · have hc' := ends_apart (x := ⟨.operand, s, b⟩) he h2 hb0
      refine ((Win.eats (range_run A hA [.ws false, .hole (set "{]")] (by simp)) hsp (gap_lay hb hsol rfl (K := set "{]") ?_ (by simp) h3.right 0)
        (by simp) (by simp) (by simp)).to ?_).var
      · exact imp_byte (P := fun c => kClose.mem c && !sym c) (by decide +kernel) (by simpa [hc] using hc')
      · simp [Mark, render]; omega
    · refine ((Win.eats (range_run A hA [.ws true, .hole kClose] (by simp)) hsp (gap_lay hb hsol rfl hc (fun _ => hb0) h3.right 0)
        (by simp) (by simp) (by simp)).to ?_).var
      simp [Mark, render]; omega
  · refine ((Win.eats (range_run' A hA) hsp (gap_lay hb hsol rfl hc (by simp) h3.right 0) (by simp) (by simp) (by simp)).to ?_).var
    simp [Mark, render]; omega
theorem optLength_begins {xs : List String} (h : Opt Length X) (ht : Begins xs t) : Begins ("*" :: xs) (render X ++ t) := by
  cases h with
  | none => exact ht.mono (by simp +contextual)
  | some h => exact h.begins.mono (by simp)

theorem Ident.refuses (h : Ident x) (hn : noAt (run 100 (.mk2 [] [.hole kStart] [] [] [] none) e 0 .same []) = true) :
    Refuses w e (render (x :: X) ++ t) := by
  intro p h1
  obtain ⟨h, -⟩ := h
  obtain ⟨c, r, rfl, g, -⟩ := h.start
  rw [render_cons] at h1
  exact Win.shuns hn .nil (qs := [p]) (.cons (.of_hole h1 (start_mem g)) .nil) (by simp) (by simp) (by simp)

theorem OrType.texts (h : OrType X) : ∀ x ∈ X, x.text ≠ [] := by
  cases h with
  | label h h' =>
    intro x hx
    rcases List.mem_cons.1 hx with rfl | hx
    · exact h.text (by decide +kernel)
    · exact h'.texts x hx
  | word h h' =>
    obtain ⟨h'⟩ := h'
    simpa using ⟨h.text (by decide +kernel), h'.text⟩
theorem OrType.begins (h : OrType X) : Begins ["|"] (render X ++ t) := by
  cases h with
  | label h h' => exact sign_begins h (by decide +kernel) (by decide +kernel)
  | word h h' => exact sign_begins h (by decide +kernel) (by decide +kernel)
theorem OrType.takes {ac : Act} {v1 v2 : Option Nat} (h : OrType X) (ht : Solid t) :
    Takes w (.seq (.nt .r_PIPE none) (.seq (.nt .r_ws none) (.seq (.alt (.nt .r_rel_type v1) (.nt .r_rel_type_name v2)) (.act ac)))) X t := by
  cases h with
  | label h h' =>
    exact .sign h (by decide +kernel) (by decide +kernel) (h'.begins.solid (by decide +kernel)) (.seqIdle (.altL (h'.takes (by simp) ht)) .act)
  | word h h' =>
    obtain ⟨h'⟩ := h'
    exact .sign h (by decide +kernel) (by decide +kernel) h'.solid (.seqIdle (.altR (fun _ p hp => (h'.refuses (e := .nt .r_rel_type none) (by decide +kernel) p hp).var)
      (typeName_takes (by simp) h' ht)) .act)

theorem Types.texts (h : Types X) : ∀ x ∈ X, x.text ≠ [] := by
  obtain ⟨h, h'⟩ := h
  exact Halts.texts_append h.texts (h'.texts fun _ => OrType.texts)
theorem Types.begins (h : Types X) : Begins [":"] (render X ++ t) := by
  obtain ⟨h, h'⟩ := h
  rw [render_append, List.append_assoc]
  exact h.begins
theorem Types.takes (h : Types X) (ht : Begins ["*", "{", "$", "]"] t) : Takes w (.nt .r_rel_types v) X t := by
  obtain ⟨h, h'⟩ := h
  refine .nt (.seq (fun _ => h.takes (by simp) ((h'.begins (fun _ _ => OrType.begins) ht).solid (by decide +kernel))) (.skip .act
    (h'.takes (fun _ _ => OrType.begins) (fun _ => OrType.texts) (fun X t hX hb => hX.takes (hb.solid (by decide +kernel)))
      (by decide +kernel) ht)) h.texts)
theorem optTypes_begins {xs : List String} (h : Opt Types X) (ht : Begins xs t) : Begins (":" :: xs) (render X ++ t) := by
  cases h with
  | none => exact ht.mono (by simp +contextual)
  | some h => exact h.begins.mono (by simp)

/-- The second dash, perhaps with an arrow head. -/
theorem dash_halts {ac ac' : Act} {B : List Piece} (hk : Key "-" k) (hB : Opt (Sign ">") B) (ht : Begins ["("] t) :
    Halts w (.seq (.nt .r_DASH none) (.alt (.seq (.nt .r_ws none) (.seq (.nt .r_RIGHT_ARROW_HEAD none) (.seq (.pred .blockEnd) (.act ac))))
      (.seq (.nt .r__empty_ none) (.seq (.pred .blockEnd) (.act ac'))))) (k :: B) t := by
  have hd : ∀ {t}, Halts w (.nt .r_DASH none) [k] t := .sign hk (by decide +kernel) (by decide +kernel)
  cases hB with
  | none =>
    refine ⟨by simp, hk.spaceless, by simpa using hk.text (by decide +kernel), fun p h1 h2 => ?_⟩
    refine (hd.eats p h1 h2).seq (.altR (.seq2 (ws_eats hk.spaceless (ht.solid (by decide +kernel)) (Halts.here h1)) (.seq1 ?_))
      (Lull.seq .empty .fin _))
    have h3 : Here w (p + (render [k]).length) t := h1.right
    rw [core_trail, List.length_append, ← Nat.add_assoc] at h3
    exact ht.refuses (e := .nt .r_RIGHT_ARROW_HEAD none) (by decide +kernel) _ h3
  | some hB =>
    obtain ⟨hg⟩ := hB
    rename_i g
    have hgs : Halts w (.seq (.nt .r_RIGHT_ARROW_HEAD none) (.seq (.pred .blockEnd) (.act ac))) [g] t :=
      .seqIdle (.sign hg (by decide +kernel) (by decide +kernel)) .fin
    refine ⟨by simp, hg.spaceless, by simpa using ⟨hk.text (by decide +kernel), hg.text (by decide +kernel)⟩, fun p h1 h2 => ?_⟩
    have h1' : Here w p (render [k] ++ (render [g] ++ t)) := by simpa [render] using h1
    have h2' : Spaced ([k] ++ [endPiece (render [g] ++ t)]) := Spaced.cut (X := [k]) (Y := [g]) h2 hgs.texts
    have h3 := hd.eats p h1' h2'
    have h4 := ws_eats (v := none) hk.spaceless (hg.solid (by decide +kernel) (Y := []) (t := t)) (Halts.here h1')
    have e : p + (core [k]).length + (trail [k]).length = p + (render [k]).length := by
      rw [core_trail [k], List.length_append]; omega
    rw [show k.blank = trail [k] from rfl, e] at h4
    have h5 := hgs.eats _ h1'.right h2.2
    rw [show core [k, g] = render [k] ++ core [g] from core_append (by simp) [k], List.length_append, ← Nat.add_assoc]
    exact h3.seq (.altL (h4.seq h5))

/-- What stands between the dashes, and the second of them. -/
theorem detail_halts {v0 v1 v2 v0' v1' v2' vt : Option Nat} {D Z : List Piece} {f g : E} (hD : Detail D)
    (h1 : Halts w (.seq (.nt .r_DASH none) f) Z t) (h2 : Halts w (.seq (.nt .r_DASH none) g) Z t) (hz : Begins ["-"] (render Z ++ t)) :
    Halts w (.alt (.seq (.nt .r_DASH none) f) (.seq (.nt .r_LEFT_SQ_PAREN none) (.seq (.nt .r_ws none) (.seq (.alt (.nt .r_identifier v0)
      (.nt .r__null_ v0')) (.seq (.opt (.nt .r_rel_types vt)) (.seq (.alt (.nt .r_rel_varlength v1) (.nt .r__null_ v1'))
      (.seq (.alt (.nt .r_pattern_properties v2) (.nt .r__null_ v2')) (.seq (.nt .r_RIGHT_SQ_PAREN none) (.seq (.nt .r_ws none)
      (.seq (.nt .r_DASH none) g)))))))))) (D ++ Z) t := by
  cases hD with
  | none => exact .altL h1
  | @some k I T L P k' hk hI hT hL hP hk' =>
    have e : k :: (I ++ (T ++ (L ++ (P ++ [k'])))) ++ Z = [k] ++ (I ++ (T ++ (L ++ (P ++ ([k'] ++ Z))))) := by simp
    rw [e]
    have b0 : Begins ["["] (render ([k] ++ (I ++ (T ++ (L ++ (P ++ ([k'] ++ Z)))))) ++ t) :=
      sign_begins hk (by decide +kernel) (by decide +kernel)
    have b1 : Begins ["]"] (render ([k'] ++ Z) ++ t) := sign_begins hk' (by decide +kernel) (by decide +kernel)
    have b2 : Begins ["{", "$", "]"] (render (P ++ ([k'] ++ Z)) ++ t) := by
      rw [render_append, List.append_assoc]; exact optProps_begins hP b1
    have b3 : Begins ["*", "{", "$", "]"] (render (L ++ (P ++ ([k'] ++ Z))) ++ t) := by
      rw [render_append, List.append_assoc]; exact optLength_begins hL b2
    have b4 : Begins [":", "*", "{", "$", "]"] (render (T ++ (L ++ (P ++ ([k'] ++ Z)))) ++ t) := by
      rw [render_append, List.append_assoc]; exact optTypes_begins hT b3
    have s1 : Solid (render (I ++ (T ++ (L ++ (P ++ ([k'] ++ Z))))) ++ t) := by
      rw [render_append, List.append_assoc]
      cases hI with
      | none => exact b4.solid (by decide +kernel)
      | some h => obtain ⟨h⟩ := h; exact h.solid
    refine .altR (fun _ => .seq1 (b0.refuses (by decide +kernel))) (.ws' (fun _ => .sign hk (by decide +kernel) (by decide +kernel)) (fun _ => s1)
      (by simpa using hk.text (by decide +kernel)) (.seq (fun _ => optWord_takes hI (b4.solid (by decide +kernel)) (b4.refuses (by decide +kernel)))
      (.seq (fun _ => ?_) (.seq (fun _ => opt_takes hL (fun h => h.takes b2) (b2.refuses (by decide +kernel)))
        (.seq (fun _ => opt_takes hP (fun h => h.takes (b1.solid (by decide +kernel))) (b1.refuses (by decide +kernel)))
          (.ws' (fun _ => .sign hk' (by decide +kernel) (by decide +kernel)) (fun _ => hz.solid (by decide +kernel))
            (by simpa using hk'.text (by decide +kernel)) h2) (hP.texts Props.texts)) (hL.texts Length.texts)) (hT.texts Types.texts))
      (optWord_texts hI)))
    cases hT with
    | none => exact .altR (fun _ p hp => (b3.refuses (e := .nt .r_rel_types none) (by decide +kernel) p hp).var) (.idle .eps)
    | some h => exact .altL (h.takes b3)

theorem Detail.begins {xs : List String} (h : Detail X) (ht : Begins xs t) : Begins ("[" :: xs) (render X ++ t) := by
  cases h with
  | none => exact ht.mono (by simp +contextual)
  | some h => exact (sign_begins h (by decide +kernel) (by decide +kernel)).mono (by simp)
theorem Rel.begins (h : Rel X) : Begins ["<", "-"] (render X ++ t) := by
  obtain ⟨hA, hk, -⟩ := h
  cases hA with
  | none => exact (sign_begins hk (by decide +kernel) (by decide +kernel)).mono (by simp)
  | some h => obtain ⟨h⟩ := h; exact (sign_begins h (by decide +kernel) (by decide +kernel)).mono (by simp)

theorem Rel.halts (h : Rel X) (ht : Begins ["("] t) : Halts w (.nt .r_relationship_pattern v) X t := by
  obtain ⟨hA, hk, hD, hk', hB⟩ := h
  rename_i A k D k' B
  have hz : Begins ["-"] (render (k' :: B) ++ t) := sign_begins hk' (by decide +kernel) (by decide +kernel)
  have hs : Begins ["[", "-"] (render (D ++ k' :: B) ++ t) := by rw [render_append, List.append_assoc]; exact hD.begins hz
  have hk1 := hk.text (by decide +kernel)
  have bk : Begins ["-"] (render (k :: (D ++ k' :: B)) ++ t) := sign_begins hk (by decide +kernel) (by decide +kernel)
  refine .nt (.skip .blockStart ?_)
  cases hA with
  | none =>
    refine .altR (fun _ => .seq1 (bk.refuses (by decide +kernel))) (.ws' (X := [k]) (fun _ => .sign hk (by decide +kernel) (by decide +kernel))
      (fun _ => hs.solid (by decide +kernel)) (by simpa using hk1)
      (detail_halts hD (dash_halts hk' hB ht) (dash_halts hk' hB ht) hz))
  | some h =>
    obtain ⟨h⟩ := h
    rename_i g
    refine .altL (.ws' (X := [g]) (fun _ => .sign h (by decide +kernel) (by decide +kernel)) (fun _ => bk.solid (by decide +kernel))
      (by simpa using h.text (by decide +kernel)) (.ws' (X := [k]) (fun _ => .sign hk (by decide +kernel) (by decide +kernel))
      (fun _ => hs.solid (by decide +kernel)) (by simpa using hk1)
      (detail_halts hD (dash_halts hk' hB ht) (dash_halts hk' hB ht) hz)))

/-! ## Paths -/

/-- What may follow a path. -/
def pathEnds : List String := ")" :: "," :: "WHERE" :: "USING" :: "ON" :: nexts

def stepE : E := .seq (.nt .r_ws none) (.seq (.nt .r_relationship_pattern (some 1)) (.seq (.nt .r_ws none)
  (.seq (.nt .r_node_pattern (some 0)) (.act (.seqAdd [1, 0])))))

theorem Node.texts (h : Node X) : ∀ x ∈ X, x.text ≠ [] := (h.halts (w := []) (t := []) (v := none)).texts
theorem Node.ne (h : Node X) : X ≠ [] := (h.halts (w := []) (t := []) (v := none)).ne
theorem Rel.texts (h : Rel X) : ∀ x ∈ X, x.text ≠ [] :=
  (h.halts (w := []) (t := [40]) (v := none) (byte_begins (by decide +kernel) (by decide +kernel) (by decide))).texts
theorem Steps.texts (h : Steps X) : ∀ x ∈ X, x.text ≠ [] := by
  induction h with
  | nil => simp
  | cons h h' _ ih => exact Halts.texts_append h.texts (Halts.texts_append h'.texts ih)
theorem Steps.begins {xs : List String} (h : Steps X) (ht : Begins xs t) : Begins ("<" :: "-" :: xs) (render X ++ t) := by
  cases h with
  | nil => exact ht.mono (by simp +contextual)
  | cons h => rw [render_append, List.append_assoc]; exact h.begins.mono (by simp)

theorem Steps.eats (h : Steps Y) (ht : Begins pathEnds t) : ∀ {b : List UInt8} {q : Nat}, Gap b → Here w q (b ++ (render Y ++ t)) →
    Spaced (Y ++ [endPiece t]) → ∀ X, trail X = b → X ≠ [] → Gap (trail (X ++ Y)) ∧
      Eats w (.star stepE) q (q + (core (X ++ Y)).length - (core X).length) := by
  induction h with
  | nil =>
    intro b q hb hh hs X hX hX'
    rw [List.append_nil]
    refine ⟨hX ▸ hb, ?_⟩
    rw [Nat.add_sub_cancel]
    have h3 : Here w (q + b.length) t := by have := hh.right; simpa [render] using this
    exact .star_end (.seq2 (ws_eats hb (ht.solid (by decide +kernel)) (by simpa [render] using hh))
      (.seq1 (Shuns.var (ht.refuses (e := .nt .r_relationship_pattern none) (by decide +kernel) _ h3))))
  | @cons R N Y hR hN hY ih =>
    intro b q hb hh hs X hX hX'
    have bN : Begins ["("] (render N ++ (render Y ++ t)) := hN.begins
    have hh' : Here w q (b ++ (render R ++ (render N ++ (render Y ++ t)))) := by simpa [render_append] using hh
    have hs1 : Spaced (R ++ ((N ++ Y) ++ [endPiece t])) := by simpa using hs
    have hs2 : Spaced (N ++ (Y ++ [endPiece t])) := by simpa using hs1.right
    have rh := hR.halts (w := w) (v := some 1) bN
    have nh := hN.halts (w := w) (v := some 0) (t := render Y ++ t)
    have k1 := ws_eats (v := none) hb (hR.begins.solid (by decide +kernel)) hh'
    have hr := hh'.right
    have k2 := rh.eats _ hr (by
      have := Spaced.cut hs1 (Halts.texts_append hN.texts hY.texts)
      rwa [render_append, List.append_assoc] at this)
    have k3 := ws_eats (v := none) rh.gap (bN.solid (by decide +kernel)) (Halts.here hr)
    have hn := hr.right
    have e1 : q + b.length + (core R).length + (trail R).length = q + b.length + (render R).length := by
      rw [core_trail R, List.length_append]; omega
    rw [e1] at k3
    have k4 := nh.eats _ hn (Spaced.cut hs2 hY.texts)
    obtain ⟨k5, k6⟩ := ih nh.gap (Halts.here hn) hs2.right N rfl nh.ne
    have e2 : X ++ (R ++ (N ++ Y)) = (X ++ R) ++ (N ++ Y) := by simp
    have hne : N ++ Y ≠ [] := by simp [nh.ne]
    rw [e2, trail_append hne, core_append hne]
    refine ⟨k5, ?_⟩
    refine (Eats.star_more (k1.seq (k2.seq (k3.seq (k4.seq (Lull.act _))))) k6).to ?_
    have e3 : (core N).length ≤ (core (N ++ Y)).length := by
      by_cases hY0 : Y = []
      · simp [hY0]
      · rw [core_append hY0, core_trail N]; simp only [List.length_append]; omega
    have e4 : (render X).length = (core X).length + b.length := by rw [core_trail X, hX, List.length_append]
    simp only [render_append, List.length_append]
    omega

theorem Path.texts (h : Path X) : ∀ x ∈ X, x.text ≠ [] := by
  obtain ⟨h1, h2⟩ := h
  exact Halts.texts_append h1.texts h2.texts
theorem Path.begins (h : Path X) : Begins ["("] (render X ++ t) := by
  obtain ⟨h1, h2⟩ := h
  rw [render_append, List.append_assoc]
  exact h1.begins

theorem Path.halts (h : Path X) (ht : Begins pathEnds t) : Halts w (.nt .r_pattern_path v) X t := by
  obtain ⟨hN, hY⟩ := h
  rename_i N Y
  have nh := hN.halts (w := w) (v := some 0) (t := render Y ++ t)
  have key : Halts w (.seq (.nt .r_node_pattern (some 0)) (.seq (.act (.seqAdd [0])) (.seq (.star stepE)
      (.seq (.pred .blockEnd) (.act (.build .self .patternPath [])))))) (N ++ Y) t := by
    have hgap : Gap (trail (N ++ Y)) := by
      by_cases hY0 : Y = []
      · rw [hY0, List.append_nil]; exact nh.gap
      · rw [trail_append hY0]
        clear ht nh
        induction hY with
        | nil => exact absurd rfl hY0
        | @cons R N Y hR hN hY ih =>
          rw [← List.append_assoc]
          by_cases hY0 : Y = []
          · rw [hY0, List.append_nil, trail_append hN.ne]; exact (hN.halts (w := []) (t := []) (v := none)).gap
          · rw [trail_append hY0]; exact ih hY0
    refine ⟨by simp [nh.ne], hgap, Halts.texts_append hN.texts hY.texts, fun p h1 h2 => ?_⟩
    rw [render_append, List.append_assoc] at h1
    rw [List.append_assoc] at h2
    have k1 := nh.eats p h1 (Spaced.cut h2 hY.texts)
    obtain ⟨-, k2⟩ := hY.eats ht nh.gap (Halts.here h1) h2.right N rfl nh.ne
    refine k1.seq ((Lull.act _).seq (k2.seq ((Lull.fin _).to ?_)))
    have e3 : (core N).length ≤ (core (N ++ Y)).length := by
      by_cases hY0 : Y = []
      · simp [hY0]
      · rw [core_append hY0, core_trail N]; simp only [List.length_append]; omega
    omega
  exact .nt (.skip .blockStart key)

theorem shortest_halts {r : Rule} {y : String} {ac : Act} {k' k'' : Piece} (hk : Key y k) (hr : reads [y] (.nt r none) = true)
    (hw : (wordy y && !(bytes y).isEmpty) = true)
    (h1 : Key "(" k') (h2 : Path X) (h3 : Key ")" k'') :
    Halts w (.seq (.pred .blockStart) (.seq (.nt r none) (.seq (.nt .r_LEFT_PAREN none) (.seq (.nt .r_ws none) (.seq (.nt .r_pattern_path v)
      (.seq (.nt .r_ws none) (.seq (.nt .r_RIGHT_PAREN none) (.seq (.pred .blockEnd) (.act ac)))))))))
      (k :: k' :: (X ++ [k''])) t := by
  have hw' := hw
  simp only [Bool.and_eq_true, Bool.not_eq_true', List.isEmpty_eq_false_iff] at hw'
  have b1 : Begins [")"] (render [k''] ++ t) := sign_begins h3 (by decide +kernel) (by decide +kernel)
  have b2 : Begins ["("] (render (X ++ [k'']) ++ t) := by rw [render_append, List.append_assoc]; exact h2.begins
  refine .skip .blockStart (.seq (X := [k]) (fun _ => hk.takes hr hw (h1.solid (by decide +kernel))) (.ws' (X := [k'])
    (fun _ => .sign h1 (by decide +kernel) (by decide +kernel)) (fun _ => b2.solid (by decide +kernel)) (by simpa using h1.text (by decide +kernel))
    (.ws' (fun _ => h2.halts (b1.mono (by decide +kernel))) (fun _ => b1.solid (by decide +kernel)) h2.texts
      (.seqIdle (.sign h3 (by decide +kernel) (by decide +kernel)) .fin))) (by simpa using hk.text hw'.2))

theorem AnonPart.texts (h : AnonPart X) : ∀ x ∈ X, x.text ≠ [] := by
  cases h with
  | path h => exact h.texts
  | shortest h1 h2 h3 h4 | allShortest h1 h2 h3 h4 =>
    intro x hx
    simp only [List.mem_cons, List.mem_append, List.not_mem_nil, or_false] at hx
    rcases hx with rfl | rfl | hx | rfl
    · exact h1.text (by decide +kernel)
    · exact h2.text (by decide +kernel)
    · exact h3.texts x hx
    · exact h4.text (by decide +kernel)
theorem AnonPart.begins (h : AnonPart X) (hs : Spaced (X ++ [endPiece t])) :
    Begins ["(", "SHORTESTPATH", "ALLSHORTESTPATHS"] (render X ++ t) := by
  have tx := h.texts
  cases h with
  | path h => exact h.begins.mono (by simp)
  | shortest h1 | allShortest h1 =>
    exact (h1.begins (by decide +kernel) (fun y hy => tx y (List.mem_cons_of_mem _ hy)) hs).mono (by simp)

theorem AnonPart.halts (h : AnonPart X) (ht : Begins pathEnds t) : Halts w (.nt .r_anon_pattern_part v) X t := by
  cases h with
  | path h =>
    exact .nt (.altR (fun _ => .seq1 fun p hp => (h.begins.refuses (e := .nt .r_shortest_path_pattern none) (by decide +kernel) p hp).var)
      (.seqIdle (h.halts ht) .act))
  | shortest h1 h2 h3 h4 =>
    exact .nt (.altL (.seqIdle (.nt (.altL (shortest_halts h1 (by decide +kernel) (by decide +kernel) h2 h3 h4))) .act))
  | allShortest h1 h2 h3 h4 =>
    have tx := (AnonPart.allShortest h1 h2 h3 h4).texts
    exact .nt (.altL (.seqIdle (.nt (.altR (fun hs => .skip .blockStart (.seq1
      ((h1.begins (by decide +kernel) (fun y hy => tx y (List.mem_cons_of_mem _ hy)) hs).refuses (by decide +kernel))))
      (shortest_halts h1 (by decide +kernel) (by decide +kernel) h2 h3 h4))) .act))

theorem Part.texts (h : Part X) : ∀ x ∈ X, x.text ≠ [] := by
  cases h with
  | anon h => exact h.texts
  | named h1 h2 h3 =>
    intro x hx
    simp only [List.mem_cons] at hx
    rcases hx with rfl | rfl | hx
    · exact h1.text
    · exact h2.text (by decide +kernel)
    · exact h3.texts x hx
theorem Part.solid (h : Part X) (hs : Spaced (X ++ [endPiece t])) : Solid (render X ++ t) := by
  cases h with
  | anon h => exact (h.begins hs).solid (by decide +kernel)
  | named h => exact h.solid

/-- A word before a parenthesis. -/
theorem unnamed {y : String} {k' : Piece} (h1 : Key y k) (h2 : Key "(" k')
    (hr : noAt (run 100 (.mk2 (wordCells (bytes y)) [.ws false, .hole (.single 40)] [] [] [] none) e 0 .same []) = true) :
    Refuses w e (render (k :: k' :: X) ++ t) := by
  intro p h3
  have hsol := h2.solid (by decide +kernel) (Y := X) (t := t)
  obtain ⟨g1, g2⟩ := h1
  obtain ⟨g3, g4⟩ := h2
  rename_i s b s' b'
  rw [render_cons] at h3
  have h4 : ∃ r, render (⟨.operand, s', b'⟩ :: X) ++ t = 40 :: r := by
    cases s' with
    | nil => exact absurd g3 (by decide +kernel)
    | cons d s' =>
      have : upper d = 40 := by
        have := congrArg List.head? g3
        simpa [show bytes "(" = [40] by decide +kernel] using this
      have : d = 40 := by
        have := imp_byte (P := fun d => upper d == 40) (Q := fun d => d == 40) (by decide +kernel) (c := d) (by simpa using this)
        simpa using this
      subst this
      exact ⟨_, by rw [render_cons]; rfl⟩
  obtain ⟨r, h4⟩ := h4
  exact Win.shuns hr (Span.word g1 h3) (gap_lay g2 hsol h4 (by decide) (by simp) h3.right 0) (by simp) (by simp) (by simp)

theorem Part.halts (h : Part X) (ht : Begins pathEnds t) : Halts w (.nt .r_pattern_part v) X t := by
  cases h with
  | anon h =>
    refine .nt (.altR (fun hs => ?_) (.seqIdle (h.halts ht) .act))
    cases h with
    | path h => exact h.begins.refuses (by decide +kernel)
    | shortest h1 h2 => exact unnamed h1 h2 (by decide +kernel)
    | allShortest h1 h2 => exact unnamed h1 h2 (by decide +kernel)
  | named h1 h2 h3 =>
    exact .nt (.altL (.skip .blockStart (.seq (X := [_]) (fun _ => h1.takes (h2.solid (by decide +kernel))) (.ws' (X := [_])
      (fun _ => .sign h2 (by decide +kernel) (by decide +kernel)) (fun hs => (h3.begins hs).solid (by decide +kernel))
      (by simpa using h2.text (by decide +kernel)) (.seqIdle (h3.halts ht) .fin)) (by simpa using h1.text))))

theorem Pattern.texts (h : Pattern X) : ∀ x ∈ X, x.text ≠ [] := by
  induction h with
  | one h => exact h.texts
  | more h _ h2 _ ih =>
    intro x hx
    simp only [List.mem_cons, List.mem_append] at hx
    rcases hx with hx | rfl | hx
    · exact h.texts x hx
    · exact h2.text (by decide +kernel)
    · exact ih x hx
theorem Pattern.solid (h : Pattern X) (hs : Spaced (X ++ [endPiece t])) : Solid (render X ++ t) := by
  have tx := h.texts
  cases h with
  | one h => exact h.solid hs
  | @more X k Y h _ _ _ =>
    rw [render_append, List.append_assoc]
    refine h.solid (Spaced.cut ?_ fun y hy => tx y (List.mem_append_right _ hy))
    simpa using hs

def partsE : E := .star (.seq (.nt .r_COMMA none) (.seq (.nt .r_ws none) (.seq (.nt .r_pattern_part (some 0)) (.act (.seqAdd [0])))))

theorem gap_refuses {b : List UInt8} (hb : Gap b) (ht : Refuses w (.nt .r_COMMA none) t) : Refuses w (.nt .r_COMMA none) (b ++ t) := by
  intro p hp
  by_cases hb0 : b = []
  · subst hb0; exact ht p hp
  · have hx : ∃ c r, b = c :: r ∧ (set " \t\n\r").mem c = true := by
      cases hb with
      | nil => exact absurd rfl hb0
      | char hc _ => exact ⟨_, _, rfl, by rcases hc with rfl | rfl | rfl <;> decide +kernel⟩
      | crlf _ => exact ⟨_, _, rfl, by decide +kernel⟩
    obtain ⟨c, r, rfl, hc⟩ := hx
    exact Win.shuns (n := 100) (A := []) (B := [.hole (set " \t\n\r")]) (shun := []) (facts := []) (stars := []) (by decide +kernel) .nil (qs := [p])
      (.cons (.of_hole hp hc) .nil) (by simp) (by simp) (by simp)

theorem Pattern.halts (h : Pattern X) (ht : Begins ("WHERE" :: "USING" :: nexts) t) :
    Halts w (.seq (.nt .r_pattern_part v) (.seq (.act (.seqAdd [0])) partsE)) X t := by
  induction h generalizing v with
  | one h =>
    have hp := h.halts (w := w) (v := v) (ht.mono (by decide +kernel))
    refine ⟨hp.ne, hp.gap, hp.texts, fun p h1 h2 => (hp.eats p h1 h2).seq ((Lull.act _).seq (.star_end (.seq1 ?_)))⟩
    exact gap_refuses hp.gap (ht.refuses (by decide +kernel)) _ (Halts.here h1)
  | @more X k Y h hb hk hY ih =>
    have hp := h.halts (w := w) (v := v) (t := render (k :: Y) ++ t)
      ((sign_begins (x := ",") hk (by decide +kernel) (by decide +kernel)).mono (by decide +kernel))
    have ih := ih (v := some 0)
    have e : X ++ k :: Y = (X ++ [k]) ++ Y := by simp
    have tY : ∀ y ∈ k :: Y, y.text ≠ [] := by
      intro y hy
      rcases List.mem_cons.1 hy with rfl | hy
      · exact hk.text (by decide +kernel)
      · exact ih.texts y hy
    refine ⟨by simp, by rw [e, trail_append ih.ne]; exact ih.gap, Halts.texts_append hp.texts tY, fun p h1 h2 => ?_⟩
    rw [render_append, List.append_assoc] at h1
    rw [List.append_assoc] at h2
    have k1 := (hp.tight (trail_tight hb)).eats p h1 (Spaced.cut h2 tY)
    have h3 := h2.right
    have h4 : Here w (p + (render X).length) (render [k] ++ (render Y ++ t)) := by have := h1.right; simpa [render] using this
    have hs : Halts w (.nt .r_COMMA none) [k] (render Y ++ t) := .sign (v := none) hk (by decide +kernel) (by decide +kernel)
    have k2 := hs.eats _ h4 (Spaced.cut (X := [k]) h3 ih.texts)
    have k3 := ws_eats (v := none) hs.gap (hY.solid h3.tail) (Halts.here h4)
    have e1 : p + (render X).length + (core [k]).length + (trail [k]).length = p + (render X).length + (render [k]).length := by
      rw [core_trail [k], List.length_append]; omega
    rw [e1] at k3
    have k4 := ih.eats _ h4.right h3.tail
    have e2 : p + (render X).length + (render [k]).length + (core Y).length = p + (core (X ++ k :: Y)).length := by
      rw [e, core_append ih.ne, render_append, List.length_append, List.length_append]; omega
    rw [e2] at k4
    intro op ps
    obtain ⟨op1, ts1, d1⟩ := k1 op ps
    obtain ⟨op2, ts2, d2⟩ := k2 op1 ps
    obtain ⟨op3, ts3, d3⟩ := k3 op2 ps
    obtain ⟨op4, ts4, d4⟩ := k4 op3 ps
    cases d4 with
    | seq_ok d5 d6 =>
      cases d6 with
      | seq_ok d7 d8 =>
        exact ⟨_, _, .seq_ok d1 (.seq_ok .act (.star_more (.seq_ok d2 (.seq_ok d3 (.seq_ok d5 d7))) d8))⟩

theorem Pattern.takes (h : Pattern X) (ht : Begins ("WHERE" :: "USING" :: nexts) t) : Takes w (.nt .r_pattern v) X t := by
  have hp := h.halts (w := w) (v := some 0) ht
  have h0 : Takes w (.seq _ (.nt .r_ws none)) X t := hp.wsEnd (ht.solid (by decide +kernel))
  refine .nt (.skip .blockStart ⟨hp.texts, fun p h1 h2 op ps => ?_⟩)
  obtain ⟨op1, ts, d⟩ := h0.eats p h1 h2 op ps
  cases d with
  | seq_ok d1 d2 =>
    cases d1 with
    | seq_ok d3 d4 =>
      cases d4 with
      | seq_ok d5 d6 =>
        exact ⟨_, _, .seq_ok d3 (.seq_ok d5 (.seq_ok d6 (.seq_ok (.pred_ok rfl) (.seq_ok .act d2))))⟩

end Verif.Stmts
