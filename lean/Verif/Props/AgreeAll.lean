import Verif.Props.Agree
import Verif.Cypher.ClearLoop
/-!
# C51 for texts outside of the grammar of C45

Whatever the text is: if the trees made of it have neither error nodes nor parameters of the option CYPHER, the quick parser and
the parser find segments that end at the same positions and are of the same kind; back quotes are left out. The same
holds with errors, if the text has no quotes, no backslashes and no comments. Of texts with back quotes, with parameters of the
option CYPHER, and of texts with errors and quotes or comments, the claim is false.
-/
namespace Verif.Stmts
open Verif Verif.Peg Verif.Cypher
open Verif.Cypher.Scan (Mentions Unquoted Whole)
open Verif.Quick (live stretch stStretch segs QSeg)

variable {σ : Type}

/-! ## All texts -/

theorem not_command {l : List UInt8} (h : l[Quick.ws l]? ≠ some 58) (only : Bool) : stretch only l = stStretch l := by
  have key : Quick.env .r_client_command l = none := by
    cases hcc : Quick.env .r_client_command l with
    | none => rfl
    | some n =>
      refine absurd ?_ h
      rw [Quick.env_eq] at hcc
      obtain ⟨i, j, h1, h2, -⟩ := Quick.den_seq_some.1 hcc
      rw [Quick.den_nt, Quick.ws_eq, Option.some.injEq] at h1
      obtain ⟨i', j', h3, h4, -⟩ := Quick.den_seq_some.1 h2
      obtain ⟨i'', j'', h5, h6, -⟩ := Quick.den_seq_some.1 h4
      obtain ⟨u, h7, -⟩ := Quick.den_chr_some.1 h5
      have : i' = 0 := by
        simp [Peg.den] at h3
        exact h3.symm
      subst h1 this
      rw [List.drop_zero] at h7
      have := congrArg List.head? h7
      rwa [List.head?_drop] at this
  cases only <;> simp [stretch, key]

/-- The type of the directive that a segment of the quick parser stands for: none, if it has no text. -/
def sort (q : QSeg) : Option AstType :=
  if q.text = [] then none else if q.isStatement then some .statement else some .command

theorem sort_segOf (p : Pos) {l : List UInt8} {x : Quick.Stretch} (hx : x.Fits l) :
    sort (Quick.segOf p l x) = if x.b < x.e then some (if x.isStatement then .statement else .command) else none := by
  obtain ⟨h1, h2, h3, -⟩ := hx
  have ht : (Quick.segOf p l x).text = l.extract x.b x.e := rfl
  by_cases hxy : x.b < x.e
  · have : l.extract x.b x.e ≠ [] := by
      intro h0
      have := congrArg List.length h0
      simp only [List.extract_eq_take_drop, List.length_take, List.length_drop, List.length_nil] at this
      omega
    rw [sort, ht, if_neg this, if_pos hxy]
    cases hs : x.isStatement <;> simp [Quick.segOf, hs]
  · have : l.extract x.b x.e = [] := by simp [List.extract_eq_take_drop]; omega
    rw [sort, ht, if_pos this, if_neg hxy]

theorem halts_n {s w : List UInt8} (hq : Scan.Halts s w) : (stStretch (s ++ w)).n = s.length := by
  have l1 := (Quick.stTerm_live (s ++ w)).1
  simp only [stStretch, l1]
  rcases hq with ⟨s', rfl, e⟩ | ⟨rfl, e⟩
  · rw [e, if_pos (by simp)]; simp
  · rw [List.append_nil] at e ⊢
    rw [e, if_neg (by simp)]

/-- What is found of a piece is what one call of the quick parser makes of it. -/
theorem stretch_found {b : Scan.Way} {only0 only : Bool} (ho : b = .plain ∨ only = true ∧ only0 = true ∨ b = .mixed ∧ only = only0)
    {k : Option AstType} {s w : List UInt8} (h : Scan.Found only0 b k s w) :
    (stretch only (s ++ w)).n = s.length ∧ (b ≠ .mixed → (stretch only (s ++ w)).isStatement = true) ∧
      (b ≠ .bare → ∀ p, sort (Quick.segOf p (s ++ w) (stretch only (s ++ w))) = k) := by
  have stated : Scan.Stated k s w → stretch only (s ++ w) = stStretch (s ++ w) ∧ (stStretch (s ++ w)).n = s.length ∧
      ∀ p, sort (Quick.segOf p (s ++ w) (stStretch (s ++ w))) = k := by
    rintro ⟨h1, h2, h3⟩
    exact ⟨not_command h3 only, halts_n h1, fun p => (sort_segOf p (Quick.st_fits _)).trans h2⟩
  cases b with
  | bare =>
    obtain ⟨rfl, -⟩ : only = true ∧ only0 = true := by simpa using ho
    exact ⟨halts_n h, fun _ => rfl, fun h => absurd rfl h⟩
  | plain =>
    obtain ⟨e, h1, h2⟩ := stated h
    rw [e]
    exact ⟨h1, fun _ => rfl, fun _ => h2⟩
  | mixed =>
    refine ⟨?_, fun h => absurd rfl h, fun _ p => ?_⟩ <;> rcases h with h | ⟨rfl, h1, rfl⟩
    · obtain ⟨e, h1, h2⟩ := stated h
      rw [e]; exact h1
    · obtain rfl : only = false := by simpa using ho
      simp only [stretch, h1, Bool.false_eq_true, if_false]; rfl
    · obtain ⟨e, h1, h2⟩ := stated h
      rw [e]; exact h2 p
    · obtain rfl : only = false := by simpa using ho
      rw [sort_segOf p (Quick.stretch_fits _ _)]
      simp only [stretch, h1, Bool.false_eq_true, if_false, Quick.cmdStretch]
      rw [if_pos (by unfold Quick.cmdEnd; omega)]

theorem segs_found {b : Scan.Way} {only0 only : Bool} (ho : b = .plain ∨ only = true ∧ only0 = true ∨ b = .mixed ∧ only = only0)
    {p : Pos} {w : List UInt8} {L : List PSeg} (h : Scan.Chop (Scan.Found only0 b) p w L) :
    (segs only p w).map (·.next) = L.map (·.range.stop) ∧ (b ≠ .mixed → ∀ q ∈ segs only p w, q.isStatement = true) ∧
      (b ≠ .bare → (segs only p w).map sort = L.map (fun s => s.directive.map (·.ty))) := by
  induction h with
  | nil => rw [segs, dif_pos rfl]; exact ⟨rfl, by simp, fun _ => rfl⟩
  | @cons p s w seg L hs hq hst _ ih =>
    obtain ⟨hn, h1, h2⟩ := stretch_found ho hq
    rw [segs, dif_neg (by simp [hs]), hn]
    simp only [List.take_left', List.drop_left', List.map_cons]
    refine ⟨?_, fun hb => ?_, fun hb => ?_⟩
    · rw [ih.1]
      simp only [Quick.segOf, hn, hst]
      simp
    · intro q hm
      rcases List.mem_cons.1 hm with rfl | hm
      · exact h1 hb
      · exact ih.2.1 hb q hm
    · rw [ih.2.2 hb, h2 hb]

/-- C51 for texts without quotes and backslashes, with errors or without: the segments end at the same positions. -/
theorem quick_agrees_unquoted {S : Source σ} {src : σ} {w : List UInt8} (hd : Delivers S src w) (h0 : Unquoted w) (h1 : 96 ∉ w)
    (h2 : ¬ Commented w) (h3 : ¬ Mentions "CYPHER" w) (cfg : Config) (hp : cfg.position = ⟨1, 1, 0⟩) :
    ∃ L M, YieldsP S src cfg true L ∧ Verif.Yields S src true M ∧ M.map (·.next) = L.map (·.range.stop) ∧
      ∀ q ∈ M, q.isStatement = true := by
  rcases Scan.clear_yields hd h1 cfg true with ⟨e, -, hc⟩ | ⟨L, g1, g2⟩
  · exact absurd hc h2
  have g3 := g2 .bare ⟨rfl, h0, h2, h3⟩
  rw [hp] at g3
  obtain ⟨g4, g5, -⟩ := segs_found (only := true) (.inr (.inl ⟨rfl, rfl⟩)) g3
  exact ⟨L, _, g1, hd.yields true, g4, g5 nofun⟩

/-- C51 for texts that are parsed without error nodes, and without parameters of the option CYPHER: the segments end at the same
positions, those without text are those without a directive, and the others are statements and client commands alike. -/
theorem quick_agrees_mixed {S : Source σ} {src : σ} {w : List UInt8} (hd : Delivers S src w) (h1 : 96 ∉ w)
    (cfg : Config) (hp : cfg.position = ⟨1, 1, 0⟩) (only : Bool) {L : List PSeg} (hL : YieldsP S src cfg only L)
    (hx : ∀ seg ∈ L, ∀ x ∈ seg.roots, Whole true x) :
    ∃ M, Verif.Yields S src only M ∧ M.map (·.next) = L.map (·.range.stop) ∧ M.map sort = L.map (fun s => s.directive.map (·.ty)) := by
  obtain ⟨last, hL⟩ := hL
  rcases Scan.clear_yields hd h1 cfg only with ⟨e, he, -⟩ | ⟨L', ⟨last', g1⟩, g2⟩
  · cases hL.unique he
  · cases hL.unique g1
    have g3 := g2 .mixed fun x ⟨seg, m1, m2⟩ => hx seg m1 x m2
    rw [hp] at g3
    obtain ⟨g4, -, g6⟩ := segs_found (only := only) (.inr (.inr ⟨rfl, rfl⟩)) g3
    exact ⟨_, hd.yields only, g4, g6 nofun⟩

/-- C51 for texts that are parsed without error nodes, and without parameters of the option CYPHER and client commands: the same,
whichever of the parsers looks for client commands. -/
theorem quick_agrees_whole {S : Source σ} {src : σ} {w : List UInt8} (hd : Delivers S src w) (h1 : 96 ∉ w)
    (cfg : Config) (hp : cfg.position = ⟨1, 1, 0⟩) (only only' : Bool) {L : List PSeg} (hL : YieldsP S src cfg only L)
    (hx : ∀ seg ∈ L, ∀ x ∈ seg.roots, Whole only x) :
    ∃ M, Verif.Yields S src only' M ∧ M.map (·.next) = L.map (·.range.stop) ∧ (∀ q ∈ M, q.isStatement = true) ∧
      M.map sort = L.map (fun s => s.directive.map (·.ty)) := by
  obtain ⟨last, hL⟩ := hL
  rcases Scan.clear_yields hd h1 cfg only with ⟨e, he, -⟩ | ⟨L', ⟨last', g1⟩, g2⟩
  · cases hL.unique he
  · cases hL.unique g1
    have g3 := g2 .plain fun x ⟨seg, m1, m2⟩ => hx seg m1 x m2
    rw [hp] at g3
    obtain ⟨g4, g5, g6⟩ := segs_found (only := only') (.inl rfl) g3
    exact ⟨_, hd.yields only', g4, g5 nofun, g6 nofun⟩

/-! ## Where it is false -/

/-- The parts that the scan of the quick parser divides a text into. -/
inductive Halves : Pos → List UInt8 → List Pos → Prop
  | nil {p} : Halves p [] []
  | cons {p s w l} : s ≠ [] → Scan.Halts s w → Halves (p.after s) w l → Halves p (s ++ w) (p.after s :: l)

theorem Halves.yields {S : Source σ} {src : σ} {w : List UInt8} (hd : Delivers S src w) {l : List Pos} (h : Halves ⟨1, 1, 0⟩ w l) :
    ∃ M, Verif.Yields S src true M ∧ M.map (·.next) = l := by
  have key : ∀ {p w l}, Halves p w l → ∃ L : List PSeg, L.map (·.range.stop) = l ∧ Scan.Chop (Scan.Found true .bare) p w L := by
    intro p w l h
    induction h with
    | nil => exact ⟨[], rfl, .nil⟩
    | @cons p s w l h1 h2 _ ih =>
      obtain ⟨L, e, hL⟩ := ih
      exact ⟨⟨0, ⟨p, p.after s⟩, [], [], none, false⟩ :: L, by simp [e], .cons h1 h2 rfl hL⟩
  obtain ⟨L, e, hL⟩ := key h
  exact ⟨_, hd.yields true, (segs_found (.inr (.inl ⟨rfl, rfl⟩)) hL).1.trans e⟩

/-- It is false of the option CYPHER: the value of a parameter is anything up to white space (parser.leg:74), and the quick
parser takes a semicolon in it for the end of the statement. The parser accepts `CYPHER a=b;c RETURN 1` as one statement. -/
theorem quick_splits_option_value :
    (∃ L, YieldsP streamSource (ascii "CYPHER a=b;c RETURN 1") plainCfg true L ∧
      L.map (fun s => (s.range.stop.offset, s.errors.length, s.directive.isSome)) = [(21, 0, true)]) ∧
    ∃ M, Verif.Yields streamSource (ascii "CYPHER a=b;c RETURN 1") true M ∧ M.map (fun q => q.next.offset) = [11, 21] := by
  constructor
  · obtain ⟨L, h1, h2⟩ := yields_of_test (S := streamSource) (src := ascii "CYPHER a=b;c RETURN 1") (cfg := plainCfg) (only := true)
      (fuel := 150) (fun L => L.map (fun s => (s.range.stop.offset, s.errors.length, s.directive.isSome)) == [(21, 0, true)])
      (by decide +kernel)
    exact ⟨L, h1, by simpa using h2⟩
  · have h : Halves ⟨1, 1, 0⟩ (ascii "CYPHER a=b;" ++ (ascii "c RETURN 1" ++ [])) _ :=
      .cons (by decide +kernel) (.inl ⟨ascii "CYPHER a=b", by decide +kernel, by decide +kernel⟩)
        (.cons (by decide +kernel) (.inr ⟨rfl, by decide +kernel⟩) .nil)
    rw [show ascii "CYPHER a=b;" ++ (ascii "c RETURN 1" ++ []) = ascii "CYPHER a=b;c RETURN 1" by decide +kernel] at h
    obtain ⟨M, h1, h2⟩ := h.yields (stream_delivers _)
    refine ⟨M, h1, ?_⟩
    have := congrArg (List.map (·.offset)) h2
    rw [List.map_map] at this
    exact this.trans (by decide +kernel)

/-- It is false of texts with errors and quotes: the parser skips the quote that is not closed in `RETURN 'a; RETURN 1` and goes
on after the semicolon; to the quick parser it is all one string. -/
theorem quick_joins_open_string :
    (∃ L, YieldsP streamSource (ascii "RETURN 'a; RETURN 1") plainCfg true L ∧
      L.map (fun s => (s.range.stop.offset, s.directive.isSome)) = [(10, false), (19, true)]) ∧
    ∃ M, Verif.Yields streamSource (ascii "RETURN 'a; RETURN 1") true M ∧ M.map (fun q => q.next.offset) = [19] := by
  constructor
  · obtain ⟨L, h1, h2⟩ := yields_of_test (S := streamSource) (src := ascii "RETURN 'a; RETURN 1") (cfg := plainCfg) (only := true)
      (fuel := 150) (fun L => L.map (fun s => (s.range.stop.offset, s.directive.isSome)) == [(10, false), (19, true)])
      (by decide +kernel)
    exact ⟨L, h1, by simpa using h2⟩
  · have h : Halves ⟨1, 1, 0⟩ (ascii "RETURN 'a; RETURN 1" ++ []) _ :=
      .cons (by decide +kernel) (.inr ⟨rfl, by decide +kernel⟩) .nil
    rw [List.append_nil] at h
    obtain ⟨M, h1, h2⟩ := h.yields (stream_delivers _)
    refine ⟨M, h1, ?_⟩
    have := congrArg (List.map (·.offset)) h2
    rw [List.map_map] at this
    exact this.trans (by decide +kernel)

/-- It is false of texts with errors and comments: the parser skips `foo /* a;` without taking the comment for one. -/
theorem quick_joins_skipped_comment :
    (∃ L, YieldsP streamSource (ascii "foo /* a; */ RETURN 2") plainCfg true L ∧
      L.map (fun s => (s.range.stop.offset, s.directive.isSome)) = [(9, false), (21, true)]) ∧
    ∃ M, Verif.Yields streamSource (ascii "foo /* a; */ RETURN 2") true M ∧ M.map (fun q => q.next.offset) = [21] := by
  constructor
  · obtain ⟨L, h1, h2⟩ := yields_of_test (S := streamSource) (src := ascii "foo /* a; */ RETURN 2") (cfg := plainCfg) (only := true)
      (fuel := 150) (fun L => L.map (fun s => (s.range.stop.offset, s.directive.isSome)) == [(9, false), (21, true)])
      (by decide +kernel)
    exact ⟨L, h1, by simpa using h2⟩
  · have h : Halves ⟨1, 1, 0⟩ (ascii "foo /* a; */ RETURN 2" ++ []) _ :=
      .cons (by decide +kernel) (.inr ⟨rfl, by decide +kernel⟩) .nil
    rw [List.append_nil] at h
    obtain ⟨M, h1, h2⟩ := h.yields (stream_delivers _)
    refine ⟨M, h1, ?_⟩
    have := congrArg (List.map (·.offset)) h2
    rw [List.map_map] at this
    exact this.trans (by decide +kernel)

/-! ## Examples -/

theorem not_commented {w : List UInt8} (h : ∀ p < w.length, ¬ (w.extract p (p + 2) = [47, 47] ∨ w.extract p (p + 2) = [47, 42])) :
    ¬ Commented w := by
  rintro ⟨p, hp⟩
  by_cases hlt : p < w.length
  · exact h p hlt hp
  · have : w.extract p (p + 2) = [] := by simp [List.extract_eq_take_drop]; omega
    rw [this] at hp
    simp at hp
theorem not_mentions {w : List UInt8} (h : ∀ p < w.length, (w.extract p (p + 6)).map Ops.upper ≠ Ops.bytes "CYPHER") :
    ¬ Mentions "CYPHER" w := by
  rintro ⟨p, hp⟩
  rw [show (Ops.bytes "CYPHER").length = 6 by decide +kernel] at hp
  by_cases hlt : p < w.length
  · exact h p hlt hp
  · have : w.extract p (p + 6) = [] := by simp [List.extract_eq_take_drop]; omega
    rw [this] at hp
    exact absurd hp (by decide +kernel)

/-- Errors: text is skipped up to a semicolon, and up to a clause. -/
def broken : List UInt8 := ascii "foo; RETURN ) bar MATCH (n) RETURN n;;x"

example : ∃ L M, YieldsP streamSource broken plainCfg true L ∧ Verif.Yields streamSource broken true M ∧
    M.map (·.next) = L.map (·.range.stop) ∧ ∀ q ∈ M, q.isStatement = true :=
  quick_agrees_unquoted (stream_delivers broken) ⟨by decide +kernel, by decide +kernel, by decide +kernel⟩ (by decide +kernel)
    (not_commented (by decide +kernel)) (not_mentions (by decide +kernel)) plainCfg rfl
example : (match outline (collect streamSource broken plainCfg true false 200) with
    | some (.ok (_, L)) => L.map (fun s => s.2.1) == [4, 37, 38, 39]
    | _ => false) = true := by decide +kernel
example : (match Quick.quickParse streamSource broken (recording always) [] true false 200 with
    | some (.ok (0, M)) => M.map (fun q => q.next.offset) == [4, 37, 38, 39]
    | _ => false) = true := by decide +kernel


/-- A test of trees. -/
def wholeTo : Nat → Cypher.Node → Bool
  | 0, _ => false
  | k + 1, n => n.ty != .error && n.ty != .cypherOptionParam && n.ty != .command && n.children.all (wholeTo k)
theorem wholeTo_sound {only : Bool} : ∀ {k n}, wholeTo k n = true → Whole only n
  | 0, _, h => by cases h
  | k + 1, n, h => by
    simp only [wholeTo, Bool.and_eq_true, bne_iff_ne, List.all_eq_true] at h
    exact .mk ⟨h.1.1.1, h.1.1.2, fun _ => h.1.2⟩ fun c hc => wholeTo_sound (h.2 c hc)

/-- Semicolons in strings and comments, and slashes of all kinds. -/
def noted : List UInt8 := ascii "RETURN 'a;\\';'/* ; */ + 4/2 // ;\n; CYPHER MATCH (n) RETURN n.x/*;*//3;"

example : ∃ L M, YieldsP streamSource noted plainCfg false L ∧ L.map (fun s => s.range.stop.offset) = [34, 70] ∧
    Verif.Yields streamSource noted false M ∧ M.map (·.next) = L.map (·.range.stop) := by
  obtain ⟨L, h1, h2⟩ := yields_of_test (S := streamSource) (src := noted) (cfg := plainCfg) (only := false) (fuel := 200)
    (fun L => L.all (fun s => s.roots.all (wholeTo 20)) && L.map (fun s => s.range.stop.offset) == [34, 70]) (by decide +kernel)
  simp only [Bool.and_eq_true, beq_iff_eq, List.all_eq_true] at h2
  obtain ⟨M, g1, g2, -⟩ := quick_agrees_whole (stream_delivers noted) (by decide +kernel) plainCfg rfl false false h1
    fun seg hs x hx => wholeTo_sound (h2.1 seg hs x hx)
  exact ⟨L, M, h1, h2.2, g1, g2⟩

/-- A test of trees that may have commands. -/
def soundTo : Nat → Cypher.Node → Bool
  | 0, _ => false
  | k + 1, n => n.ty != .error && n.ty != .cypherOptionParam && n.children.all (soundTo k)
theorem soundTo_sound : ∀ {k n}, soundTo k n = true → Whole true n
  | 0, _, h => by cases h
  | k + 1, n, h => by
    simp only [soundTo, Bool.and_eq_true, bne_iff_ne, List.all_eq_true] at h
    exact .mk ⟨h.1.1, h.1.2, nofun⟩ fun c hc => soundTo_sound (h.2 c hc)

/-- Statements and client commands: a quoted semicolon, a line that is continued, a comment at the end of a line. -/
def commands : List UInt8 := ascii ":a 'x;/*' \\\n \\; // y\n;RETURN 1; :b;\n:c"

example : ∃ L M, YieldsP streamSource commands plainCfg false L ∧
    L.map (fun s => (s.range.stop.offset, s.directive.map (·.ty))) =
      [(21, some .command), (22, none), (31, some .statement), (35, some .command), (38, some .command)] ∧
    Verif.Yields streamSource commands false M ∧ M.map (·.next) = L.map (·.range.stop) ∧
    M.map sort = L.map (fun s => s.directive.map (·.ty)) := by
  obtain ⟨L, h1, h2⟩ := yields_of_test (S := streamSource) (src := commands) (cfg := plainCfg) (only := false) (fuel := 200)
    (fun L => L.all (fun s => s.roots.all (soundTo 20)) && L.map (fun s => (s.range.stop.offset, s.directive.map (·.ty))) ==
      [(21, some .command), (22, none), (31, some .statement), (35, some .command), (38, some .command)]) (by decide +kernel)
  simp only [Bool.and_eq_true, beq_iff_eq, List.all_eq_true] at h2
  obtain ⟨M, g1, g2, g3⟩ := quick_agrees_mixed (stream_delivers commands) (by decide +kernel) plainCfg rfl
    false h1 fun seg hs x hx => soundTo_sound (h2.1 seg hs x hx)
  exact ⟨L, M, h1, h2.2, g1, g2, g3⟩

end Verif.Stmts
