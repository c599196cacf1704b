import Verif.Peg.Analysis
import Verif.Peg.Lines
/-! Computes the tables that the static checks verify (run by hand; not part of the proofs). -/
open Verif.Peg
namespace Tables
variable {R P A : Type} [DecidableEq R] [DecidableEq P] [DecidableEq A] [Repr R]

def look (l : List (R × α)) (d : α) (r : R) : α := ((l.find? (fun x => decide (x.1 = r))).map (·.2)).getD d

def Out.join (a b : Out) : Out := ⟨a.fail || b.fail, a.s0 || b.s0, a.sp || b.sp⟩

def outTable (all : List R) (G : R → RuleDef R P A) (pt : P → Bool × Bool) : Nat → List (R × Out2) → List (R × Out2)
  | 0, t => t
  | n+1, t =>
    let t' := all.map fun r => (r, outOf (look t ⟨⟨false,false,false⟩,⟨false,false,false⟩⟩) pt (G r).body)
    if t'.map (·.2) = t.map (·.2) then t else outTable all G pt n t'

def leftCalls (tbl : R → Out2) (pt : P → Bool × Bool) (fin : Bool) : Expr R P A → List R
  | .nt r _ => [r]
  | .seq a b => leftCalls tbl pt fin a ++ (if ((outOf tbl pt a).at_ fin).s0 then leftCalls tbl pt fin b else [])
  | .alt a b => leftCalls tbl pt fin a ++ (if ((outOf tbl pt a).at_ fin).fail then leftCalls tbl pt fin b else [])
  | .star a | .peek a | .npeek a | .onfail a _ => leftCalls tbl pt fin a
  | _ => []

def rankTable (all : List R) (G : R → RuleDef R P A) (pt : P → Bool × Bool) (tbl : R → Out2) : Nat → List (R × Nat) → List (R × Nat)
  | 0, t => t
  | n+1, t =>
    let t' := all.map fun r => (r, (leftCalls tbl pt true (G r).body ++ leftCalls tbl pt false (G r).body).foldl (fun m q => max m (look t 0 q + 1)) 0)
    if t'.map (·.2) = t.map (·.2) then t else rankTable all G pt tbl n t'

/-- rules that do not touch the line stack: greatest fixpoint -/
def quietTable (all : List R) (G : R → RuleDef R P A) (kind : P → LKind) : Nat → List (R × Bool) → List (R × Bool)
  | 0, t => t
  | n+1, t =>
    let c : LCfg R P := ⟨fun _ => ⟨0, none, none, none⟩, look t true, fun _ => false, kind, ⟨0⟩, fun _ => false⟩
    let t' := all.map fun r => (r, quietE c (G r).body)
    if t'.map (·.2) = t.map (·.2) then t else quietTable all G kind n t'

def clampO (o : Option Nat) : Option Nat := o.map (min 2)
def toSum (pre : Nat) (r : LRes) : LSum := ⟨pre, clampO r.ok0, r.ok1.map (fun x => (min 2 x.1, min 2 x.2)), clampO (r.fl.map (·.1))⟩
def sumTable (all : List R) (G : R → RuleDef R P A) (c : LCfg R P) (pre : List (R × Nat)) (ls : R) :
    Nat → List (R × LSum) → List (R × LSum)
  | 0, t => t
  | n+1, t =>
    let c' := { c with sum := look t ⟨0, none, none, none⟩ }
    let t' := all.map fun r => if c.eol r then (r, ⟨0, none, some (0,1), some 2⟩) else if r = ls then (r, ⟨3, none, none, none⟩) else
      (r, toSum (look pre 0 r) ((lineTr c' (G r).body).get (look pre 0 r)))
    if t'.map (·.2) = t.map (·.2) then t else sumTable all G c pre ls n t'

def badRules (all : List R) (G : R → RuleDef R P A) (c : LCfg R P) (pre : List (R × Nat)) (ls : R) (t : List (R × LSum)) : List R :=
  let c' := { c with sum := look t ⟨0, none, none, none⟩ }
  all.filter fun r => !(c.eol r) && !(decide (r = ls)) && !((lineTr c' (G r).body).get (look pre 0 r)).safe

def findPre (all : List R) (G : R → RuleDef R P A) (c : LCfg R P) (ls : R) (allowed : R → Nat) : Nat → List (R × Nat) → List (R × Nat) × List (R × LSum) × List R
  | 0, pre => (pre, [], [])
  | n+1, pre =>
    let t0 := all.map fun r => (r, LSum.mk (look pre 0 r) none none none)
    let t := sumTable all G c pre ls 300 t0
    let bad := badRules all G c pre ls t
    let pre' := pre.map fun (r, k) => if bad.contains r && k < allowed r then (r, k+1) else (r, k)
    if pre'.map (·.2) = pre.map (·.2) then (pre, t, bad) else findPre all G c ls allowed n pre'

def nm (r : R) : String := "." ++ (((toString (repr r)).splitOn ".").getLast?.getD "")
def b (x : Bool) : String := if x then "true" else "false"
def pOut (o : Out) : String := s!"⟨{b o.fail}, {b o.s0}, {b o.sp}⟩"
def oN : Option Nat → String | none => "none" | some n => s!"some {n}"
def pSum (s : LSum) : String := s!"⟨{s.pre}, {oN s.ok0}, " ++ (match s.ok1 with | none => "none" | some (x, y) => s!"some ({x}, {y})") ++ s!", {oN s.fl}⟩"
def table {α : Type} (doc name ty : String) (p : α → String) (t : List (R × α)) : String :=
  s!"/-- {doc} -/\ndef {name} : Rule → {ty}\n" ++ String.join (t.map fun (r, x) => s!"  | {nm r} => {p x}\n")
def boolTable (doc name : String) (t : List (R × Bool)) : String :=
  s!"/-- {doc} -/\ndef {name} : Rule → Bool\n" ++ String.join ((t.filter (·.2)).map fun (r, _) => s!"  | {nm r} => true\n") ++ "  | _ => false\n"
def emit (all : List R) (G : R → RuleDef R P A) (pt : P → Bool × Bool) (kind : P → LKind) (eol : R → Bool) (dead : CharSet) (ls : R) : IO Unit := do
  let ot := outTable all G pt 1000 []
  IO.println (table "Possible outcomes of each rule: at the end of input, before it." "outT" "Out2" (fun o => s!"⟨{pOut o.fin}, {pOut o.mid}⟩") ot)
  let rk := rankTable all G pt (look ot ⟨⟨false,false,false⟩,⟨false,false,false⟩⟩) 1000 []
  IO.println (table "Rank: decreases along calls made before consuming input." "rankT" "Nat" toString rk)
  let qt := quietTable all G kind 1000 []
  IO.println (boolTable "Rules that leave the line starts alone." "quietT" qt)
  let c : LCfg R P := ⟨fun _ => ⟨0,none,none,none⟩, look qt false, eol, kind, dead, fun p => !(pt p).2⟩
  let (_, t, bad) := findPre all G c ls (fun _ => 2) 300 (all.map (·, 0))
  IO.println (table "What each rule does to the line starts." "lineT" "LSum" pSum t)
  unless bad.isEmpty do IO.println s!"-- BAD: {bad.map nm}"
end Tables
