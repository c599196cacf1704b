import Verif.Cypher.Abs
open Verif.Peg Verif.Cypher
def toSum (A : Abs) : Option Sum :=
  match A.blks with
  | [b] => some ⟨A.self, {b with hd := false}, (match A.prev with | .no => .no | .keep => .keep | _ => .clean), A.ops, A.res, A.fin⟩
  | _ => none
def joinS (a b : Sum) : Sum := ⟨a.self.join b.self, a.blk.join b.blk, a.prev.join b.prev, optJoin a.ops b.ops, a.res ||| b.res, a.fin && b.fin⟩
def dflt : Sum := ⟨.keep, ⟨true,0,.empty,false⟩, .keep, some 0, 0, false⟩
abbrev Tb := Std.HashMap Nat Sum
def idx (r : Rule) : Nat := r.ctorIdx
def look (t : Array (Option Sum)) (r : Rule) : Option Sum := (t[idx r]?).join
partial def iter (md : Mode) (t : Array (Option Sum)) (n : Nat) : IO (Array (Option Sum)) := do
  let mut t := t
  let mut ch := false
  for r in Rule.all do
    if (inlined r).isSome then continue
    match tr md (look t) (grammar r).body (.init (grammar r).nvars) with
    | none => IO.println s!"FAIL {repr r} at {n}"
    | some none => pure ()
    | some (some A) =>
      match toSum A with
      | none => IO.println s!"BLKS {repr r} at {n} {repr A}"
      | some s =>
        let s' := match look t r with | none => s | some o => joinS o s
        if look t r != some s' then
          t := t.set! (idx r) (some s'); ch := true
  if ch && n < 40 then iter md t (n+1) else
    IO.println s!"done after {n}"
    return t

def sq (s : SeqA) : String := if s = .empty then ".empty" else s!"⟨{s.pre}, {s.post}, {s.ne}, {s.ev}, {s.od}, {match s.par with | none => "none" | some b => s!"some {b}"}, {s.min}⟩"
def pv : APrev → String | .no => ".no" | .keep => ".keep" | .clean => ".clean" | _ => "?"
def op : Option Nat → String | none => "none" | some k => s!"(some {k})"
def vl (a : AVal) : String := s!"⟨{a.nul}, {a.mask}, {match a.loc with | .at j => s!".at {j}" | .prev => ".prev" | .unknown => ".unknown"}, {a.fst}⟩"
def sm (s : Sum) : String :=
  let b := s.blk
  if s = dflt then ".leaf"
  else if s = {dflt with blk := ⟨false,0,.empty,false⟩} then ".space"
  else match s with
  | ⟨.val ⟨false, m, .at 0, f⟩, ⟨false,1,⟨0,0,false,0,0,some false,0⟩,false⟩, p, some 0, 0, false⟩ => s!".node {m} {f} {pv p}"
  | _ => s!"⟨{match s.self with | .keep => ".keep" | .unk => ".unk" | .val a => ".val " ++ vl a}, ⟨{b.emp}, {b.sur}, {sq b.seq}, {b.hd}⟩, {pv s.prev}, {match s.ops with | none => "none" | some k => s!"some {k}"}, {s.res}, {s.fin}⟩"
def nm (r : Rule) : String := ((toString (repr r)).splitOn "Rule").getLast!
def emit (t : Array (Option Sum)) : IO Unit := do
  for r in Rule.all do
    match look t r with
    | some s => if s != dflt then IO.println s!"  | {nm r} => some ({sm s})"
    | none => IO.println s!"  | {nm r} => none"
#eval do
  let t ← iter lax (Array.replicate 300 none) 0
  IO.println "LAX"
  emit t
  let t' ← iter strict (Array.replicate 300 none) 0
  IO.println "STRICT"
  for r in Rule.all do
    if look t r != look t' r then
    match look t' r with
    | some s => IO.println s!"  | {nm r} => some ({sm s})"
    | none => IO.println s!"  | {nm r} => none"
