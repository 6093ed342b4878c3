import Verif.Rcmd.MergeProps

/-!
# Splitting a tree into several files (`rcmd.Split`, the command root-split) (C129)

Files and trees as in Merge.lean. Opening, creating and closing files succeeds. Integers do not
overflow (the number of entries and the number of entries asked for per file are both below 2^62).
-/

namespace Verif.Rcmd

open Verif.Riofs

variable {S E A : Type}

/-- An output file: its name and its content. -/
structure Part (S E A : Type) where
  name : List UInt8
  file : Keys (Ob S E A)

/-- ".root" -/
def dotRoot : List UInt8 := [46, 114, 111, 111, 116]

/-- groot/rcmd/split.go:56-62 and groot/rcmd/split.go:68-71: the name of the output file number `i`; the name
given must have at least five characters, otherwise slicing it panics. -/
def partName (oname : List UInt8) (i : Nat) : Option (List UInt8) :=
  if oname.length < 5 then none
  else some (oname.take (oname.length - 5) ++ 45 :: decEnc i ++ dotRoot)

/-- groot/rcmd/split.go:78-93: the directory of the output file the tree goes into is made; `p` are its
parts, `lead` tells whether the name of the tree was given with a leading slash. Simplified: the parts
are what `path.Dir` gives, that is none is "." or ".." or empty. -/
def partDir (lead : Bool) (p : List (List UInt8)) : Out (Keys (Ob S E A)) :=
  if p = [] then .ok []
  else
    let d := if lead then 47 :: joinPath p else joinPath p
    (rmkdir [] d).bind fun o =>
      match rget o d with
      | .ok (.dir _) => .ok o
      | .ok (.obj _) => .panic
      | .noKey => .noKey
      | .err => .err
      | .panic => .panic

/-- groot/rtree/reader.go:72-116 (`Reader.setup`): the entries in a range; `none` is an error. -/
def rangeOf (e : List E) (lo hi : Int) : Option (List E) :=
  let hi' := if hi < 0 then (e.length : Int) else hi
  if lo < 0 then none
  else if lo > hi' then none
  else if lo > e.length then none
  else if hi' > e.length then none
  else some ((e.drop lo.toNat).take (hi' - lo).toNat)

/-- groot/rcmd/split.go:67-141 (`split`): the file written and the number returned, for the tree `x` in the
directory `p`. -/
def splitOne (env : Env S E A) (oname : List UInt8) (lead : Bool) (p : List (List UInt8)) (x : List UInt8)
    (title : List UInt8) (s : S) (e : List E) (i : Nat) (beg nevts : Int) : Out (Part S E A × Int) :=
  match partName oname i with
  | none => .panic
  | some name =>
    (partDir lead p).bind fun o =>
      let fin := if beg + nevts > e.length then (e.length : Int) else beg + nevts
      match rangeOf e beg fin with
      | none => .err
      | some e' =>
        match env.rd s s e' with
        | none => .err
        | some e'' =>
          (updAt (put1 x [] tTree tTree (.tree tTree title s e'')) p o).map fun o' => (⟨name, o'⟩, fin - beg)

/-- The loop of groot/rcmd/split.go:42-54: the files written from entry `cur` on. The number bounds the rounds:
`none` if they do not suffice. -/
def splitLoop (one : Nat → Int → Out (Part S E A × Int)) (n : Int) : Nat → Nat → Int → Option (Out (List (Part S E A)))
  | 0, _, _ => none
  | fuel + 1, i, cur =>
    if cur < n then
      match one i cur with
      | .ok (part, m) => (splitLoop one n fuel (i + 1) (cur + m)).map fun r => r.map fun l => part :: l
      | .noKey => some .noKey
      | .err => some .err
      | .panic => some .panic
    else some (.ok [])

/-- groot/rcmd/split.go:20-65 (`Split`): the names returned and the files written. The name of the tree is given
by the parts of its path and whether there is a leading slash. -/
def split (env : Env S E A) (fuel : Nat) (oname : List UInt8) (f : Keys (Ob S E A)) (lead : Bool) (p : List (List UInt8))
    (x : List UInt8) (nevts : Int) : Option (Out (List (List UInt8) × List (Part S E A))) :=
  match rget f (if lead then 47 :: joinPath (p ++ [x]) else joinPath (p ++ [x])) with
  | .ok (.obj (.tree _ title s e)) =>
    (splitLoop (fun i cur => splitOne env oname lead p x title s e i cur nevts) e.length fuel 0 0).map fun r =>
      r.map fun l => (((List.range l.length).map (partName oname)).filterMap id, l)
  | .ok _ => some .err
  | .noKey => some .noKey
  | .err => some .err
  | .panic => some .panic

end Verif.Rcmd
