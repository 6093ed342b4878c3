import Verif.Common.Strconv

/-!
# Variables of a tree made of a struct

Model of `WriteVarsFromStruct`, `ReadVarsFromStruct`, `NewReadVars` and `WriteVarsFromTree`.
Whether the name of a field is its own title is a parameter.
-/

namespace Verif.RTree.Struct

/-- What is asked of the type of a field: groot/rtree/wvar.go:96-120 (`Kind`).  `refused` are the kinds
that panic. -/
inductive Kind where
  | slice
  | array (dims : List Nat)
  | refused
  | other
deriving DecidableEq, Repr

/-- A field of a struct: its name, the `groot` tag if there is one, and its type. -/
structure SField where
  name : List Char
  tag : Option (List Char)
  kind : Kind
deriving DecidableEq, Repr

/-- A variable: groot/rtree/wvar.go:15-19 (`WriteVar`), groot/rtree/rvar.go:24-31 (`ReadVar`).  The
pointer is the number of the field pointed to, the name of a leaf is there for reading only. -/
structure SVar where
  name : List Char
  count : List Char
  leaf : List Char
  field : Nat
deriving DecidableEq, Repr

/-- `\w` of regular expressions: groot/rtree/wvar.go:42-42 (`reDims`). -/
def isWord (c : Char) : Bool := c.isAlphanum || c == '_'

/-- groot/rtree/wvar.go:51-59 (`FindAllStringSubmatch`): what is between brackets, if these are word
characters.  The expression is written as an automaton: the state is what was read since the last
opening bracket. -/
def dimsFrom : Option (List Char) → List Char → List (List Char)
  | _, [] => []
  | none, c :: cs => if c = '[' then dimsFrom (some []) cs else dimsFrom none cs
  | some acc, c :: cs =>
    if c = '[' then dimsFrom (some []) cs
    else if c = ']' then acc :: dimsFrom none cs
    else if isWord c then dimsFrom (some (acc ++ [c])) cs
    else dimsFrom none cs

/-- groot/rtree/wvar.go:45-61 (`split`), groot/rtree/rvar.go:213-230 (`splitNameDims`). -/
def splitDims (s : List Char) : List Char × List (List Char) :=
  (if s.head? = some '[' then s else s.takeWhile (· ≠ '['), dimsFrom none s)

/-- groot/rtree/wvar.go:95-120 (`wvar`), groot/rtree/rvar.go:95-120 (`rvar`): name and count from the
name of a variable; `none` is a panic. -/
def nameCount (name : List Char) (kind : Kind) : Option (List Char × List Char) :=
  if name.contains '[' then
    match kind with
    | .slice =>
      match splitDims name with
      | (n, [d]) => some (n, d)
      | _ => none
    | .array _ => if 3 < (splitDims name).2.length then none else some ((splitDims name).1, [])
    | _ => none
  else
    match kind with
    | .refused => none
    | _ => some (name, [])

/-- groot/rtree/wvar.go:87-93 (`wvar`): the name before dimensions are cut off. -/
def writeName (f : SField) : List Char :=
  match f.tag with
  | some (c :: cs) => c :: cs
  | _ => f.name

/-- groot/rtree/rvar.go:152-155 (`dims`). -/
def withDims (tag : List Char) (dims : List Nat) : List Char :=
  tag ++ dims.flatMap fun d => '[' :: Verif.Strconv.formatUint d ++ [']']

/-- groot/rtree/rvar.go:128-159 (`nameOf`). -/
def readName (f : SField) : List Char :=
  match f.tag with
  | none => f.name
  | some tag =>
    match f.kind with
    | .array dims => if tag.contains '[' then tag else withDims tag dims
    | _ => tag

/-- groot/rtree/rvar.go:193-201 (`fromTag`): `none` if one is no number. -/
def tagProd : List (List Char) → Option Int
  | [] => some 1
  | d :: ds =>
    match Verif.Strconv.parseInt 64 d, tagProd ds with
    | some v, some p => some (v * p)
    | _, _ => none

/-- groot/rtree/rvar.go:175-209 (`checkFieldTagConsistency`): `false` is a panic.  The products do not
overflow. -/
def consistent (f : SField) : Bool :=
  match f.tag, f.kind with
  | some tag, .array dims =>
    !tag.contains '[' || tagProd (splitDims tag).2 == some ((dims.map Int.ofNat).prod)
  | _, _ => true

/-- groot/rtree/wvar.go:78-123 (`wvars`): the loop, from field `i` on. -/
def writeFrom (exported : List Char → Bool) : Nat → List SField → Option (List SVar)
  | _, [] => some []
  | i, f :: fs =>
    if exported f.name then
      match nameCount (writeName f) f.kind, writeFrom exported (i + 1) fs with
      | some (n, c), some vs => some (⟨n, c, [], i⟩ :: vs)
      | _, _ => none
    else writeFrom exported (i + 1) fs

/-- groot/rtree/wvar.go:24-126 (`WriteVarsFromStruct`), for a struct that is split; `none` is a panic. -/
def writeVars (exported : List Char → Bool) (fs : List SField) : Option (List SVar) :=
  writeFrom exported 0 fs

/-- groot/rtree/rvar.go:77-124 (`rvars`): the loop, from field `i` on. -/
def readFrom (exported : List Char → Bool) : Nat → List SField → Option (List SVar)
  | _, [] => some []
  | i, f :: fs =>
    if exported f.name then
      if consistent f then
        match nameCount (readName f) f.kind, readFrom exported (i + 1) fs with
        | some (n, c), some vs => some (⟨n, c, n, i⟩ :: vs)
        | _, _ => none
      else none
    else readFrom exported (i + 1) fs

/-- groot/rtree/rvar.go:61-126 (`ReadVarsFromStruct`); `none` is a panic. -/
def readVars (exported : List Char → Bool) (fs : List SField) : Option (List SVar) :=
  readFrom exported 0 fs

/-- A branch: its name, and the names of its leaves and of their counts. -/
structure SBranch where
  name : List Char
  leaves : List (List Char × Option (List Char))
deriving DecidableEq, Repr

/-- groot/rtree/rvar.go:35-49 (`NewReadVars`): name of the branch, name of the leaf, count. -/
def newReadVars (t : List SBranch) : List (List Char × List Char × List Char) :=
  t.flatMap fun b => b.leaves.map fun l => (b.name, l.1, l.2.getD [])

/-- groot/rtree/wvar.go:129-140 (`WriteVarsFromTree`): names and counts. -/
def writeVarsFromTree (t : List SBranch) : List (List Char × List Char) :=
  (newReadVars t).map fun v => (v.1, v.2.2)

end Verif.RTree.Struct
