/-!
# Model of the particle numbering scheme of `heppdt`

Particle ids are integers.  In the code they are 64-bit integers; the smallest one, whose
absolute value overflows, is not treated apart.  `math.Pow` is exact on the powers of ten
used.  A Go panic (index out of range) is `none`.
-/

namespace Verif.HepPDT

/-- heppdt/pid.go:111-117 (`PID.AbsPID`). -/
def absPID (pid : Int) : Nat := pid.natAbs

/-- heppdt/pid.go:72-77 (`PID.Digit`); the locations Nj, Nq3, Nq2, Nq1, Nl, Nr, N, N8, N9,
N10 of heppdt/pid.go:15-27 are 1 to 10. -/
def digit (pid : Int) (loc : Nat) : Nat := absPID pid / 10 ^ (loc - 1) % 10

/-- heppdt/pid.go:49-51 (`PID.ExtraBits`). -/
def extraBits (pid : Int) : Nat := absPID pid / 10000000

/-- heppdt/pid.go:57-69 (`PID.FundamentalID`). -/
def fundamentalID (pid : Int) : Nat :=
  if digit pid 10 = 1 ∧ digit pid 9 = 0 then 0
  else if digit pid 3 = 2 ∧ digit pid 4 = 0 then absPID pid % 10000
  else if absPID pid ≤ 102 then absPID pid
  else 0

/-- heppdt/pid.go:155-187 (`PID.IsMeson`). -/
def isMeson (pid : Int) : Bool :=
  let a := absPID pid
  if extraBits pid > 0 then false
  else if a ≤ 100 then false
  else if fundamentalID pid ≤ 100 ∧ fundamentalID pid > 0 then false
  else if a = 130 ∨ a = 310 ∨ a = 210 then true
  else if a = 150 ∨ a = 350 ∨ a = 510 ∨ a = 530 then true
  else if pid = 110 ∨ pid = 990 ∨ pid = 9990 then true
  else if digit pid 1 > 0 ∧ digit pid 2 > 0 ∧ digit pid 3 > 0 ∧ digit pid 4 = 0 then
    if digit pid 2 = digit pid 3 ∧ pid < 0 then false else true
  else false

/-- heppdt/pid.go:190-204 (`PID.IsBaryon`). -/
def isBaryon (pid : Int) : Bool :=
  if extraBits pid > 0 then false
  else if absPID pid ≤ 100 then false
  else if fundamentalID pid ≤ 100 ∧ fundamentalID pid > 0 then false
  else if absPID pid = 2110 ∨ absPID pid = 2210 then true
  else if digit pid 1 > 0 ∧ digit pid 2 > 0 ∧ digit pid 3 > 0 ∧ digit pid 4 > 0 then true
  else false

/-- heppdt/pid.go:207-225 (`PID.IsDiQuark`). -/
def isDiQuark (pid : Int) : Bool :=
  if extraBits pid > 0 then false
  else if absPID pid ≤ 100 then false
  else if fundamentalID pid ≤ 100 ∧ fundamentalID pid > 0 then false
  else if digit pid 1 > 0 ∧ digit pid 2 = 0 ∧ digit pid 3 > 0 ∧ digit pid 4 > 0 then true
  else false

/-- heppdt/pid.go:276-307 (`PID.IsPentaquark`). -/
def isPentaquark (pid : Int) : Bool :=
  if extraBits pid > 0 then false
  else if digit pid 7 ≠ 9 then false
  else if digit pid 6 = 9 ∨ digit pid 6 = 0 then false
  else if digit pid 1 = 9 ∨ digit pid 5 = 0 then false
  else if digit pid 4 = 0 then false
  else if digit pid 3 = 0 then false
  else if digit pid 2 = 0 then false
  else if digit pid 1 = 0 then false
  else if digit pid 3 > digit pid 4 then false
  else if digit pid 4 > digit pid 5 then false
  else if digit pid 5 > digit pid 6 then false
  else true

/-- heppdt/pid.go:228-240 (`PID.IsHadron`). -/
def isHadron (pid : Int) : Bool :=
  if extraBits pid > 0 then false
  else if isMeson pid then true
  else if isBaryon pid then true
  else if isPentaquark pid then true
  else false

/-- heppdt/pid.go:243-251 (`PID.IsLepton`). -/
def isLepton (pid : Int) : Bool :=
  if extraBits pid > 0 then false
  else if fundamentalID pid ≥ 11 ∧ fundamentalID pid ≤ 18 then true
  else false

/-- heppdt/pid.go:468-477 (`PID.A`). -/
def baryonNumber (pid : Int) : Nat :=
  if absPID pid = 2212 then 1
  else if digit pid 10 ≠ 1 ∨ digit pid 9 ≠ 0 then 0
  else absPID pid / 10 % 1000

/-- heppdt/pid.go:480-489 (`PID.Z`). -/
def protonNumber (pid : Int) : Nat :=
  if absPID pid = 2212 then 1
  else if digit pid 10 ≠ 1 ∨ digit pid 9 ≠ 0 then 0
  else absPID pid / 10000 % 1000

/-- heppdt/pid.go:260-273 (`PID.IsNucleus`). -/
def isNucleus (pid : Int) : Bool :=
  if absPID pid = 2212 then true
  else if digit pid 10 = 1 ∧ digit pid 9 = 0 then decide (baryonNumber pid ≥ protonNumber pid)
  else false

/-- heppdt/pid.go:310-324 (`PID.IsSUSY`). -/
def isSUSY (pid : Int) : Bool :=
  if extraBits pid > 0 then false
  else if digit pid 7 ≠ 1 ∧ digit pid 7 ≠ 2 then false
  else if digit pid 6 ≠ 0 then false
  else if fundamentalID pid = 0 then false
  else true

/-- heppdt/pid.go:327-350 (`PID.IsRhadron`). -/
def isRhadron (pid : Int) : Bool :=
  if extraBits pid > 0 then false
  else if digit pid 7 ≠ 1 then false
  else if digit pid 6 ≠ 0 then false
  else if isSUSY pid then false
  else if digit pid 3 = 0 then false
  else if digit pid 2 = 0 then false
  else if digit pid 1 = 0 then false
  else true

/-- heppdt/pid.go:353-379 (`PID.IsDyon`). -/
def isDyon (pid : Int) : Bool :=
  if extraBits pid > 0 then false
  else if digit pid 7 ≠ 4 then false
  else if digit pid 6 ≠ 1 then false
  else if digit pid 5 ≠ 1 ∧ digit pid 5 ≠ 2 then false
  else if digit pid 2 = 0 then false
  else if digit pid 1 ≠ 0 then false
  else true

/-- heppdt/pid.go:385-399 (`PID.IsQBall`). -/
def isQBall (pid : Int) : Bool :=
  if extraBits pid > 0 then false
  else if digit pid 7 ≠ 1 ∧ digit pid 7 ≠ 2 then false
  else if digit pid 6 ≠ 0 then false
  else if fundamentalID pid = 0 then false
  else true

/-- heppdt/pid.go:120-152 (`PID.IsValid`). -/
def isValid (pid : Int) : Bool :=
  if extraBits pid > 0 then isNucleus pid || isQBall pid
  else isSUSY pid || isRhadron pid || isDyon pid || isMeson pid || isBaryon pid || isDiQuark pid ||
    decide (fundamentalID pid > 0) || isPentaquark pid

/-- heppdt/pid.go:617-628 (`ch100`): three times the charge of the fundamental particles. -/
def ch100 : List Int :=
  [-1, 2, -1, 2, -1, 2, -1, 2, 0, 0,
   -3, 0, -3, 0, -3, 0, -3, 0, 0, 0,
   0, 0, 0, 3, 0, 0, 0, 0, 0, 0,
   0, 0, 0, 3, 0, 0, 3, 0, 0, 0,
   0, -1, 0, 0, 0, 0, 0, 0, 0, 0,
   0, 6, 3, 6, 0, 0, 0, 0, 0, 0,
   0, 0, 0, 0, 0, 0, 0, 0, 0, 0,
   0, 0, 0, 0, 0, 0, 0, 0, 0, 0,
   0, 0, 0, 0, 0, 0, 0, 0, 0, 0,
   0, 0, 0, 0, 0, 0, 0, 0, 0, 0]

/-- `ch100[q-1]`: a panic for `q = 0` and beyond the table. -/
def charge3 (q : Nat) : Option Int := if q = 0 then none else ch100[q - 1]?

/-- The table lookup of heppdt/pid.go:656-669 with its exceptions. -/
def tableCharge (ida fid : Nat) : Option Int :=
  match charge3 fid with
  | none => none
  | some c =>
    let c := if ida = 1000017 ∨ ida = 1000018 then 0 else c
    let c := if ida = 1000034 ∨ ida = 1000052 then 0 else c
    let c := if ida = 1000053 ∨ ida = 1000054 then 0 else c
    let c := if ida = 5100061 ∨ ida = 5100062 then 6 else c
    some c

/-- The sign change at the end of heppdt/pid.go:683-688. -/
def signed (pid : Int) (c : Int) : Int := if c = 0 then 0 else if pid < 0 then -c else c

/-- heppdt/pid.go:631-690 (`PID.threeCharge`). -/
def threeCharge (pid : Int) : Option Int :=
  let q1 := digit pid 4
  let q2 := digit pid 3
  let q3 := digit pid 2
  let ida := absPID pid
  let fid := fundamentalID pid
  if ida = 0 then some 0
  else if extraBits pid > 0 then
    if isNucleus pid then some (3 * protonNumber pid)
    else if isQBall pid then some (signed pid (3 * (ida / 10 % 10000 : Nat)))
    else some 0
  else if isDyon pid then
    let c : Int := 3 * (ida / 10 % 1000 : Nat)
    some (signed pid (if digit pid 5 = 2 then -c else c))
  else if fid > 0 ∧ fid ≤ 100 then (tableCharge ida fid).map (signed pid)
  else if digit pid 1 = 0 then some 0
  else if q1 = 0 ∨ (isRhadron pid = true ∧ q1 = 9) then
    if q2 = 3 ∨ q2 = 5 then
      match charge3 q3, charge3 q2 with
      | some a, some b => some (signed pid (a - b))
      | _, _ => none
    else
      match charge3 q2, charge3 q3 with
      | some a, some b => some (signed pid (a - b))
      | _, _ => none
  else if q3 = 0 then
    match charge3 q2, charge3 q1 with
    | some a, some b => some (signed pid (a + b))
    | _, _ => none
  else if isBaryon pid = true ∨ (isRhadron pid = true ∧ digit pid 5 = 9) then
    match charge3 q3, charge3 q2, charge3 q1 with
    | some a, some b, some c => some (signed pid (a + b + c))
    | _, _, _ => none
  else some 0

/-- The loop over the digits of an R-hadron in heppdt/pid.go:80-108 (`PID.findQ`). -/
def findQLoop (pid : Int) (q : Nat) : List Nat → Nat → Bool
  | [], _ => false
  | i :: is, iz =>
    if digit pid i = 0 then findQLoop pid q is i
    else if i = iz - 1 then findQLoop pid q is iz
    else if digit pid i = q then true
    else findQLoop pid q is iz

/-- heppdt/pid.go:80-108 (`PID.findQ`). -/
def findQ (pid : Int) (q : Nat) : Bool :=
  if isDyon pid then false
  else if isRhadron pid then findQLoop pid q [6, 5, 4, 3, 2] 7
  else if digit pid 2 = q ∨ digit pid 3 = q ∨ digit pid 4 = q then true
  else if isPentaquark pid = true ∧ (digit pid 5 = q ∨ digit pid 6 = q) then true
  else false

/-- heppdt/pid.go:402-465 (`HasDown`, `HasUp`, `HasStrange`, `HasCharm`, `HasBottom` and
`HasTop`), for `q` from 1 to 6. -/
def hasQuark (pid : Int) (q : Nat) : Bool :=
  if extraBits pid > 0 then false
  else if fundamentalID pid > 0 then false
  else findQ pid q

end Verif.HepPDT
