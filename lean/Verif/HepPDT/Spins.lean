import Verif.HepPDT.Model

/-!
# Model of the spins of particles (heppdt/pid.go, C184)
-/

namespace Verif.HepPDT

/-- heppdt/pid.go:507-528 (`JSpin`) -/
def jSpin (pid : Int) : Nat :=
  if 0 < fundamentalID pid ∧ fundamentalID pid ≤ 100 then
    if fundamentalID pid < 7 then 2
    else if fundamentalID pid = 9 then 3
    else if 10 < fundamentalID pid ∧ fundamentalID pid < 17 then 2
    else if 20 < fundamentalID pid ∧ fundamentalID pid < 25 then 3
    else 0
  else if 0 < extraBits pid then 0
  else absPID pid % 10

/-- heppdt/pid.go:545-583 (`js == 3`) -/
def lTable (nl js : Nat) : Nat :=
  if nl = 0 ∧ js = 3 then 0
  else if nl = 0 ∧ js = 5 then 1
  else if nl = 0 ∧ js = 7 then 2
  else if nl = 0 ∧ js = 9 then 3
  else if nl = 0 ∧ js = 1 then 0
  else if nl = 1 ∧ js = 3 then 1
  else if nl = 1 ∧ js = 5 then 2
  else if nl = 1 ∧ js = 7 then 3
  else if nl = 1 ∧ js = 9 then 4
  else if nl = 2 ∧ js = 3 then 1
  else if nl = 2 ∧ js = 5 then 2
  else if nl = 2 ∧ js = 7 then 3
  else if nl = 2 ∧ js = 9 then 4
  else if nl = 1 ∧ js = 1 then 1
  else if nl = 3 ∧ js = 3 then 2
  else if nl = 3 ∧ js = 5 then 3
  else if nl = 3 ∧ js = 7 then 4
  else if nl = 3 ∧ js = 9 then 5
  else 0

/-- heppdt/pid.go:532-584 (`LSpin`) -/
def lSpin (pid : Int) : Nat :=
  if isMeson pid = false then 0
  else if absPID pid / 1000000 % 10 = 9 then 0
  else lTable (absPID pid / 10000 % 10) (absPID pid % 10)

/-- heppdt/pid.go:600-614 (`js >= 3`) -/
def sTable (nl js : Nat) : Nat :=
  if nl = 0 ∧ 3 ≤ js then 1
  else if nl = 0 ∧ js = 1 then 0
  else if nl = 1 ∧ 3 ≤ js then 0
  else if nl = 2 ∧ 3 ≤ js then 1
  else if nl = 1 ∧ js = 1 then 1
  else if nl = 3 ∧ 3 ≤ js then 1
  else 0

/-- heppdt/pid.go:587-615 (`SSpin`) -/
def sSpin (pid : Int) : Nat :=
  if isMeson pid = false then 0
  else if absPID pid / 1000000 % 10 = 9 then 0
  else sTable (absPID pid / 10000 % 10) (absPID pid % 10)

end Verif.HepPDT
