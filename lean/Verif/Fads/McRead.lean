/-!
# Model of the task that reads generated events (fads/hepmcreader.go, C178)

Numbers are of a type `K`, momenta and positions of a type `V`. The table of particles is a parameter; charges are in thirds,
as in the table (heppdt/tabledata.go), except for Q-balls, which are left out; whether a width counts as zero is a parameter, `narrow`.
-/

namespace Verif.Fads.McRead

/-- What is used of a generated particle, hepmc/hepmc.go (`Particle`). -/
structure Gen (V : Type) where
  pdg : Int
  status : Int
  mom : V
  /-- the position of the vertex where it was produced -/
  vtx : Option V

/-- What is used of an entry of the table, heppdt/particle.go:17-19 (`Charge`). -/
structure Info (K : Type) where
  thirds : Int
  mass : K
  width : K

/-- fads/datamodel.go:170-194 (`Candidate`) -/
structure Cand (K V : Type) where
  pid : Int
  status : Int
  m1 : Int
  m2 : Int
  d2 : Int
  charge : Int
  mass : K
  mom : V
  pos : V

/-- int32 of an integer. -/
def toI32 (n : Int) : Int := (n + 2 ^ 31) % 2 ^ 32 - 2 ^ 31

/-- The parameters: the table, the zero vector, the mass of unknown particles, and which widths count as zero. -/
structure Ctx (K V : Type) where
  table : Int → Option (Info K)
  zero : V
  noMass : K
  narrow : K → Bool

variable {K V : Type}

/-- fads/hepmcreader.go:133-141 (`allparts`) -/
def fresh (x : Ctx K V) (p : Gen V) : Cand K V := ⟨toI32 p.pdg, toI32 p.status, 0, 1, 1, -999, x.noMass, p.mom, x.zero⟩

/-- fads/hepmcreader.go:144-147 (`CandCharge`) -/
def withInfo (i : Option (Info K)) (c : Cand K V) : Cand K V :=
  match i with
  | some i => { c with charge := i.thirds.tdiv 3, mass := i.mass }
  | none => c

/-- fads/hepmcreader.go:150-153 (`ProdVertex`) -/
def withVertex (v : Option V) (c : Cand K V) : Cand K V :=
  match v with
  | some v => { c with m1 := 1, pos := v }
  | none => c

def cand (x : Ctx K V) (p : Gen V) : Cand K V := withVertex p.vtx (withInfo (x.table p.pdg) (fresh x p))

structure Lists (K V : Type) where
  all : List (Cand K V)
  stable : List (Cand K V)
  partons : List (Cand K V)

/-- fads/hepmcreader.go:155-174 (`pdgcode`): to which lists a known particle is added. -/
def sortIn (x : Ctx K V) (l : Lists K V) (p : Gen V) (i : Info K) : Lists K V :=
  if p.status = 1 then
    if x.narrow i.width then { l with stable := l.stable ++ [cand x p] } else l
  else if p.pdg.natAbs ≤ 5 ∨ p.pdg.natAbs = 21 ∨ p.pdg.natAbs = 15 then { l with partons := l.partons ++ [cand x p] }
  else l

/-- fads/hepmcreader.go:132-176 (`range`): one particle. -/
def step (x : Ctx K V) (l : Lists K V) (p : Gen V) : Lists K V :=
  match x.table p.pdg with
  | none => { l with all := l.all ++ [cand x p] }
  | some i => sortIn x { l with all := l.all ++ [cand x p] } p i

/-- fads/hepmcreader.go:110-203 (`Process`), with the particles in the order in which the map gives them, and `srt` for
sorting. The three lists are stored. -/
def process (x : Ctx K V) (srt : List (Cand K V) → List (Cand K V)) (ps : List (Gen V)) : Lists K V :=
  let l := ps.foldl (step x) ⟨[], [], []⟩
  ⟨srt l.all, srt l.stable, srt l.partons⟩

end Verif.Fads.McRead
