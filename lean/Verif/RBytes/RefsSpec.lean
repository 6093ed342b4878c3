import Verif.RBytes.Refs

/-!
# Specification for object graphs
-/

namespace Verif.RBytes.Refs

/-- The objects an object points to. -/
def Parts.targets : Parts → List Nat
  | .nil => []
  | .data _ rest => rest.targets
  | .ref o rest => o.toList ++ rest.targets
  | .block _ inner rest => inner.targets ++ rest.targets

/-- The same content with the objects renamed. -/
def Parts.rename (φ : Nat → Nat) : Parts → Parts
  | .nil => .nil
  | .data bs rest => .data bs (rest.rename φ)
  | .ref o rest => .ref (o.map φ) (rest.rename φ)
  | .block v inner rest => .block v (inner.rename φ) (rest.rename φ)

/-- The class reads what the object wrote: same lengths, pointers and blocks in the
same places, and versions which the reader accepts. -/
inductive Follows : Dec → Parts → Prop
  | done : Follows .done .nil
  | data {n : Nat} {k : List UInt8 → Dec} {bs : List UInt8} {rest : Parts} :
      bs.length = n → Follows (k bs) rest → Follows (.data n k) (.data bs rest)
  | ref {k : Bool → Dec} {o : Option Nat} {rest : Parts} :
      Follows (k o.isSome) rest → Follows (.ref k) (.ref o rest)
  | block {vmax : Int} {d : BitVec 16 → Dec} {k : BitVec 16 → Parts → Dec} {v : BitVec 16}
      {inner rest : Parts} : v &&& 0x4000 = 0 → (vmax < 0 ∨ v.toInt ≤ vmax) →
      Follows (d v) inner → Follows (k v inner.erase) rest →
      Follows (.block vmax d k) (.block v inner rest)

/-- A family `P` of objects that is closed under pointers, without cycles (`rank`
decreases along pointers), with class names that fit the buffer of the reader,
and whose classes can be read. -/
structure Good (G : Nat → Node) (dec : List UInt8 → Option Dec) (P : Nat → Prop)
    (rank : Nat → Nat) : Prop where
  closed : ∀ i j, P i → j ∈ (G i).parts.targets → P j
  acyclic : ∀ i j, P i → j ∈ (G i).parts.targets → rank j < rank i
  name_len : ∀ i, P i → (G i).cls.length < 80
  name_nul : ∀ i, P i → (0 : UInt8) ∉ (G i).cls
  readable : ∀ i, P i → ∃ d, dec (G i).cls = some d ∧ Follows d (G i).parts

/-- `heap` holds, under the names given by `φ`, a copy of the objects `D` of `G`:
distinct objects are distinct in the copy, each has the class and the content of
the original, and points to the copies of what the original points to. -/
structure Copy (G : Nat → Node) (D : Nat → Prop) (φ : Nat → Nat) (heap : List Node) : Prop where
  inj : ∀ i j, D i → D j → φ i = φ j → i = j
  node : ∀ i, D i → heap[φ i]? = some ⟨(G i).cls, (G i).parts.rename φ⟩
  closed : ∀ i j, D i → j ∈ (G i).parts.targets → D j

end Verif.RBytes.Refs
