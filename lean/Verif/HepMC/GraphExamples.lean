import Verif.HepMC.GraphProps
import Verif.HepMC.Examples

/-!
# Building HepMC events: examples and counterexamples
-/

namespace Verif.HepMC.Examples

/-- The example event with the counters of a program that built it. -/
def exE2 : Evt Int Int Nm := { exE with bcverts := 2, bcparts := 5 }

/-- The heap. -/
def exH2 : Heap Int Int Nm := { exH with e := fun _ => exE2 }

theorem ex_buildable : Buildable exH2 0 := by
  refine ⟨by simp [exH2, exE2, exE], by simp [exH2, exE2, exE], ?_, ?_⟩
  · exact ⟨ex_sound.vkey, ex_sound.vnodup, ex_sound.vne0, ex_sound.pkey, ex_sound.pnodup, ex_sound.pne0, ex_sound.in_iff,
      ex_sound.out_iff, ex_sound.in_nodup, ex_sound.out_nodup, ex_sound.fin_reg, ex_sound.prod_reg⟩
  · intro v
    show (exV v).event = some 0 ↔ v ∈ [0, 1]
    match v with
    | 0 => decide
    | 1 => decide
    | n + 2 => simp [exV]

/-- A new particle ends in the second vertex. -/
example : ∃ h', addIn exH2 1 7 = some h' ∧ Buildable h' 0 ∧ (h'.p 7).fin = some 1 := by
  obtain ⟨h', e, b, f, _⟩ := C84_addIn (v := 1) (p := 7) ex_buildable (by decide) (Or.inr ⟨rfl, rfl, by decide⟩)
  exact ⟨h', e, b, f⟩

/-- A particle coming from the second vertex is made to come from the first. -/
example : ∃ h', addOut exH2 0 3 = some h' ∧ Buildable h' 0 ∧ (h'.p 3).prod = some 0 := by
  obtain ⟨h', e, b, f, _⟩ := C84_addOut (v := 0) (p := 3) ex_buildable (by decide) (Or.inl (by decide))
  exact ⟨h', e, b, f⟩

/-- A new vertex, and one that is there. -/
example : (∃ h', addVertex exH2 0 2 = some h' ∧ Buildable h' 0) ∧ ∃ h', addVertex exH2 0 1 = some h' ∧ Buildable h' 0 := by
  constructor
  · obtain ⟨h', e, b, _⟩ := C84_addVertex (v := 2) ex_buildable (Or.inr ⟨rfl, rfl, rfl, by decide⟩)
    exact ⟨h', e, b⟩
  · obtain ⟨h', e, b, _⟩ := C84_addVertex (v := 1) ex_buildable (Or.inl (by decide))
    exact ⟨h', e, b⟩

/-- A new event. -/
def newHeap : Heap Int Int Nm := { emptyHeap with e := fun _ => { zeroEvt cfg with vertices := some [], particles := some [] } }

theorem new_fresh : Fresh newHeap 0 := ⟨rfl, rfl, fun _ => ⟨rfl, rfl, rfl, rfl⟩, fun _ => ⟨rfl, rfl, rfl⟩⟩

/-- A program: two vertices, three particles; the third is added to the first vertex by mistake
and then to the second; a vertex is added twice. -/
def exOps : List (Op Int) :=
  [.newVertex ⟨0, 1, 0, 0, 0, 0, []⟩, .addVertex 0, .newParticle ⟨0, 11, 0, 0, 1, 1, 0, 1, 0, 0, []⟩, .addIn 0 0,
    .newParticle ⟨0, 22, 0, 0, 1, 1, 0, 1, 0, 0, []⟩, .addOut 0 1, .newVertex ⟨0, 2, 0, 0, 0, 0, []⟩, .addVertex 1, .addIn 1 1,
    .newParticle ⟨0, 13, 0, 0, 1, 1, 0, 1, 0, 0, []⟩, .addOut 0 2, .addOut 1 2, .addVertex 0]

theorem ex_orderly : Orderly newHeap.nv newHeap.np [] exOps := by
  simp [Orderly, exOps, newHeap, emptyHeap]

example : ∃ h', build 0 exOps newHeap = some h' ∧ Sound h' (h'.e 0) ∧ (h'.p 2).prod = some 1 ∧ (h'.p 1).fin = some 1 ∧
    1 ∈ evVerts (h'.e 0) ∧ Writable cfg h' (h'.e 0) := by
  obtain ⟨h', e⟩ := C84_build_runs new_fresh ex_orderly
  obtain ⟨s, v, p, l, _⟩ := C84_build_partial new_fresh e
  have hd : ∀ (k : Heap Int Int Nm → Bool), (build 0 exOps newHeap).all k = true → k h' = true := by
    intro k hk; rw [e] at hk; exact hk
  have hk := hd (fun h => decide ((h.e 0).sig = none ∧ (h.e 0).beam1 = none ∧ (h.e 0).beam2 = none ∧
    (∀ p ∈ evParts (h.e 0), (h.p p).data.flow = []) ∧ (h.e 0).wmap = [] ∧ (h.e 0).weights = none)) (by decide +kernel)
  obtain ⟨k1, k2, k3, k4, k5, k6⟩ := of_decide_eq_true hk
  refine ⟨h', e, s, (l 2).2, (l 1).1, (v 1).mpr (by simp [exOps]), ?_⟩
  refine C84_built_writable new_fresh e ⟨0, by simp [exOps]⟩ ?_ ?_ ?_ ?_ ?_ ?_ ?_
  · rw [k1]; simp
  · rw [k2]; simp
  · rw [k3]; simp
  · intro p hp; rw [k4 p hp]; exact List.nodup_nil
  · rw [k5]; exact List.nodup_nil
  · rw [k5, k6]; exact List.Perm.refl _
  · rw [k5]; simp

end Verif.HepMC.Examples

namespace Verif.HepMC

open Examples

/-- An event read from a file has counters at 0: a new vertex added to it gets the barcode −1 and
takes the place of the first vertex, which is still the end of two particles; a new particle
takes the place of the particle 1. -/
theorem C84_add_after_read_counterexample :
    R.see (fun q => (evVerts (q.2.e 0)).length) (decode cfg id (newDecoder (encodeAll cfg false [(exH, exE)])) emptyHeap 0) =
      some 2 ∧
    R.see (fun q => (addVertex q.2 0 2).map fun h => ((evVerts (h.e 0)).length, evVerts (h.e 0), (h.p 0).fin,
        decide (0 ∈ evParts (h.e 0))))
      (decode cfg id (newDecoder (encodeAll cfg false [(exH, exE)])) emptyHeap 0) = some (some (2, [2, 1], some 0, true)) ∧
    R.see (fun q => (addOut q.2 1 7).map fun h => ((evParts (h.e 0)).length, decide (0 ∈ evParts (h.e 0)),
        decide (0 ∈ (h.v 0).pin)))
      (decode cfg id (newDecoder (encodeAll cfg false [(exH, exE)])) emptyHeap 0) = some (some (5, false, true)) := by
  refine ⟨?_, ?_, ?_⟩ <;> decide +kernel

/-- `AddVertex` on the zero `Event` panics: its maps are nil. -/
theorem C84_zero_event_counterexample (v : Nat) : (addVertex emptyHeap 0 v).isNone = true := by
  unfold addVertex giveVBc
  dsimp only
  split <;> rfl

/-- `AddParticleIn` and `AddParticleOut` on a vertex that is in no event panic. -/
theorem C84_no_event_counterexample :
    (build 0 [.newVertex ⟨0, 1, 0, 0, 0, 0, []⟩, .newParticle ⟨0, 11, 0, 0, 1, 1, 0, 1, 0, 0, []⟩, .addIn 0 0] newHeap).isNone = true ∧
    (build 0 [.newVertex ⟨0, 1, 0, 0, 0, 0, []⟩, .newParticle ⟨0, 11, 0, 0, 1, 1, 0, 1, 0, 0, []⟩, .addOut 0 0] newHeap).isNone = true := by
  constructor <;> decide +kernel

/-- A program choosing a barcode itself: the next particle without one takes its place, the first
stays in the list of its vertex. -/
theorem C84_chosen_barcode_counterexample :
    (build 0 [.newVertex ⟨0, 1, 0, 0, 0, 0, []⟩, .addVertex 0, .newParticle ⟨0, 11, 0, 0, 1, 1, 0, 1, 0, 0, []⟩,
        .newParticle ⟨0, 13, 0, 0, 1, 1, 0, 1, 0, 0, []⟩] newHeap).bind (fun h =>
      (addOut { h with p := put h.p 0 { h.p 0 with data := { (h.p 0).data with barcode := 1 } } } 0 0).bind fun h =>
      (addOut h 0 1).map fun h => ((h.v 0).pout, evParts (h.e 0))) = some ([0, 1], [1]) := by decide +kernel

/-- Moving a vertex to another event leaves behind its incoming particles that come from a
vertex: the other event has a vertex with an incoming particle it does not contain. -/
theorem C84_move_counterexample :
    (addVertex { exH2 with e := put exH2.e 1 { zeroEvt cfg with vertices := some [], particles := some [] } } 1 1).map (fun h =>
      [evVerts (h.e 0), evVerts (h.e 1), (h.v 1).pin, evParts (h.e 1), evParts (h.e 0), (h.p 2).fin.toList]) =
    some [[0], [1], [2], [4, 3], [2, 0, 1], [1]] := by decide +kernel

end Verif.HepMC
