import Verif.Robj.Hold
import Verif.RBytes.RefsProps

/-!
# Objects written with `WriteObjectAny` and read with `ReadObjectAny`
-/

namespace Verif.Robj

open Verif.RBytes Verif.RBytes.Refs

/-! ### Names -/

theorem classes_nodup : (classes.map Codec.cls).Nodup := by decide +kernel

theorem find_eq {cs : List Codec} (hn : (cs.map Codec.cls).Nodup) {c : Codec} (hc : c ∈ cs) :
    cs.find? (fun d => d.cls == c.cls) = some c := by
  induction cs with
  | nil => simp at hc
  | cons d cs ih =>
    simp only [List.map_cons, List.nodup_cons, List.mem_map] at hn
    rcases List.mem_cons.1 hc with rfl | hc
    · simp
    · have : d.cls ≠ c.cls := fun h => hn.1 ⟨c, hc, h.symm⟩
      rw [List.find?_cons_of_neg (by simpa using this)]
      exact ih hn.2 hc

theorem codecOf_eq {c : Codec} (hc : c ∈ classes) : codecOf c.cls = some c :=
  find_eq classes_nodup hc

theorem mem_classes {k : Contract} (hk : k ∈ contracts) : k.c ∈ classes := by
  rw [← contracts_classes]
  exact List.mem_map.2 ⟨k, hk, rfl⟩

theorem classes_len : ∀ c ∈ classes, c.cls.length < 80 ∧ (0 : UInt8) ∉ c.cls := by
  have : ∀ n ∈ classes.map Codec.cls, n.length < 80 ∧ (0 : UInt8) ∉ n := by decide +kernel
  intro c hc
  exact this _ (List.mem_map.2 ⟨c, hc, rfl⟩)

/-! ### Object graphs -/

/-- The objects an object points to. -/
def Obj.targets (o : Obj) : List Nat := (o.k.c.W o.v .nil).targets

/-- A family of objects of the classes: values that can be written, pointing to objects
of the family, without cycles. -/
structure Family (objs : Nat → Obj) (P : Nat → Prop) (rank : Nat → Nat) : Prop where
  known : ∀ i, P i → (objs i).k ∈ contracts
  ok : ∀ i, P i → (objs i).k.OK (objs i).v
  closed : ∀ i j, P i → j ∈ (objs i).targets → P j
  acyclic : ∀ i j, P i → j ∈ (objs i).targets → rank j < rank i

theorem Family.good {objs : Nat → Obj} {P : Nat → Prop} {rank : Nat → Nat} (h : Family objs P rank) :
    Good (fun i => (objs i).node) decOf P rank where
  closed := h.closed
  acyclic := h.acyclic
  name_len i hi := (classes_len _ (mem_classes (h.known i hi))).1
  name_nul i hi := (classes_len _ (mem_classes (h.known i hi))).2
  readable i hi := by
    have hh := contracts_hold _ (h.known i hi)
    refine ⟨(objs i).k.c.R.dec fun _ => .done, ?_, ?_⟩
    · simp [decOf, Obj.node, codecOf_eq (mem_classes (h.known i hi))]
    · refine dec_follows (a := (objs i).k.norm ((objs i).k.map (fun _ => 0) (objs i).v)) ?_
      rw [erase_eq]
      show _ = _
      simp only [Obj.node]
      rw [hh.ren]
      exact hh.run _ (hh.okmap _ (h.ok i hi) _) _

/-- Objects of these classes, with whatever pointers between them (shared or nil, but
not cyclic), written one after the other with `WriteObjectAny` at any place of a
buffer, are read back by as many `ReadObjectAny`: each pointer to an object is read
as a pointer to one copy of it, and the copy has the class of the object and the
value of the object, with pointers to the copies of what the object points to. -/
theorem C142_roundtrip_partial {objs : Nat → Obj} {P : Nat → Prop} {rank : Nat → Nat}
    (h : Family objs P rank) (os : List (Option Nat)) (hos : ∀ i, some i ∈ os → P i) (w : WBuf)
    (hw : w.WF) (fuel : Nat) (s' : WS) (hf : ∀ i, some i ∈ os → rank i + 1 < fuel) (hf0 : 0 < fuel)
    (hwr : writeAll (fun i => (objs i).node) fuel os ⟨w, [], []⟩ = some s') (hsz : s'.w.pos < 2 ^ 30) :
    ∃ bs, s'.w.bytes = w.bytes ++ bs ∧
      ∀ (pre post hid : List UInt8) (off : Nat), pre.length + off = w.pos →
        ∃ (refs : _) (heap : _) (φ : Nat → Nat) (D : Nat → Prop),
          readAll decOf fuel os.length ⟨⟨pre ++ (bs ++ post), hid, pre.length, off, false⟩, [], []⟩ =
            some (os.map (fun o => o.map φ),
              ⟨⟨pre ++ (bs ++ post), hid, pre.length + bs.length, off, false⟩, refs, heap⟩) ∧
          (∀ i, some i ∈ os → D i) ∧
          (∀ i j, D i → D j → φ i = φ j → i = j) ∧
          ∀ i, D i → (∀ j ∈ (objs i).targets, D j) ∧ ∃ parts,
            heap[φ i]? = some ⟨(objs i).k.c.cls, parts⟩ ∧
            (objs i).k.c.R.run parts =
              some ((objs i).k.norm ((objs i).k.map φ (objs i).v), .nil) := by
  obtain ⟨bs, hb, hr⟩ := C82_roundtrip_partial h.good os hos w hw fuel s' hf hf0 hwr hsz
  refine ⟨bs, hb, fun pre post hid off ho => ?_⟩
  obtain ⟨refs, heap, φ, D, h1, h2, h3⟩ := hr pre post hid off ho
  refine ⟨refs, heap, φ, fun i => D i ∧ P i, h1, fun i hi => ⟨h2 i hi, hos i hi⟩,
    fun i j hi hj => h3.inj i j hi.1 hj.1, fun i ⟨hi, hp⟩ =>
      ⟨fun j hj => ⟨h3.closed i j hi hj, h.closed i j hp hj⟩, _, h3.node i hi, ?_⟩⟩
  have hh := contracts_hold _ (h.known i hp)
  have := hh.ren φ (objs i).v .nil
  simp only [Obj.node]
  rw [this]
  exact hh.run _ (hh.okmap _ (h.ok i hp) _) _

end Verif.Robj
