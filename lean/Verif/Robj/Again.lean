import Verif.Robj.Stable
import Verif.Robj.Props

/-!
# Writing again what was read
-/

namespace Verif.Robj

open Verif.RBytes Verif.RBytes.Refs

theorem targets_rename (φ : Nat → Nat) (ps : Parts) : (ps.rename φ).targets = ps.targets.map φ := by
  induction ps with
  | nil => rfl
  | data bs rest ih => simpa [Parts.rename, Parts.targets] using ih
  | ref o rest ih => cases o <;> simp [Parts.rename, Parts.targets, ih]
  | block v inner rest ih1 ih2 => simp [Parts.rename, Parts.targets, ih1, ih2]

theorem rename_fix {φ : Nat → Nat} (ps : Parts) (h : ps.rename φ = ps) : ∀ j ∈ ps.targets, φ j = j := by
  induction ps with
  | nil => simp [Parts.targets]
  | data bs rest ih =>
    simp only [Parts.rename, Parts.data.injEq] at h
    exact ih h.2
  | ref o rest ih =>
    simp only [Parts.rename, Parts.ref.injEq] at h
    intro j hj
    rcases List.mem_append.1 hj with hj | hj
    · cases o with
      | none => simp at hj
      | some i =>
        simp only [Option.toList_some, List.mem_singleton] at hj
        subst hj
        simpa using h.1
    · exact ih h.2 j hj
  | block v inner rest ih1 ih2 =>
    simp only [Parts.rename, Parts.block.injEq] at h
    intro j hj
    rcases List.mem_append.1 hj with hj | hj
    · exact ih1 h.2.1 j hj
    · exact ih2 h.2.2 j hj

theorem rename_id (ps : Parts) : ps.rename id = ps := by
  induction ps with
  | nil => rfl
  | data bs rest ih => simp [Parts.rename, ih]
  | ref o rest ih => simp [Parts.rename, ih]
  | block v inner rest ih1 ih2 => simp [Parts.rename, ih1, ih2]

/-- Reading makes no pointers up: the value read back points only to objects the value
written pointed to. -/
theorem C143_targets {k : Contract} (hk : k ∈ contracts) {v : k.c.α} (h : k.OK v) :
    ∀ j ∈ (k.c.W (k.norm v) .nil).targets, j ∈ (k.c.W v .nil).targets := by
  intro t ht
  by_contra hn
  have hh := contracts_hold k hk
  have hs := C143_stable k hk
  obtain ⟨m, hm⟩ : ∃ m, ∀ j ∈ (k.c.W v .nil).targets, j < m := by
    generalize (k.c.W v .nil).targets = ts
    induction ts with
    | nil => exact ⟨0, by simp⟩
    | cons a ts ih =>
      obtain ⟨m, hm⟩ := ih
      refine ⟨m + a + 1, fun j hj => ?_⟩
      rcases List.mem_cons.1 hj with rfl | hj
      · omega
      · have := hm j hj; omega
  let φ : Nat → Nat := fun j => if j = t then m + t + 1 else j
  have hφ : ∀ j ∈ (k.c.W v .nil).targets, φ j = j := by
    intro j hj
    have : j ≠ t := fun e => hn (e ▸ hj)
    simp [φ, this]
  have e1 : k.c.W (k.map φ v) .nil = k.c.W v .nil := by
    have h1 := hh.ren φ v .nil
    rw [rename_congr (ψ := id) _ hφ, rename_id] at h1
    exact h1.symm
  have e2 : k.norm (k.map φ v) = k.norm v := by
    have r1 := hh.run _ (hh.okmap v h φ) .nil
    rw [e1, hh.run v h .nil] at r1
    simpa using r1.symm
  have e3 := hs.comm v φ fun i hi j hj hij => by rwa [hφ i hi, hφ j hj] at hij
  have e4 := hh.ren φ (k.norm v) .nil
  rw [← e3, e2] at e4
  have := rename_fix _ e4 t ht
  simp only [φ, if_true] at this
  omega

/-- The copy of an object whose pointers lead to the copies. -/
def Obj.copy (φ : Nat → Nat) (o : Obj) : Obj := ⟨o.k, o.k.norm (o.k.map φ o.v)⟩

/-- The value comes back as it is when it is written and read. -/
def Obj.Settled (o : Obj) : Prop := ∀ rest, o.k.c.R.run (o.k.c.W o.v rest) = some (o.v, rest)

/-- What was read back is again a family of objects that can be written, and all of
them now come back as they are. -/
theorem C143_family {objs : Nat → Obj} {P : Nat → Prop} {rank : Nat → Nat} (h : Family objs P rank)
    {φ : Nat → Nat} {D : Nat → Prop} (hD : ∀ i, D i → P i)
    (hcl : ∀ i, D i → ∀ j ∈ (objs i).targets, D j)
    (hinj : ∀ i j, D i → D j → φ i = φ j → i = j)
    {objs' : Nat → Obj} (hc : ∀ i, D i → objs' (φ i) = (objs i).copy φ) :
    ∃ rank', (∀ i, D i → rank' (φ i) = rank i) ∧
      Family objs' (fun n => ∃ i, D i ∧ φ i = n) rank' ∧ ∀ i, D i → (objs' (φ i)).Settled := by
  classical
  have key : ∀ i, D i → ∀ n ∈ ((objs i).copy φ).targets, ∃ j ∈ (objs i).targets, φ j = n := by
    intro i hi n hn
    have hk := h.known i (hD i hi)
    have hh := contracts_hold _ hk
    have := C143_targets hk (hh.okmap _ (h.ok i (hD i hi)) φ) n hn
    have e := hh.ren φ (objs i).v .nil
    rw [show (Parts.nil.rename φ) = .nil from rfl] at e
    rw [← e, targets_rename, List.mem_map] at this
    exact this
  have hr : ∀ i, D i →
      (fun n => if hn : ∃ i, D i ∧ φ i = n then rank hn.choose else 0) (φ i) = rank i := by
    intro i hi
    have hn : ∃ j, D j ∧ φ j = φ i := ⟨i, hi, rfl⟩
    have := hn.choose_spec
    simp only [dif_pos hn]
    rw [hinj _ _ this.1 hi this.2]
  refine ⟨fun n => if hn : ∃ i, D i ∧ φ i = n then rank hn.choose else 0, hr,
    ⟨?_, ?_, ?_, ?_⟩, ?_⟩
  · rintro n ⟨i, hi, rfl⟩
    rw [hc i hi]
    exact h.known i (hD i hi)
  · rintro n ⟨i, hi, rfl⟩
    rw [hc i hi]
    have hk := h.known i (hD i hi)
    exact (C143_stable _ hk).ok _ ((contracts_hold _ hk).okmap _ (h.ok i (hD i hi)) φ)
  · rintro n m ⟨i, hi, rfl⟩ hm
    rw [hc i hi] at hm
    obtain ⟨j, hj, rfl⟩ := key i hi m hm
    exact ⟨j, hcl i hi j hj, rfl⟩
  · rintro n m ⟨i, hi, rfl⟩ hm
    rw [hc i hi] at hm
    obtain ⟨j, hj, rfl⟩ := key i hi m hm
    have a := hr i hi
    have b := hr j (hcl i hi j hj)
    have := h.acyclic i j (hD i hi) hj
    simp only at a b
    omega
  · intro i hi
    rw [hc i hi]
    intro rest
    have hk := h.known i (hD i hi)
    have hs := C143_stable _ hk
    have ho := (contracts_hold _ hk).okmap _ (h.ok i (hD i hi)) φ
    have := (contracts_hold _ hk).run _ (hs.ok _ ho) rest
    rw [hs.same _ ho] at this
    exact this

/-- Objects that were read (`C143_family`), written again at any place of a buffer: what
is read is the value itself, pointing to the copies, and it is written with the very
content it was read from. -/
theorem C143_again_partial {objs : Nat → Obj} {P : Nat → Prop} {rank : Nat → Nat}
    (h : Family objs P rank) (hset : ∀ i, P i → (objs i).Settled) (os : List (Option Nat))
    (hos : ∀ i, some i ∈ os → P i) (w : WBuf) (hw : w.WF) (fuel : Nat) (s' : WS)
    (hf : ∀ i, some i ∈ os → rank i + 1 < fuel) (hf0 : 0 < fuel)
    (hwr : writeAll (fun i => (objs i).node) fuel os ⟨w, [], []⟩ = some s') (hsz : s'.w.pos < 2 ^ 30) :
    ∃ bs, s'.w.bytes = w.bytes ++ bs ∧
      ∀ (pre post hid : List UInt8) (off : Nat), pre.length + off = w.pos →
        ∃ (refs : _) (heap : _) (φ : Nat → Nat) (D : Nat → Prop),
          readAll decOf fuel os.length ⟨⟨pre ++ (bs ++ post), hid, pre.length, off, false⟩, [], []⟩ =
            some (os.map (fun o => o.map φ),
              ⟨⟨pre ++ (bs ++ post), hid, pre.length + bs.length, off, false⟩, refs, heap⟩) ∧
          (∀ i, some i ∈ os → D i) ∧
          (∀ i j, D i → D j → φ i = φ j → i = j) ∧
          ∀ i, D i → (∀ j ∈ (objs i).targets, D j) ∧ ∃ parts,
            heap[φ i]? = some ⟨(objs i).k.c.cls, parts⟩ ∧
            (objs i).k.c.R.run parts = some ((objs i).k.map φ (objs i).v, .nil) ∧
            (objs i).k.c.W ((objs i).k.map φ (objs i).v) .nil = parts := by
  obtain ⟨bs, hb, hr⟩ := C82_roundtrip_partial h.good os hos w hw fuel s' hf hf0 hwr hsz
  refine ⟨bs, hb, fun pre post hid off ho => ?_⟩
  obtain ⟨refs, heap, φ, D, h1, h2, h3⟩ := hr pre post hid off ho
  refine ⟨refs, heap, φ, fun i => D i ∧ P i, h1, fun i hi => ⟨h2 i hi, hos i hi⟩,
    fun i j hi hj => h3.inj i j hi.1 hj.1, fun i ⟨hi, hp⟩ =>
      ⟨fun j hj => ⟨h3.closed i j hi hj, h.closed i j hp hj⟩, _, h3.node i hi, ?_⟩⟩
  have hh := contracts_hold _ (h.known i hp)
  have hren := hh.ren φ (objs i).v .nil
  simp only [Obj.node]
  rw [show (Parts.nil.rename φ) = .nil from rfl] at hren
  rw [hren]
  refine ⟨?_, rfl⟩
  have hn : (objs i).k.norm (objs i).v = (objs i).v := by
    have r1 := hh.run _ (h.ok i hp) .nil
    rw [hset i hp .nil] at r1
    simpa using r1.symm
  rw [hh.run _ (hh.okmap _ (h.ok i hp) _) _, (C143_stable _ (h.known i hp)).comm _ _
    fun a ha b hb e => h3.inj a b (h3.closed i a hi ha) (h3.closed i b hi hb) e, hn]

/-- A family of objects can always be written, whatever pointers they share. -/
theorem C142_write_ends {objs : Nat → Obj} {P : Nat → Prop} {rank : Nat → Nat}
    (h : Family objs P rank) (os : List (Option Nat)) (hos : ∀ i, some i ∈ os → P i) (w : WBuf)
    (hw : w.WF) : ∃ fuel s', writeAll (fun i => (objs i).node) fuel os ⟨w, [], []⟩ = some s' :=
  C82_write_ends h.good os hos w hw

end Verif.Robj
