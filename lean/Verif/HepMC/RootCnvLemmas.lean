import Verif.HepMC.RootCnv
import Verif.HepMC.GraphOps
import Verif.HepMC.TextLemmas

/-!
# Lemmas on flattening events
-/

namespace Verif.HepMC.Root

open Verif.HepMC

variable {F G N : Type} [DecidableEq N]

/-- A number that an `int32` can hold. -/
def Small (x : Int) : Prop := -2147483648 ≤ x ∧ x < 2147483648

instance (x : Int) : Decidable (Small x) := by unfold Small; infer_instance

theorem i32_small {x : Int} (h : Small x) : i32 x = x := by
  unfold Small at h
  unfold i32
  rw [Int.bmod_eq_iff (by decide)]
  refine ⟨by omega, by omega, by simp⟩

theorem toMap_perm {κ ν : Type} [DecidableEq κ] (l : List (κ × ν)) (h : (l.map Prod.fst).Nodup) : (toMap l).Perm l := by
  unfold toMap
  rw [foldl_mset _ _ (by simpa using h)]
  simp

theorem pairs_flat (l : List (Int × Int)) : pairs (l.flatMap fun q => [i32 q.1, i32 q.2]) = some (l.map fun q => (i32 q.1, i32 q.2)) := by
  induction l with
  | nil => rfl
  | cons q l ih => simp [pairs, ih]

theorem map_small (l : List (Int × Int)) (h : ∀ q ∈ l, Small q.1 ∧ Small q.2) : (l.map fun q => (i32 q.1, i32 q.2)) = l := by
  conv => rhs; rw [← List.map_id l]
  apply List.map_congr_left
  intro q hq
  rw [i32_small (h q hq).1, i32_small (h q hq).2]
  rfl

/-! ## Particles -/

omit [DecidableEq N] in
/-- Making the particles of rows: they are numbered in their order. -/
theorem addParts_spec (e : Nat) (mk : Nat → PRow F) (fl : Nat → List (Int × Int)) (ps : List Nat)
    (hfl : ∀ p ∈ ps, pairs (mk p).flow = some (fl p)) (hn : (ps.map fun p => (mk p).bc).Nodup) (φ : Nat → Nat) (m : Mem F G N)
    (hφ : ∀ i (h : i < ps.length), φ ps[i] = m.heap.np + i) (L : List (Int × Nat)) (hL : (m.heap.e e).particles = some L)
    (hLn : (L.map Prod.fst).Nodup) (hd : ∀ p ∈ ps, (mk p).bc ∉ L.map Prod.fst) :
    ∃ m' L', addParts e (ps.map mk) m = some m' ∧ m'.heap.np = m.heap.np + ps.length ∧ m'.heap.nv = m.heap.nv ∧
      m'.heap.v = m.heap.v ∧ m'.vmap = m.vmap ∧ m'.heap.e = put m.heap.e e { m.heap.e e with particles := some L' } ∧
      (L'.map Prod.fst).Nodup ∧ (∀ q, q ∈ L' ↔ q ∈ L ∨ ∃ p ∈ ps, q = ((mk p).bc, φ p)) ∧
      (∀ p ∈ ps, m'.heap.p (φ p) = newPart (mk p) (fl p)) ∧ ∀ j, j < m.heap.np → m'.heap.p j = m.heap.p j := by
  induction ps generalizing m L with
  | nil =>
    refine ⟨m, L, rfl, by simp, rfl, rfl, rfl, ?_, hLn, by simp, by simp, fun _ _ => rfl⟩
    funext j
    by_cases hj : j = e
    · subst hj; simp [put, ← hL]
    · simp [put, hj]
  | cons a l ih =>
    simp only [List.map_cons, List.nodup_cons] at hn
    have ha : φ a = m.heap.np := hφ 0 (by simp)
    have hpe : ((addPart e m (mk a) (fl a)).heap.e e) =
        { m.heap.e e with particles := some (mset L (mk a).bc m.heap.np) } := by
      simp [addPart, put, hL, mlist]
    obtain ⟨m', L', h1, h2, h3, h4, h5, h6, h7, h8, h9, h10⟩ := ih (fun p hp => hfl p (List.mem_cons_of_mem _ hp)) hn.2
      (addPart e m (mk a) (fl a)) (by
        intro i hi
        have := hφ (i + 1) (by simpa using hi)
        simp only [List.getElem_cons_succ] at this
        rw [this]
        simp only [addPart]
        omega) (mset L (mk a).bc m.heap.np) (by rw [hpe]) (mset_nodup _ _ _ hLn) (by
        intro p hp
        rw [mset_new _ _ _ (hd a (by simp))]
        simp only [List.map_cons, List.mem_cons, not_or]
        refine ⟨?_, hd p (List.mem_cons_of_mem _ hp)⟩
        intro hc
        exact hn.1 (hc ▸ List.mem_map.mpr ⟨p, hp, rfl⟩))
    refine ⟨m', L', ?_, ?_, h3, h4, h5, ?_, h7, ?_, ?_, ?_⟩
    · rw [List.map_cons, addParts, hfl a (by simp)]
      exact h1
    · rw [h2]; simp only [addPart, List.length_cons]; omega
    · rw [h6, hpe]
      funext j
      by_cases hj : j = e
      · subst hj; simp [put]
      · simp [put, hj, addPart]
    · intro q
      rw [h8, mset_new _ _ _ (hd a (by simp))]
      simp only [List.mem_cons, exists_eq_or_imp, ha]
      constructor
      · rintro ((h | h) | h)
        · exact Or.inr (Or.inl h)
        · exact Or.inl h
        · exact Or.inr (Or.inr h)
      · rintro (h | h | h)
        · exact Or.inl (Or.inr h)
        · exact Or.inl (Or.inl h)
        · exact Or.inr h
    · intro p hp
      rcases List.mem_cons.mp hp with rfl | hp
      · rw [ha, h10 _ (by simp [addPart])]
        simp [addPart, put]
      · exact h9 p hp
    · intro j hj
      rw [h10 j (by simp only [addPart]; omega)]
      simp only [addPart]
      rw [put_ne]
      omega

/-! ## Links -/

omit [DecidableEq N] in
theorem linkIn_spec (e v : Nat) (bc : Nat → Int) (φ : Nat → Nat) (l : List Nat) (m : Mem F G N)
    (h : ∀ p ∈ l, mget (mlist (m.heap.e e).particles) (bc p) = some (φ p)) :
    linkIn e v (l.map bc) m = some
      ({ m with heap := { m.heap with p := fun j => if j ∈ l.map φ then { m.heap.p j with fin := some v } else m.heap.p j } },
        l.map φ) := by
  induction l generalizing m with
  | nil => simp [linkIn]
  | cons a l ih =>
    rw [List.map_cons, linkIn, h a (by simp)]
    simp only
    rw [ih]
    · simp only [Option.map_some, List.map_cons, Option.some.injEq, Prod.mk.injEq, and_true, Mem.mk.injEq, Heap.mk.injEq, true_and]
      funext j
      by_cases h1 : j = φ a
      · subst h1; by_cases h2 : φ a ∈ l.map φ <;> simp [put, h2]
      · by_cases h2 : j ∈ l.map φ <;> simp [put, h2, h1]
    · intro p hp
      exact h p (List.mem_cons_of_mem _ hp)

omit [DecidableEq N] in
theorem linkOut_spec (e v : Nat) (bc : Nat → Int) (φ : Nat → Nat) (l : List Nat) (m : Mem F G N)
    (h : ∀ p ∈ l, mget (mlist (m.heap.e e).particles) (bc p) = some (φ p)) :
    linkOut e v (l.map bc) m = some
      ({ m with heap := { m.heap with p := fun j => if j ∈ l.map φ then { m.heap.p j with prod := some v } else m.heap.p j } },
        l.map φ) := by
  induction l generalizing m with
  | nil => simp [linkOut]
  | cons a l ih =>
    rw [List.map_cons, linkOut, h a (by simp)]
    simp only
    rw [ih]
    · simp only [Option.map_some, List.map_cons, Option.some.injEq, Prod.mk.injEq, and_true, Mem.mk.injEq, Heap.mk.injEq, true_and]
      funext j
      by_cases h1 : j = φ a
      · subst h1; by_cases h2 : φ a ∈ l.map φ <;> simp [put, h2]
      · by_cases h2 : j ∈ l.map φ <;> simp [put, h2, h1]
    · intro p hp
      exact h p (List.mem_cons_of_mem _ hp)

/-! ## Vertices -/

/-- Making the vertices of rows: they are numbered in their order, and particles point to them. -/
theorem addVerts_spec (e : Nat) (mk : Nat → VRow F N) (pin pout : Nat → List Nat) (bc : Nat → Int) (fin prod : Nat → Option Nat)
    (φ ψ : Nat → Nat) (ps vs : List Nat) (hinj : ∀ p ∈ ps, ∀ q ∈ ps, φ p = φ q → p = q)
    (hni : ∀ v ∈ vs, (mk v).nin = (pin v).length) (hno : ∀ v ∈ vs, (mk v).nout = (pout v).length)
    (hpi : ∀ v ∈ vs, ∀ p, p ∈ pin v ↔ p ∈ ps ∧ fin p = some v) (hpo : ∀ v ∈ vs, ∀ p, p ∈ pout v ↔ p ∈ ps ∧ prod p = some v)
    (hn : (vs.map fun v => (mk v).bc).Nodup) (m : Mem F G N)
    (hψ : ∀ i (h : i < vs.length), ψ vs[i] = m.heap.nv + i)
    (hg : ∀ p ∈ ps, mget (mlist (m.heap.e e).particles) (bc p) = some (φ p))
    (L : List (Int × Nat)) (hL : (m.heap.e e).vertices = some L)
    (hLn : (L.map Prod.fst).Nodup) (hd : ∀ v ∈ vs, (mk v).bc ∉ L.map Prod.fst) :
    ∃ m' L', addVerts e (vs.map mk) (vs.flatMap fun v => (pin v).map bc) (vs.flatMap fun v => (pout v).map bc) m = some m' ∧
      m'.heap.nv = m.heap.nv + vs.length ∧ m'.heap.np = m.heap.np ∧
      m'.heap.e = put m.heap.e e { m.heap.e e with vertices := some L' } ∧
      (L'.map Prod.fst).Nodup ∧ (∀ q, q ∈ L' ↔ q ∈ L ∨ ∃ v ∈ vs, q = ((mk v).bc, ψ v)) ∧
      (∀ v ∈ vs, m'.heap.v (ψ v) =
        ⟨⟨(mk v).bc, (mk v).id, (mk v).x, (mk v).y, (mk v).z, (mk v).t, (mk v).wsli⟩, (pin v).map φ, (pout v).map φ, some e⟩) ∧
      (∀ v ∈ vs, m'.vmap (ψ v) = toMap (mk v).wmap) ∧
      (∀ j, j < m.heap.nv → m'.heap.v j = m.heap.v j ∧ m'.vmap j = m.vmap j) ∧
      (∀ p ∈ ps, (m'.heap.p (φ p)).data = (m.heap.p (φ p)).data) ∧
      (∀ p ∈ ps, ∀ v ∈ vs, fin p = some v → (m'.heap.p (φ p)).fin = some (ψ v)) ∧
      (∀ p ∈ ps, ∀ v ∈ vs, prod p = some v → (m'.heap.p (φ p)).prod = some (ψ v)) ∧
      (∀ p ∈ ps, (∀ v ∈ vs, fin p ≠ some v) → (m'.heap.p (φ p)).fin = (m.heap.p (φ p)).fin) ∧
      (∀ p ∈ ps, (∀ v ∈ vs, prod p ≠ some v) → (m'.heap.p (φ p)).prod = (m.heap.p (φ p)).prod) ∧
      ∀ j, j ∉ ps.map φ → m'.heap.p j = m.heap.p j := by
  induction vs generalizing m L with
  | nil =>
    refine ⟨m, L, rfl, by simp, rfl, ?_, hLn, by simp, by simp, by simp, fun _ _ => ⟨rfl, rfl⟩, by simp, by simp, by simp, by simp, by simp,
      fun _ _ => rfl⟩
    funext j
    by_cases hj : j = e
    · subst hj; simp [put, ← hL]
    · simp [put, hj]
  | cons a l ih =>
    simp only [List.map_cons, List.nodup_cons] at hn
    have ha : ψ a = m.heap.nv := hψ 0 (by simp)
    have hal : a ∉ l := fun h => hn.1 (List.mem_map.mpr ⟨a, h, rfl⟩)
    have hmi := fun p (hp : p ∈ pin a) => hg p ((hpi a (by simp) p).mp hp).1
    have hmo := fun p (hp : p ∈ pout a) => hg p ((hpo a (by simp) p).mp hp).1
    -- the memory after the links
    let m1 : Mem F G N :=
      { m with heap := { m.heap with
          p := fun j => if j ∈ (pin a).map φ then { m.heap.p j with fin := some m.heap.nv } else m.heap.p j } }
    let m2 : Mem F G N :=
      { m1 with heap := { m1.heap with
          p := fun j => if j ∈ (pout a).map φ then { m1.heap.p j with prod := some m.heap.nv } else m1.heap.p j } }
    have e1 : linkIn e m.heap.nv ((pin a).map bc) m = some (m1, (pin a).map φ) := linkIn_spec e _ bc φ _ m hmi
    have e2 : linkOut e m.heap.nv ((pout a).map bc) m1 = some (m2, (pout a).map φ) := linkOut_spec e _ bc φ _ m1 hmo
    let m3 := putVtx e m2 (mk a) ((pin a).map φ) ((pout a).map φ)
    have hve : m3.heap.e e = { m.heap.e e with vertices := some (mset L (mk a).bc m.heap.nv) } := by
      simp [m3, m2, m1, putVtx, put, hL, mlist]
    have hinIff : ∀ p ∈ ps, (φ p ∈ (pin a).map φ ↔ fin p = some a) := by
      intro p hp
      rw [List.mem_map]
      constructor
      · rintro ⟨q, hq, hqe⟩
        have hq' := (hpi a (by simp) q).mp hq
        rw [← hinj q hq'.1 p hp hqe]
        exact hq'.2
      · intro h
        exact ⟨p, (hpi a (by simp) p).mpr ⟨hp, h⟩, rfl⟩
    have houtIff : ∀ p ∈ ps, (φ p ∈ (pout a).map φ ↔ prod p = some a) := by
      intro p hp
      rw [List.mem_map]
      constructor
      · rintro ⟨q, hq, hqe⟩
        have hq' := (hpo a (by simp) q).mp hq
        rw [← hinj q hq'.1 p hp hqe]
        exact hq'.2
      · intro h
        exact ⟨p, (hpo a (by simp) p).mpr ⟨hp, h⟩, rfl⟩
    have h3d : ∀ j, (m3.heap.p j).data = (m.heap.p j).data := by
      intro j
      by_cases h1 : j ∈ (pin a).map φ <;> by_cases h2 : j ∈ (pout a).map φ <;> simp only [m3, m2, m1, putVtx, h1, h2, if_true, if_false]
    have h3f : ∀ j, (m3.heap.p j).fin = if j ∈ (pin a).map φ then some m.heap.nv else (m.heap.p j).fin := by
      intro j
      by_cases h1 : j ∈ (pin a).map φ <;> by_cases h2 : j ∈ (pout a).map φ <;> simp only [m3, m2, m1, putVtx, h1, h2, if_true, if_false]
    have h3p : ∀ j, (m3.heap.p j).prod = if j ∈ (pout a).map φ then some m.heap.nv else (m.heap.p j).prod := by
      intro j
      by_cases h1 : j ∈ (pin a).map φ <;> by_cases h2 : j ∈ (pout a).map φ <;> simp only [m3, m2, m1, putVtx, h1, h2, if_true, if_false]
    obtain ⟨m', L', h1, h2, h3, h4, h5, h6, h7, h8, h9, h10, h11, h12, h13, h14, h15⟩ := ih
      (fun v hv => hni v (List.mem_cons_of_mem _ hv)) (fun v hv => hno v (List.mem_cons_of_mem _ hv))
      (fun v hv => hpi v (List.mem_cons_of_mem _ hv)) (fun v hv => hpo v (List.mem_cons_of_mem _ hv)) hn.2 m3 (by
        intro i hi
        have := hψ (i + 1) (by simpa using hi)
        simp only [List.getElem_cons_succ] at this
        rw [this]
        simp only [m3, m2, m1, putVtx]
        omega) (by
        intro p hp
        rw [hve]
        exact hg p hp) (mset L (mk a).bc m.heap.nv) (by rw [hve]) (mset_nodup _ _ _ hLn) (by
        intro p hp
        rw [mset_new _ _ _ (hd a (by simp))]
        simp only [List.map_cons, List.mem_cons, not_or]
        refine ⟨?_, hd p (List.mem_cons_of_mem _ hp)⟩
        intro hc
        exact hn.1 (hc ▸ List.mem_map.mpr ⟨p, hp, rfl⟩))
    have hnv3 : m3.heap.nv = m.heap.nv + 1 := rfl
    refine ⟨m', L', ?_, ?_, h3, ?_, h5, ?_, ?_, ?_, ?_, ?_, ?_, ?_, ?_, ?_, ?_⟩
    · rw [List.map_cons, addVerts, hni a (by simp), hno a (by simp)]
      rw [if_neg (by omega), if_neg (by simp)]
      have t1 : ((a :: l).flatMap fun v => (pin v).map bc).take (((pin a).length : Int).toNat) = (pin a).map bc := by simp
      have t2 : ((a :: l).flatMap fun v => (pout v).map bc).take (((pout a).length : Int).toNat) = (pout a).map bc := by simp
      have t3 : ((a :: l).flatMap fun v => (pin v).map bc).drop (((pin a).length : Int).toNat) = l.flatMap fun v => (pin v).map bc := by
        simp
      have t4 : ((a :: l).flatMap fun v => (pout v).map bc).drop (((pout a).length : Int).toNat) = l.flatMap fun v => (pout v).map bc := by
        simp
      rw [t1, t2, t3, t4, e1]
      simp only [Option.bind_some]
      rw [e2]
      exact h1
    · rw [h2, hnv3, List.length_cons]; omega
    · rw [h4, hve]
      funext j
      by_cases hj : j = e
      · subst hj; simp [put]
      · simp [put, hj, m3, m2, m1, putVtx]
    · intro q
      rw [h6, mset_new _ _ _ (hd a (by simp))]
      simp only [List.mem_cons, exists_eq_or_imp, ha]
      constructor
      · rintro ((h | h) | h)
        · exact Or.inr (Or.inl h)
        · exact Or.inl h
        · exact Or.inr (Or.inr h)
      · rintro (h | h | h)
        · exact Or.inl (Or.inr h)
        · exact Or.inl (Or.inl h)
        · exact Or.inr h
    · intro v hv
      rcases List.mem_cons.mp hv with rfl | hv
      · rw [ha, (h9 _ (by omega)).1]
        simp [m3, m2, m1, putVtx, put]
      · exact h7 v hv
    · intro v hv
      rcases List.mem_cons.mp hv with rfl | hv
      · rw [ha, (h9 _ (by omega)).2]
        simp [m3, m2, m1, putVtx, put]
      · exact h8 v hv
    · intro j hj
      rw [(h9 j (by omega)).1, (h9 j (by omega)).2]
      simp only [m3, m2, m1, putVtx]
      rw [put_ne _ _ (by omega), put_ne _ _ (by omega)]
      exact ⟨rfl, rfl⟩
    · intro p hp
      rw [h10 p hp, h3d]
    · intro p hp v hv hf
      rcases List.mem_cons.mp hv with rfl | hv
      · rw [h13 p hp (by
          intro w hw hfw
          rw [hf] at hfw
          cases hfw
          exact hal hw), h3f, if_pos ((hinIff p hp).mpr hf), ha]
      · exact h11 p hp v hv hf
    · intro p hp v hv hf
      rcases List.mem_cons.mp hv with rfl | hv
      · rw [h14 p hp (by
          intro w hw hfw
          rw [hf] at hfw
          cases hfw
          exact hal hw), h3p, if_pos ((houtIff p hp).mpr hf), ha]
      · exact h12 p hp v hv hf
    · intro p hp hf
      rw [h13 p hp (fun v hv => hf v (List.mem_cons_of_mem _ hv)), h3f, if_neg]
      rw [hinIff p hp]
      exact hf a (by simp)
    · intro p hp hf
      rw [h14 p hp (fun v hv => hf v (List.mem_cons_of_mem _ hv)), h3p, if_neg]
      rw [houtIff p hp]
      exact hf a (by simp)
    · intro j hj
      rw [h15 j hj]
      have k1 : j ∉ (pin a).map φ := by
        intro h
        obtain ⟨q, hq, rfl⟩ := List.mem_map.mp h
        exact hj (List.mem_map.mpr ⟨q, ((hpi a (by simp) q).mp hq).1, rfl⟩)
      have k2 : j ∉ (pout a).map φ := by
        intro h
        obtain ⟨q, hq, rfl⟩ := List.mem_map.mp h
        exact hj (List.mem_map.mpr ⟨q, ((hpo a (by simp) q).mp hq).1, rfl⟩)
      simp only [m3, m2, m1, putVtx, k1, k2, if_false]

end Verif.HepMC.Root
