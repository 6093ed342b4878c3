import Verif.HepMC.GraphLemmas

/-! # Lemmas: particles are connected to their end vertices, and a whole event is read -/

namespace Verif.HepMC

variable {F G N : Type}

theorem perm_map_exists {α β : Type} {f : α → β} {l l2 : List β} (h : l.Perm l2) :
    ∀ {m : List α}, l2 = m.map f → ∃ m' : List α, m'.Perm m ∧ l = m'.map f := by
  induction h with
  | nil =>
    intro m hm
    exact ⟨m, List.Perm.refl _, hm⟩
  | cons a _ ih =>
    intro m hm
    cases m with
    | nil => cases hm
    | cons b m =>
      rw [List.map_cons, List.cons.injEq] at hm
      obtain ⟨m', h1, h2⟩ := ih hm.2
      exact ⟨b :: m', h1.cons b, by rw [List.map_cons, h2, hm.1]⟩
  | swap a b l =>
    intro m hm
    cases m with
    | nil => cases hm
    | cons c m =>
      cases m with
      | nil => simp at hm
      | cons d m =>
        simp only [List.map_cons, List.cons.injEq] at hm
        exact ⟨d :: c :: m, List.Perm.swap c d m, by simp only [List.map_cons, hm.1, hm.2.1, hm.2.2]⟩
  | trans _ _ ih1 ih2 =>
    intro m hm
    obtain ⟨m2, h1, h2⟩ := ih2 hm
    obtain ⟨m3, h3, h4⟩ := ih1 h2
    exact ⟨m3, h3.trans h1, h4⟩

section
variable (h0 : Heap F G N) (x : Evt F G N) (hb : Heap F G N) (e : Nat) (d : Dec) (xs : Evt F G N)

/-- The state while end vertices are connected: `D` are the particles done, `xs` the event before. -/
structure CInv (h : Heap F G N) (D : List Nat) : Prop where
  nv : h.nv = hb.nv + (vtxOrder h0 x).length
  np : h.np = hb.np + (flat h0 (vtxOrder h0 x)).length
  part : ∀ p ∈ flat h0 (vtxOrder h0 x), h.p (phi h0 x hb.np p) =
    ⟨(readDat h0 p).1, (h0.p p).prod.map (psi h0 x hb.nv), if p ∈ D then (h0.p p).fin.map (psi h0 x hb.nv) else none⟩
  pframe : ∀ i < hb.np, h.p i = hb.p i
  vtx : ∀ v ∈ vtxOrder h0 x, (h.v (psi h0 x hb.nv v)).data = (h0.v v).data ∧
    (h.v (psi h0 x hb.nv v)).pout = (sortBy (fun p => (h0.p p).data.barcode) (h0.v v).pout).map (phi h0 x hb.np) ∧
    (h.v (psi h0 x hb.nv v)).event = some e ∧
    ∃ L : List Nat, L.Perm (D.filter fun p => decide ((h0.p p).fin = some v)) ∧
      (L.Pairwise fun p q => (h0.p p).data.barcode ≤ (h0.p q).data.barcode) ∧
      (h.v (psi h0 x hb.nv v)).pin = L.map (phi h0 x hb.np)
  vframe : ∀ i < hb.nv, h.v i = hb.v i
  evt : ∃ b1 b2, h.e = put hb.e e { xs with beam1 := b1, beam2 := b2 } ∧
    (∀ p ∈ D, (h0.p p).data.barcode = d.bp1 → b1 = some (phi h0 x hb.np p)) ∧
    ((∀ p ∈ D, (h0.p p).data.barcode ≠ d.bp1) → b1 = xs.beam1) ∧
    (∀ p ∈ D, (h0.p p).data.barcode = d.bp2 → b2 = some (phi h0 x hb.np p)) ∧
    ((∀ p ∈ D, (h0.p p).data.barcode ≠ d.bp2) → b2 = xs.beam2)

variable {h0 x hb e d xs}

theorem phi_inj {k p q : Nat} (hp : p ∈ flat h0 (vtxOrder h0 x)) (hq : q ∈ flat h0 (vtxOrder h0 x))
    (h : phi h0 x k p = phi h0 x k q) : p = q := by
  unfold phi at h
  exact idxOf_inj hp hq (by omega)

theorem psi_inj {k v w : Nat} (hv : v ∈ vtxOrder h0 x) (hw : w ∈ vtxOrder h0 x)
    (h : psi h0 x k v = psi h0 x k w) : v = w := by
  unfold psi at h
  exact idxOf_inj hv hw (by omega)

theorem CInv.step (hs : Sound h0 x) (hfl : ∀ p, p ∈ flat h0 (vtxOrder h0 x) ↔ p ∈ evParts x)
    (hV : mlist xs.vertices = ((vtxOrder h0 x).map fun v => ((h0.v v).data.barcode, psi h0 x hb.nv v)).reverse)
    (hP : mlist xs.particles = ((flat h0 (vtxOrder h0 x)).map fun p => ((h0.p p).data.barcode, phi h0 x hb.np p)).reverse)
    {h : Heap F G N} {D : List Nat} {p : Nat} (hi : CInv h0 x hb e d xs h D) (hD : ∀ q ∈ D, q ∈ evParts x)
    (hpD : p ∉ D) (hp : p ∈ evParts x) (hf : (h0.p p).fin.isSome = true) :
    ∃ h', connect1 d h e ((h0.p p).data.barcode, vBc h0 (h0.p p).fin) = .ok h' ∧ CInv h0 x hb e d xs h' (D ++ [p]) := by
  obtain ⟨v, hv⟩ := Option.isSome_iff_exists.mp hf
  have hvv := hs.fin_reg p hp v hv
  have hvo : v ∈ vtxOrder h0 x := mem_vtxOrder.mpr hvv
  have hpo := (hfl p).mpr hp
  obtain ⟨b1, b2, he, k1, k2, k3, k4⟩ := hi.evt
  have gP : mget (mlist (h.e e).particles) (h0.p p).data.barcode = some (phi h0 x hb.np p) := by
    rw [he, put_same]
    show mget (mlist xs.particles) _ = _
    rw [hP]
    apply mget_mem
    · rw [List.map_reverse, (List.reverse_perm _).nodup_iff, List.map_map]
      apply nodup_map_of (hs.flat_nodup _ hs.vl_nodup fun w hw => mem_vtxOrder.mp hw)
      intro a ha b hb hab
      exact hs.pbc_inj ((hfl a).mp ha) ((hfl b).mp hb) hab
    · rw [List.mem_reverse]
      exact List.mem_map_of_mem (f := fun p => ((h0.p p).data.barcode, phi h0 x hb.np p)) hpo
  have gV : mget (mlist (h.e e).vertices) (vBc h0 (h0.p p).fin) = some (psi h0 x hb.nv v) := by
    rw [he, put_same]
    show mget (mlist xs.vertices) _ = _
    rw [hV, hv]
    show mget _ (h0.v v).data.barcode = _
    apply mget_mem
    · rw [List.map_reverse, (List.reverse_perm _).nodup_iff, List.map_map]
      apply nodup_map_of hs.vl_nodup
      intro a ha b hb hab
      exact hs.vbc_inj (mem_vtxOrder.mp ha) (mem_vtxOrder.mp hb) hab
    · rw [List.mem_reverse]
      exact List.mem_map_of_mem (f := fun v => ((h0.v v).data.barcode, psi h0 x hb.nv v)) hvo
  have hpb : ∀ q ∈ flat h0 (vtxOrder h0 x), (h.p (phi h0 x hb.np q)).data.barcode = (h0.p q).data.barcode := by
    intro q hq; rw [hi.part q hq]; rfl
  obtain ⟨vd, vo, ve, L, hL, hLs, hpin⟩ := hi.vtx v hvo
  have hLm : ∀ q ∈ L, q ∈ flat h0 (vtxOrder h0 x) := fun q hq =>
    (hfl q).mpr (hD q (List.mem_filter.mp (hL.mem_iff.mp hq)).1)
  unfold connect1
  dsimp only
  rw [gP, gV]
  refine ⟨_, rfl, ?_⟩
  constructor
  · exact hi.nv
  · exact hi.np
  · intro q hq
    dsimp only
    by_cases hqp : q = p
    · subst hqp
      have hm : q ∈ D ++ [q] := by simp
      rw [put_same, hi.part q hq, if_pos hm, hv]
      rfl
    · rw [put_ne _ _ (fun h => hqp (phi_inj hq hpo h)), hi.part q hq]
      have : (q ∈ D ++ [p]) ↔ q ∈ D := by simp [hqp]
      simp only [this]
  · intro i hlt
    dsimp only
    rw [put_ne _ _ (by unfold phi; omega)]
    exact hi.pframe i hlt
  · intro w hw
    dsimp only
    by_cases hwv : w = v
    · subst hwv
      rw [put_same]
      refine ⟨vd, vo, ve, sortBy (fun p => (h0.p p).data.barcode) (L ++ [p]), ?_, sortBy_sorted _ _, ?_⟩
      · refine (sortBy_perm _ _).trans ?_
        rw [List.filter_append]
        refine hL.append ?_
        simp [hv]
      · dsimp only
        rw [hpin, ← List.map_singleton (f := phi h0 x hb.np), ← List.map_append]
        apply sortBy_map
        intro q hq
        rcases List.mem_append.mp hq with hq | hq
        · exact hpb q (hLm q hq)
        · rw [List.mem_singleton] at hq; subst hq; exact hpb q hpo
    · rw [put_ne _ _ (fun h => hwv (psi_inj hw hvo h))]
      obtain ⟨wd, wo, we, L', hL', hLs', hpin'⟩ := hi.vtx w hw
      refine ⟨wd, wo, we, L', ?_, hLs', hpin'⟩
      rw [List.filter_append]
      have : [p].filter (fun q => decide ((h0.p q).fin = some w)) = [] := by
        rw [List.filter_eq_nil_iff]
        intro q hq
        rw [List.mem_singleton] at hq
        subst hq
        rw [hv]
        simp only [Option.some.injEq, decide_eq_true_eq]
        exact fun h => hwv h.symm
      rw [this, List.append_nil]
      exact hL'
  · intro i hlt
    dsimp only
    rw [put_ne _ _ (by unfold psi; omega)]
    exact hi.vframe i hlt
  · dsimp only
    rw [hpb p hpo, he, put_same, put_put]
    have hinj : ∀ q ∈ D ++ [p], (h0.p q).data.barcode = (h0.p p).data.barcode → q = p := by
      intro q hq hqb
      rcases List.mem_append.mp hq with hq | hq
      · exact hs.pbc_inj (hD q hq) hp hqb
      · exact List.mem_singleton.mp hq
    refine ⟨if (h0.p p).data.barcode = d.bp1 then some (phi h0 x hb.np p) else b1,
      if (h0.p p).data.barcode = d.bp2 then some (phi h0 x hb.np p) else b2, rfl, ?_, ?_, ?_, ?_⟩
    · intro q hq hqb
      by_cases h1 : (h0.p p).data.barcode = d.bp1
      · rw [if_pos h1, hinj q hq (hqb.trans h1.symm)]
      · rw [if_neg h1]
        rcases List.mem_append.mp hq with hq | hq
        · exact k1 q hq hqb
        · rw [List.mem_singleton] at hq; subst hq; exact absurd hqb h1
    · intro hq
      rw [if_neg (hq p (by simp))]
      exact k2 fun q h => hq q (by simp [h])
    · intro q hq hqb
      by_cases h1 : (h0.p p).data.barcode = d.bp2
      · rw [if_pos h1, hinj q hq (hqb.trans h1.symm)]
      · rw [if_neg h1]
        rcases List.mem_append.mp hq with hq | hq
        · exact k3 q hq hqb
        · rw [List.mem_singleton] at hq; subst hq; exact absurd hqb h1
    · intro hq
      rw [if_neg (hq p (by simp))]
      exact k4 fun q h => hq q (by simp [h])

theorem CInv.steps (hs : Sound h0 x) (hfl : ∀ p, p ∈ flat h0 (vtxOrder h0 x) ↔ p ∈ evParts x)
    (hV : mlist xs.vertices = ((vtxOrder h0 x).map fun v => ((h0.v v).data.barcode, psi h0 x hb.nv v)).reverse)
    (hP : mlist xs.particles = ((flat h0 (vtxOrder h0 x)).map fun p => ((h0.p p).data.barcode, phi h0 x hb.np p)).reverse)
    (ps : List Nat) {h : Heap F G N} {D : List Nat} (hi : CInv h0 x hb e d xs h D) (hD : ∀ q ∈ D ++ ps, q ∈ evParts x)
    (hn : (D ++ ps).Nodup) (hf : ∀ p ∈ ps, (h0.p p).fin.isSome = true) :
    ∃ h', connect d e (ps.map fun p => ((h0.p p).data.barcode, vBc h0 (h0.p p).fin)) h = .ok h' ∧
      CInv h0 x hb e d xs h' (D ++ ps) := by
  induction ps generalizing h D with
  | nil => exact ⟨h, rfl, by rw [List.append_nil]; exact hi⟩
  | cons p ps ih =>
    have hpD : p ∉ D := by
      intro hm
      rw [List.nodup_append] at hn
      exact hn.2.2 p hm p (by simp) rfl
    obtain ⟨h1, e1, i1⟩ := hi.step hs hfl hV hP (fun q hq => hD q (by simp [hq])) hpD (hD p (by simp)) (hf p (by simp))
    obtain ⟨h2, e2, i2⟩ := ih i1 (by simpa using hD) (by simpa using hn) fun q hq => hf q (List.mem_cons_of_mem _ hq)
    refine ⟨h2, ?_, by simpa using i2⟩
    rw [List.map_cons]
    show (connect1 d h e _).bind _ = _
    rw [R.bind_ok e1]
    exact e2

end

end Verif.HepMC
