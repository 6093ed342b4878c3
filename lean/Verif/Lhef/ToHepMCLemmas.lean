import Verif.Lhef.ToHepMC
import Verif.HepMC.GraphOps
import Mathlib.Data.List.Nodup

/-!
# The graph built for one Les Houches event
-/

namespace Verif.Lhef2HepMC

open Verif.HepMC
open Verif.Lhef (Run V5 Decoder Notation)

variable {F G N : Type}

/-- The map of particles: barcodes and numbers. -/
def entries (l : List (PData F)) : List (Int × Nat) := l.zipIdx.map fun q => (q.1.barcode, q.2)

theorem entries_append (l : List (PData F)) (d : PData F) : entries (l ++ [d]) = entries l ++ [(d.barcode, l.length)] := by
  simp [entries, List.zipIdx_append]

theorem entries_fst (l : List (PData F)) : (entries l).map Prod.fst = l.map PData.barcode := by
  simp only [entries, List.map_map]
  have : (Prod.fst ∘ fun q : PData F × Nat => (q.1.barcode, q.2)) = PData.barcode ∘ Prod.fst := rfl
  rw [this, ← List.map_map, List.zipIdx_map_fst]

theorem entries_snd (l : List (PData F)) : (entries l).map Prod.snd = List.range l.length := by
  simp only [entries, List.map_map]
  have : (Prod.snd ∘ fun q : PData F × Nat => (q.1.barcode, q.2)) = Prod.snd := rfl
  rw [this, List.zipIdx_map_snd, List.range_eq_range']

theorem mem_entries {l : List (PData F)} {b : Int} {p : Nat} : (b, p) ∈ entries l ↔ ∃ d, l[p]? = some d ∧ d.barcode = b := by
  simp only [entries, List.mem_map, Prod.mk.injEq]
  constructor
  · rintro ⟨⟨d, i⟩, h, rfl, rfl⟩
    exact ⟨d, (List.mem_zipIdx_iff_getElem?.mp h), rfl⟩
  · rintro ⟨d, h, rfl⟩
    exact ⟨(d, p), List.mem_zipIdx_iff_getElem?.mpr h, rfl, rfl⟩

/-- The heap while the event `E` is built: the vertex has the incoming particles `ins` and the outgoing
particles `outs`, and the event knows them all. -/
structure Shape (h : Heap F G N) (E : Evt F G N) (vd : VData F) (ins outs : List (PData F)) : Prop where
  np : h.np = ins.length + outs.length
  v : h.v 0 = ⟨vd, List.range ins.length, (List.range outs.length).map (ins.length + ·), some 0⟩
  pi : ∀ i d, ins[i]? = some d → h.p i = ⟨d, none, some 0⟩
  po : ∀ i d, outs[i]? = some d → h.p (ins.length + i) = ⟨d, some 0, none⟩
  e : ∃ L, h.e 0 = { E with particles := some L } ∧ L.Perm (entries (ins ++ outs))

theorem start_shape (c : Fmt F G N) (e : Evt F G N) (he : e.particles = some []) :
    Shape (start c e) e ⟨-1, 0, c.zero, c.zero, c.zero, c.zero, []⟩ [] [] := by
  refine ⟨rfl, rfl, by simp, by simp, [], ?_, by simp [entries]⟩
  cases e
  simp only at he
  subst he
  rfl

theorem keys_fresh {L : List (Int × Nat)} {l : List (PData F)} (h : L.Perm (entries l)) {b : Int}
    (hb : b ∉ l.map PData.barcode) : b ∉ L.map Prod.fst := by
  rw [(h.map Prod.fst).mem_iff, entries_fst]
  exact hb

theorem putIn_shape {h : Heap F G N} {E : Evt F G N} {vd : VData F} {ins : List (PData F)} (hs : Shape h E vd ins [])
    {d : PData F} (h0 : d.barcode ≠ 0) (hd : d.barcode ∉ ins.map PData.barcode) :
    ∃ h', putIn h d = some h' ∧ Shape h' E vd (ins ++ [d]) [] := by
  obtain ⟨L, hL, hp⟩ := hs.e
  have hv := hs.v
  have hnp : h.np = ins.length := by simpa using hs.np
  rw [List.append_nil] at hp
  refine ⟨_, addIn_eq (newPart h d) 0 0 h.np (by simp [newPart, hv]) (by simp [newPart, hL])
    (by simp [newPart, hv, List.nodup_range]), ?_⟩
  have hbc : nextPBc (newPart h d) 0 h.np = d.barcode := by simp [nextPBc, newPart, put_same, h0]
  have hpn : (newPart h d).p h.np = ⟨d, none, none⟩ := by simp [newPart, put_same]
  constructor
  · simp [newPart, hnp]
  · have he : (List.range ins.length).erase ins.length = List.range ins.length := List.erase_of_not_mem (by simp)
    simp [inList, newPart, hv, hnp, he, List.range_succ]
  · intro i x hx
    simp only
    by_cases hi : i = h.np
    · subst hi
      rw [put_same, hpn, hbc]
      rw [hnp, List.getElem?_append_right (by omega)] at hx
      simp only [Nat.sub_self, List.getElem?_cons_zero, Option.some.injEq] at hx
      subst hx
      rfl
    · rw [put_ne _ _ hi]
      have hlt : i < ins.length := by
        have := (List.getElem?_eq_some_iff.mp hx).1
        simp at this
        omega
      rw [List.getElem?_append_left hlt] at hx
      simp only [newPart, put_ne _ _ hi]
      exact hs.pi i x hx
  · simp
  · refine ⟨mset L d.barcode h.np, ?_, ?_⟩
    · simp only [put_same, partEvt, hpn, h0, if_false, hbc]
      simp only [newPart, hL, mlist, Option.getD_some]
    · rw [mset_new L _ _ (keys_fresh hp hd), List.append_nil, entries_append, hnp]
      exact (List.Perm.cons _ hp).trans (List.perm_append_comm (l₁ := [_]))

theorem putOut_shape {h : Heap F G N} {E : Evt F G N} {vd : VData F} {ins outs : List (PData F)} (hs : Shape h E vd ins outs)
    {d : PData F} (h0 : d.barcode ≠ 0) (hd : d.barcode ∉ (ins ++ outs).map PData.barcode) :
    ∃ h', putOut h d = some h' ∧ Shape h' E vd ins (outs ++ [d]) := by
  obtain ⟨L, hL, hp⟩ := hs.e
  have hv := hs.v
  have hnp := hs.np
  have hnd : ((List.range outs.length).map (ins.length + ·)).Nodup :=
    List.Nodup.map (fun a b h => Nat.add_left_cancel h) List.nodup_range
  refine ⟨_, addOut_eq (newPart h d) 0 0 h.np (by simp [newPart, hv]) (by simp [newPart, hL])
    (by simpa [newPart, hv] using hnd), ?_⟩
  have hbc : nextPBc (newPart h d) 0 h.np = d.barcode := by simp [nextPBc, newPart, put_same, h0]
  have hpn : (newPart h d).p h.np = ⟨d, none, none⟩ := by simp [newPart, put_same]
  constructor
  · simp [newPart, hnp]; omega
  · have he : ((List.range outs.length).map (ins.length + ·)).erase (ins.length + outs.length) =
        (List.range outs.length).map (ins.length + ·) := List.erase_of_not_mem (by simp)
    simp [outList, newPart, hv, hnp, he, List.range_succ]
  · intro i x hx
    have hlt := (List.getElem?_eq_some_iff.mp hx).1
    have hi : i ≠ h.np := by omega
    simp only [newPart, put_ne _ _ hi]
    exact hs.pi i x hx
  · intro i x hx
    simp only
    by_cases hi : i = outs.length
    · subst hi
      rw [← hnp, put_same, hpn, hbc]
      rw [List.getElem?_append_right (by omega)] at hx
      simp only [Nat.sub_self, List.getElem?_cons_zero, Option.some.injEq] at hx
      subst hx
      rfl
    · have hlt : i < outs.length := by
        have := (List.getElem?_eq_some_iff.mp hx).1
        simp at this
        omega
      have hne : ins.length + i ≠ h.np := by omega
      rw [put_ne _ _ hne]
      rw [List.getElem?_append_left hlt] at hx
      simp only [newPart, put_ne _ _ hne]
      exact hs.po i x hx
  · refine ⟨mset L d.barcode h.np, ?_, ?_⟩
    · simp only [put_same, partEvt, hpn, h0, if_false, hbc]
      simp only [newPart, hL, mlist, Option.getD_some]
    · rw [mset_new L _ _ (keys_fresh hp hd), ← List.append_assoc, entries_append, hnp, List.length_append]
      exact (List.Perm.cons _ hp).trans (List.perm_append_comm (l₁ := [_]))

theorem setBeams_shape {h : Heap F G N} {E : Evt F G N} {vd : VData F} {ins outs : List (PData F)} (hs : Shape h E vd ins outs) :
    Shape (setBeams h) { E with beam1 := some 0, beam2 := some 1 } vd ins outs := by
  obtain ⟨L, hL, hp⟩ := hs.e
  refine ⟨hs.np, hs.v, hs.pi, hs.po, L, ?_, hp⟩
  simp only [setBeams, put_same, hL]

/-- Once the vertex is in the event, the graph is consistent. -/
theorem shape_sound {h : Heap F G N} {E : Evt F G N} {vd : VData F} {ins outs : List (PData F)} (hs : Shape h E vd ins outs)
    (hvs : E.vertices = some [(-1, 0)]) (hvb : vd.barcode = -1) (h0 : ∀ d ∈ ins ++ outs, d.barcode ≠ 0)
    (hn : ((ins ++ outs).map PData.barcode).Nodup) : Sound h (h.e 0) := by
  obtain ⟨L, hL, hp⟩ := hs.e
  have hv := hs.v
  have hpart : ∀ p d, (ins ++ outs)[p]? = some d → (h.p p).data = d := by
    intro p d hd
    by_cases hlt : p < ins.length
    · rw [List.getElem?_append_left hlt] at hd
      rw [hs.pi p d hd]
    · rw [List.getElem?_append_right (by omega)] at hd
      have := hs.po _ d hd
      rw [show ins.length + (p - ins.length) = p by omega] at this
      rw [this]
  have hmem : ∀ p, p ∈ evParts (h.e 0) ↔ p < ins.length + outs.length := by
    intro p
    rw [hL]
    simp only [evParts, mlist, Option.getD_some]
    rw [(hp.map Prod.snd).mem_iff, entries_snd]
    simp
  have hfin : ∀ p, p < ins.length + outs.length → ((h.p p).fin = some 0 ↔ p < ins.length) ∧
      ((h.p p).prod = some 0 ↔ ins.length ≤ p) ∧ ((h.p p).fin = none ∨ (h.p p).fin = some 0) ∧
      ((h.p p).prod = none ∨ (h.p p).prod = some 0) := by
    intro p hlt
    by_cases hi : p < ins.length
    · rw [hs.pi p _ (List.getElem?_eq_getElem hi)]
      simp [hi]
    · have := hs.po (p - ins.length) _ (List.getElem?_eq_getElem (by omega))
      rw [show ins.length + (p - ins.length) = p by omega] at this
      rw [this]
      simp [hi]
      omega
  have hev : ∀ v, v ∈ evVerts (h.e 0) ↔ v = 0 := by
    intro v
    rw [hL]
    simp [evVerts, mlist, hvs]
  constructor
  · intro b v hb
    rw [hL] at hb
    simp only [mlist, hvs, Option.getD_some, List.mem_singleton, Prod.mk.injEq] at hb
    rw [hb.2, hv, hb.1, ← hvb]
  · rw [hL]; simp [mlist, hvs]
  · intro v hm
    rw [(hev v).mp hm, hv, hvb]
    decide
  · intro b p hb
    rw [hL] at hb
    simp only [mlist, Option.getD_some] at hb
    obtain ⟨d, h1, h2⟩ := mem_entries.mp (hp.mem_iff.mp hb)
    rw [hpart p d h1, h2]
  · rw [hL]
    simp only [mlist, Option.getD_some]
    rw [(hp.map Prod.fst).nodup_iff, entries_fst]
    exact hn
  · intro p hm
    have hlt := (hmem p).mp hm
    have hg := List.getElem?_eq_getElem (l := ins ++ outs) (i := p) (by simpa using hlt)
    rw [hpart p _ hg]
    exact h0 _ (List.getElem_mem _)
  · intro v hm p
    rw [(hev v).mp hm, hmem, hv]
    simp only [List.mem_range]
    constructor
    · intro hlt; exact ⟨by omega, (hfin p (by omega)).1.mpr hlt⟩
    · rintro ⟨h1, h2⟩; exact (hfin p h1).1.mp h2
  · intro v hm p
    rw [(hev v).mp hm, hmem, hv]
    simp only [List.mem_map, List.mem_range]
    constructor
    · rintro ⟨i, hlt, rfl⟩; exact ⟨by omega, (hfin _ (by omega)).2.1.mpr (by omega)⟩
    · rintro ⟨h1, h2⟩
      have := (hfin p h1).2.1.mp h2
      exact ⟨p - ins.length, by omega, by omega⟩
  · intro v hm
    rw [(hev v).mp hm, hv]
    exact List.nodup_range
  · intro v hm
    rw [(hev v).mp hm, hv]
    exact List.Nodup.map (fun a b h => Nat.add_left_cancel h) List.nodup_range
  · intro p hm v hf
    rcases (hfin p ((hmem p).mp hm)).2.2.1 with h1 | h1
    · rw [h1] at hf; cases hf
    · rw [h1] at hf
      rw [hev]
      exact (Option.some.inj hf).symm
  · intro p hm v hf
    rcases (hfin p ((hmem p).mp hm)).2.2.2 with h1 | h1
    · rw [h1] at hf; cases hf
    · rw [h1] at hf
      rw [hev]
      exact (Option.some.inj hf).symm

/-- `AddVertex` at the end. -/
theorem addVertex_shape {h : Heap F G N} {E : Evt F G N} {vd : VData F} {ins outs : List (PData F)} (hs : Shape h E vd ins outs)
    (hvs : E.vertices = some []) (hvb : vd.barcode = -1) (h0 : ∀ d ∈ ins ++ outs, d.barcode ≠ 0)
    (hn : ((ins ++ outs).map PData.barcode).Nodup) :
    ∃ h', addVertex h 0 0 = some h' ∧ Shape h' { E with vertices := some [(-1, 0)] } vd ins outs := by
  obtain ⟨L, hL, hp⟩ := hs.e
  have hv := hs.v
  have hs1 : Shape { h with v := put h.v 0 { h.v 0 with event := some 0 }, e := put h.e 0 { h.e 0 with vertices := some [(-1, 0)] } }
      { E with vertices := some [(-1, 0)] } vd ins outs := by
    refine ⟨hs.np, ?_, hs.pi, hs.po, L, ?_, hp⟩
    · simp [put_same, hv]
    · simp [put_same, hL]
  have hsd := shape_sound hs1 rfl hvb h0 hn
  have hpin : ∀ p ∈ (h.v 0).pin, p ∈ evParts ({ h.e 0 with vertices := some [(-1, 0)] } : Evt F G N) := by
    intro p hm
    have := (hsd.in_iff 0 (by simp [put_same, evVerts, mlist]) p).mp (by simpa [put_same] using hm)
    simpa [put_same] using this.1
  have hpout : ∀ p ∈ (h.v 0).pout, p ∈ evParts ({ h.e 0 with vertices := some [(-1, 0)] } : Evt F G N) := by
    intro p hm
    have := (hsd.out_iff 0 (by simp [put_same, evVerts, mlist]) p).mp (by simpa [put_same] using hm)
    simpa [put_same] using this.1
  have hre : Reordered { h with v := put h.v 0 { h.v 0 with event := some 0 }, e := put h.e 0 { h.e 0 with vertices := some [(-1, 0)] } }
      { h with v := put h.v 0 { h.v 0 with event := some 0 }, e := put h.e 0 { h.e 0 with vertices := some [(-1, 0)] } } 0 := by
    refine ⟨L, ?_, ?_, ?_⟩
    · simp [put_same, put_put, hL]
    · simp [put_same, hL, mlist]
    · rw [(hp.map Prod.fst).nodup_iff, entries_fst]; exact hn
  obtain ⟨h2, e2, r2⟩ := regIn_reordered (orig := some 0) (Or.inr rfl) hsd (h.v 0).pin
    (fun p hm => by simpa [put_same] using hpin p hm) _ hre
  obtain ⟨h3, e3, r3⟩ := regOut_reordered (orig := some 0) (Or.inr rfl) hsd (h.v 0).pout
    (fun p hm => by simpa [put_same] using hpout p hm) _ r2
  have hv2 : h2.v = put h.v 0 { h.v 0 with event := some 0 } := by
    obtain ⟨m, rfl, -, -⟩ := r2
    rfl
  refine ⟨h3, ?_, ?_⟩
  · have hb : vd.barcode ≠ 0 := by rw [hvb]; decide
    have hbc : (h.v 0).data.barcode = -1 := by rw [hv, hvb]
    have hvn : (h.e 0).vertices = some [] := by rw [hL]; exact hvs
    have hevn : (h.v 0).event = some 0 := by rw [hv]
    have hneg : ¬ ((-1 : Int) = 0) := by decide
    simp only [addVertex, giveVBc, put_same, hbc, hneg, if_false, hvn, Option.bind_some, hevn, if_true, mset, List.filter_nil, e2, hv2]
    exact e3
  · obtain ⟨m, rfl, hm1, hm2⟩ := r3
    refine ⟨hs.np, hs1.v, hs.pi, hs.po, m, ?_, ?_⟩
    · simp [put_same, hL]
    · have hLn : (L.map Prod.fst).Nodup := by rw [(hp.map Prod.fst).nodup_iff, entries_fst]; exact hn
      refine List.Perm.trans ?_ hp
      refine (List.perm_ext_iff_of_nodup (List.Nodup.of_map _ hm2) (List.Nodup.of_map _ hLn)).mpr fun q => ?_
      rw [hm1 q]
      simp [put_same, hL, mlist]

end Verif.Lhef2HepMC
