import Verif.Lhef.ToHepMCLemmas
import Verif.Lhef.File
import Verif.HepMC.Props
import Verif.HepMC.Examples

/-!
# From LHEF files to HepMC files: what a reader of the output finds (C140)
-/

namespace Verif.Lhef2HepMC

open Verif.HepMC
open Verif.Lhef (Run V5 Decoder Notation)

variable {F G N : Type}

/-! ## Specification -/

/-- The particles of a Les Houches event that go into the HepMC event: those of the final state, all of them with
`-keep-all`; their barcodes tell their places in the Les Houches event. -/
def wanted (zero : F) (keep : Bool) (e : Lhef.Event F) : List (PData F) :=
  ((e.istup.zip (e.idup.zip e.pup)).zipIdx.filter fun q => keep || q.1.1 == 1#32).map fun q =>
    { barcode := 3 + (q.2 : Int), pdg := q.1.2.1.toInt, px := q.1.2.2.1, py := q.1.2.2.2.1, pz := q.1.2.2.2.2.1
      en := q.1.2.2.2.2.2.1, mass := q.1.2.2.2.2.2.2, status := q.1.1.toInt, theta := zero, phi := zero, flow := [] }

/-- Event `k` of the heap is the Les Houches event `e`, number `ievt` of its file, with cross section `x`: one
vertex, the two beams going in, the particles wanted coming out, nothing else. -/
structure Is (zero : F) (n0 : N) (keep : Bool) (r : Run F) (ievt : Nat) (e : Lhef.Event F) (x : CrossSection F)
    (h : Heap F G N) (k : Nat) : Prop where
  number : (h.e k).number = ievt + 1
  mu : (h.e k).mu = .gev
  lu : (h.e k).lu = .mm
  weights : (h.e k).weights.getD [] = [e.xwgtup]
  wmap : (h.e k).wmap = [(n0, 0)]
  cross : (h.e k).cross = some x
  graph : ∃ v a b, mlist (h.e k).vertices = [(-1, v)] ∧ (h.v v).event = some k ∧
    (h.e k).beam1 = some a ∧ (h.e k).beam2 = some b ∧ (h.v v).pin.Perm [a, b] ∧
    (h.p a).data = ⟨1, r.idbmup.1.toInt, zero, zero, r.ebmup.1, r.ebmup.1, zero, 4, zero, zero, []⟩ ∧
    (h.p b).data = ⟨2, r.idbmup.2.toInt, zero, zero, r.ebmup.2, r.ebmup.2, zero, 4, zero, zero, []⟩ ∧
    ((h.v v).pout.map fun p => (h.p p).data).Perm (wanted zero keep e) ∧
    (evParts (h.e k)).Perm ((h.v v).pin ++ (h.v v).pout)

/-- The slices of the event have `NUP` elements, as those of every event read from a file have. -/
def Full (e : Lhef.Event F) : Prop :=
  (e.idup.length : Int) = e.nup.toInt ∧ (e.istup.length : Int) = e.nup.toInt ∧ (e.pup.length : Int) = e.nup.toInt

/-! ## One event -/

theorem wanted_barcode {zero : F} {keep : Bool} {e : Lhef.Event F} : ∀ d ∈ wanted zero keep e, 3 ≤ d.barcode := by
  intro d hd
  simp only [wanted, List.mem_map] at hd
  obtain ⟨q, -, rfl⟩ := hd
  simp only
  omega

/-- The particles from place `i` on. -/
def tailOf (zero : F) (keep : Bool) (T : List (BitVec 32 × BitVec 64 × V5 F)) (i : Nat) : List (PData F) :=
  (((T.drop i).zipIdx i).filter fun q => keep || q.1.1 == 1#32).map fun q =>
    { barcode := 3 + (q.2 : Int), pdg := q.1.2.1.toInt, px := q.1.2.2.1, py := q.1.2.2.2.1, pz := q.1.2.2.2.2.1
      en := q.1.2.2.2.2.2.1, mass := q.1.2.2.2.2.2.2, status := q.1.1.toInt, theta := zero, phi := zero, flow := [] }

theorem tailOf_cons {zero : F} {keep : Bool} {T : List (BitVec 32 × BitVec 64 × V5 F)} {i : Nat} {t : BitVec 32 × BitVec 64 × V5 F}
    (h : T[i]? = some t) : tailOf zero keep T i =
      (if keep || t.1 == 1#32 then [⟨3 + (i : Int), t.2.1.toInt, t.2.2.1, t.2.2.2.1, t.2.2.2.2.1, t.2.2.2.2.2.1, t.2.2.2.2.2.2,
        t.1.toInt, zero, zero, []⟩] else []) ++ tailOf zero keep T (i + 1) := by
  obtain ⟨hi, rfl⟩ := List.getElem?_eq_some_iff.mp h
  simp only [tailOf, List.drop_eq_getElem_cons hi, List.zipIdx_cons, List.filter_cons]
  split <;> simp

theorem turns_shape (c : Fmt F G N) (keep : Bool) (e : Lhef.Event F) {E : Evt F G N} {vd : VData F} {ins : List (PData F)}
    (hin : ∀ d ∈ ins, d.barcode < 3) :
    ∀ (k i : Nat) (h : Heap F G N) (m : Nat) (outs : List (PData F)), i + k = e.istup.length → e.idup.length = e.istup.length →
      e.pup.length = e.istup.length → Shape h E vd ins outs → (∀ d ∈ outs, d.barcode < 3 + (i : Int)) →
      ∃ h', turns c keep e i k (h, m) = some (h', m + (tailOf c.zero keep (e.istup.zip (e.idup.zip e.pup)) i).length) ∧
        Shape h' E vd ins (outs ++ tailOf c.zero keep (e.istup.zip (e.idup.zip e.pup)) i) := by
  intro k
  induction k with
  | zero =>
    intro i h m outs hk h1 h2 hs hb
    have : tailOf c.zero keep (e.istup.zip (e.idup.zip e.pup)) i = [] := by
      simp only [tailOf]
      rw [List.drop_eq_nil_of_le (by simp; omega)]
      rfl
    rw [this]
    exact ⟨h, rfl, by simpa using hs⟩
  | succ k ih =>
    intro i h m outs hk h1 h2 hs hb
    have l1 : i < e.istup.length := by omega
    have l2 : i < e.idup.length := by omega
    have l3 : i < e.pup.length := by omega
    have hT : (e.istup.zip (e.idup.zip e.pup))[i]? = some (e.istup[i], e.idup[i], e.pup[i]) := by
      rw [List.getElem?_zip_eq_some]
      simp [List.getElem?_zip_eq_some, l1, l2, l3]
    rw [tailOf_cons hT]
    simp only [turns, turn, List.getElem?_eq_getElem l1, List.getElem?_eq_getElem l2, List.getElem?_eq_getElem l3]
    by_cases hk1 : keep || e.istup[i] == 1#32
    · have hn : (!keep && e.istup[i] != 1) = false := by
        cases keep
        · simpa using hk1
        · rfl
      simp only [hn, hk1, if_true, Bool.false_eq_true, if_false]
      obtain ⟨h', e', s'⟩ := putOut_shape hs (d := outPart c i e.istup[i] e.idup[i] e.pup[i])
        (by simp only [outPart]; omega)
        (by
          intro hm
          obtain ⟨d, hd, hbc⟩ := List.mem_map.mp hm
          have hbc : d.barcode = 3 + (i : Int) := hbc
          rcases List.mem_append.mp hd with hd | hd
          · have := hin d hd; omega
          · have := hb d hd; omega)
      rw [e', Option.map_some, Option.bind_some]
      obtain ⟨h2', e2, s2⟩ := ih (i + 1) h' (m + 1) _ (by omega) h1 h2 s' (by
        intro d hd
        rcases List.mem_append.mp hd with hd | hd
        · have := hb d hd; push_cast; omega
        · rw [List.mem_singleton.mp hd]; simp only [outPart]; push_cast; omega)
      refine ⟨h2', ?_, ?_⟩
      · rw [e2]
        simp only [List.length_append, List.length_singleton]
        congr 2
        omega
      · rw [← List.append_assoc]
        exact s2
    · have hn : (!keep && e.istup[i] != 1) = true := by
        cases keep
        · simpa using hk1
        · simp at hk1
      simp only [hn, hk1, if_true, Bool.false_eq_true, if_false, Option.bind_some, List.nil_append]
      exact ih (i + 1) h m outs (by omega) h1 h2 hs (fun d hd => by have := hb d hd; push_cast; omega)

theorem wanted_nodup {zero : F} {keep : Bool} {e : Lhef.Event F} : ((wanted zero keep e).map PData.barcode).Nodup := by
  simp only [wanted, List.map_map]
  have hn : (((e.istup.zip (e.idup.zip e.pup)).zipIdx.filter fun q => keep || q.1.1 == 1#32).map Prod.snd).Nodup := by
    refine List.Nodup.sublist (List.Sublist.map Prod.snd List.filter_sublist) ?_
    rw [List.zipIdx_map_snd]
    exact List.nodup_range'
  have := List.Nodup.map (f := fun i : Nat => 3 + (i : Int)) (fun a b h => by simp only at h; omega) hn
  rw [List.map_map] at this
  exact this

/-- **C140.** Every event read from a file whose run has a cross section is converted; the HepMC event is
consistent and can be written, and is the Les Houches event. -/
theorem C140_convert (c : Fmt F G N) {n0 : N} (hq : (32 : UInt8) ∉ c.q n0) (ar : Ar F) (keep : Bool) (r : Run F) (ievt : Nat)
    (s s' : Acc F) (e : Lhef.Event F) (he : Full e) (x : CrossSection F) (hx : cross ar r s e.xwgtup = .ok (x, s')) :
    ∃ h, convert c n0 ar keep r ievt s e = .ok (h, s') ∧ Writable c h (h.e 0) ∧ Is c.zero n0 keep r ievt e x h 0 := by
  obtain ⟨l1, l2, l3⟩ := he
  have s0 := start_shape c (bare c n0 ievt e.xwgtup x) rfl
  obtain ⟨h1, e1, s1⟩ := putIn_shape s0 (d := beam c r.ebmup.1 r.idbmup.1 1) (by simp [beam]) (by simp)
  obtain ⟨h2, e2, s2⟩ := putIn_shape s1 (d := beam c r.ebmup.2 r.idbmup.2 2) (by simp [beam]) (by simp [beam])
  have s3 := setBeams_shape s2
  obtain ⟨h4, e4, s4⟩ := turns_shape c keep e (by
      intro d hd
      simp only [List.nil_append, List.cons_append, List.mem_cons, List.not_mem_nil, or_false] at hd
      rcases hd with rfl | rfl <;> simp [beam])
    e.istup.length 0 (setBeams h2) 2 [] (by omega) (by omega) (by omega) s3 (by simp)
  have hw : tailOf c.zero keep (e.istup.zip (e.idup.zip e.pup)) 0 = wanted c.zero keep e := rfl
  rw [hw] at e4 s4
  simp only [List.nil_append, List.cons_append] at s4
  have hb0 : ∀ d ∈ [beam c r.ebmup.1 r.idbmup.1 1, beam c r.ebmup.2 r.idbmup.2 2] ++ wanted c.zero keep e, d.barcode ≠ 0 := by
    intro d hd
    simp only [List.cons_append, List.nil_append, List.mem_cons] at hd
    rcases hd with rfl | rfl | hd
    · simp [beam]
    · simp [beam]
    · have := wanted_barcode d hd; omega
  have hnd : (([beam c r.ebmup.1 r.idbmup.1 1, beam c r.ebmup.2 r.idbmup.2 2] ++ wanted c.zero keep e).map PData.barcode).Nodup := by
    simp only [List.cons_append, List.nil_append, List.map_cons, List.nodup_cons, List.mem_cons, List.mem_map, not_or, not_exists,
      not_and]
    refine ⟨⟨by simp [beam], ?_⟩, ?_, wanted_nodup⟩
    · intro d hd hb
      have := wanted_barcode d hd
      simp only [beam] at hb
      omega
    · intro d hd hb
      have := wanted_barcode d hd
      simp only [beam] at hb
      omega
  obtain ⟨h5, e5, s5⟩ := addVertex_shape s4 rfl rfl hb0 hnd
  have hgraph : graph c keep r e (start c (bare c n0 ievt e.xwgtup x)) = some (h5, 2 + (wanted c.zero keep e).length) := by
    simp only [graph, e1, e2, Option.bind_some]
    rw [show e.nup.toInt.toNat = e.istup.length by omega, e4, Option.bind_some]
    simp only [e5, Option.map_some]
  obtain ⟨L, hL, hp⟩ := s5.e
  have hsd := shape_sound s5 rfl rfl hb0 hnd
  have hparts : (evParts (h5.e 0)).Perm ((h5.v 0).pin ++ (h5.v 0).pout) := by
    rw [hL, s5.v]
    simp only [evParts, mlist, Option.getD_some]
    refine (hp.map Prod.snd).trans ?_
    rw [entries_snd, List.length_append, List.range_add]
  have hbeam : h5.p 0 = ⟨beam c r.ebmup.1 r.idbmup.1 1, none, some 0⟩ := s5.pi 0 _ rfl
  have hbeam' : h5.p 1 = ⟨beam c r.ebmup.2 r.idbmup.2 2, none, some 0⟩ := s5.pi 1 _ rfl
  have hpin : (h5.v 0).pin = [0, 1] := by rw [s5.v]; rfl
  have hpout : (h5.v 0).pout.map (fun p => (h5.p p).data) = wanted c.zero keep e := by
    rw [s5.v]
    simp only [List.map_map]
    apply List.ext_getElem
    · simp
    · intro i hi hi'
      simp only [List.getElem_map, List.getElem_range, Function.comp_apply]
      rw [s5.po i _ (List.getElem?_eq_getElem hi')]
  have hmem : ∀ p ∈ evParts (h5.e 0), p ∈ (h5.v 0).pin ∨ p ∈ (h5.v 0).pout := fun p hm =>
    List.mem_append.mp (hparts.mem_iff.mp hm)
  have hv0 : 0 ∈ evVerts (h5.e 0) := by rw [hL]; simp [evVerts, mlist]
  refine ⟨h5, ?_, ?_, ?_⟩
  · simp only [convert, hx, hgraph, checked]
    have hlen : (mlist (h5.e 0).particles).length = 2 + (wanted c.zero keep e).length := by
      rw [hL]
      simp only [mlist, Option.getD_some]
      rw [hp.length_eq]
      simp [entries]
      omega
    have hlen' : (mlist (h5.e 0).vertices).length = 1 := by rw [hL]; rfl
    simp [hlen, hlen']
  · refine ⟨hsd, List.ne_nil_of_mem hv0, ?_, ?_, ?_, ?_, ?_, ?_, ?_, ?_⟩
    · intro p hm
      rcases hmem p hm with hm | hm
      · right; rw [((hsd.in_iff 0 hv0 p).mp hm).2]; simp
      · left; rw [((hsd.out_iff 0 hv0 p).mp hm).2]; simp
    · intro v hv
      rw [hL] at hv
      simp [bare, zeroEvt] at hv
    · intro p hv
      rw [hL] at hv
      simp only [Option.some.injEq] at hv
      subst hv
      exact ⟨((hsd.in_iff 0 hv0 0).mp (by simp [hpin])).1, by simp [hbeam]⟩
    · intro p hv
      rw [hL] at hv
      simp only [Option.some.injEq] at hv
      subst hv
      exact ⟨((hsd.in_iff 0 hv0 1).mp (by simp [hpin])).1, by simp [hbeam']⟩
    · intro p hm
      rcases hmem p hm with hm | hm
      · rw [hpin] at hm
        simp only [List.mem_cons, List.not_mem_nil, or_false] at hm
        rcases hm with rfl | rfl
        · simp [hbeam, beam]
        · simp [hbeam', beam]
      · have : (h5.p p).data ∈ wanted c.zero keep e := by
          rw [← hpout]
          exact List.mem_map_of_mem hm
        simp only [wanted, List.mem_map] at this
        obtain ⟨q, -, hq⟩ := this
        rw [← hq]
        simp
    · rw [hL]; simp [bare]
    · rw [hL]; simp [bare]
    · intro q hm
      rw [hL] at hm
      simp only [bare, List.mem_singleton] at hm
      subst hm
      exact hq
  · refine ⟨?_, ?_, ?_, ?_, ?_, ?_, 0, 0, 1, ?_, ?_, ?_, ?_, ?_, ?_, ?_, ?_, ?_⟩
    · rw [hL]; rfl
    · rw [hL]; rfl
    · rw [hL]; rfl
    · rw [hL]; rfl
    · rw [hL]; rfl
    · rw [hL]; rfl
    · rw [hL]; rfl
    · rw [s5.v]
    · rw [hL]
    · rw [hL]
    · rw [hpin]
    · rw [hbeam]; rfl
    · rw [hbeam']; rfl
    · rw [hpout]
    · exact hparts

/-- An event read from a HepMC file in place of another is the same Les Houches event. -/
theorem Is.same {c : Fmt F G N} {n0 : N} {keep : Bool} {r : Run F} {ievt : Nat} {e : Lhef.Event F} {x : CrossSection F}
    {h h' : Heap F G N} {k : Nat} (hi : Is c.zero n0 keep r ievt e x h 0) (hs : Sound h (h.e 0)) {φ ψ : Nat → Nat}
    (hse : SameEvent c φ ψ h (h.e 0) h' (h'.e k)) (hev : ∀ v ∈ evVerts (h.e 0), (h'.v (ψ v)).event = some k) :
    Is c.zero n0 keep r ievt e x h' k := by
  obtain ⟨v, a, b, g1, g2, g3, g4, g5, g6, g7, g8, g9⟩ := hi.graph
  have hv : v ∈ evVerts (h.e 0) := by simp [evVerts, g1]
  have hsv := hse.graph.vtx v hv
  have hin : ∀ p ∈ (h.v v).pin, p ∈ evParts (h.e 0) := fun p hp => ((hs.in_iff v hv p).mp hp).1
  have hout : ∀ p ∈ (h.v v).pout, p ∈ evParts (h.e 0) := fun p hp => ((hs.out_iff v hv p).mp hp).1
  have ha : a ∈ evParts (h.e 0) := hin a (g5.mem_iff.mpr (by simp))
  have hb : b ∈ evParts (h.e 0) := hin b (g5.mem_iff.mpr (by simp))
  have hdata : ∀ p ∈ evParts (h.e 0), (h.p p).data.flow = [] → (h'.p (φ p)).data = (h.p p).data := by
    intro p hp hf
    have hsp := hse.graph.part p hp
    have : (h'.p (φ p)).data.flow = [] := by
      have := hsp.flow
      rw [hf] at this
      exact this.eq_nil
    rw [hsp.data, this, ← hf]
  have hflow : ∀ p ∈ (h.v v).pout, (h.p p).data.flow = [] := by
    intro p hp
    have : (h.p p).data ∈ wanted c.zero keep e := g8.mem_iff.mp (List.mem_map_of_mem hp)
    simp only [wanted, List.mem_map] at this
    obtain ⟨q, -, hq⟩ := this
    rw [← hq]
  refine ⟨?_, ?_, ?_, ?_, ?_, ?_, ψ v, φ a, φ b, ?_, hev v hv, ?_, ?_, ?_, ?_, ?_, ?_, ?_⟩
  · rw [hse.values.number]; exact hi.number
  · rw [hse.values.mu]; exact hi.mu
  · rw [hse.values.lu]; exact hi.lu
  · rw [hse.values.weights]; exact hi.weights
  · have := hse.wmap
    rw [hi.wmap] at this
    exact List.perm_singleton.mp this
  · rw [hse.cross]; exact hi.cross
  · have := hse.graph.vertices
    rw [g1] at this
    exact List.perm_singleton.mp this
  · rw [hse.beam1, g3]; rfl
  · rw [hse.beam2, g4]; rfl
  · exact hsv.pin.trans (g5.map φ)
  · rw [hdata a ha (by rw [g6]), g6]
  · rw [hdata b hb (by rw [g7]), g7]
  · refine List.Perm.trans (hsv.pout.map _) ?_
    rw [List.map_map]
    refine List.Perm.trans (List.Perm.of_eq ?_) g8
    apply List.map_congr_left
    intro p hp
    exact hdata p (hout p hp) (hflow p hp)
  · have h1 : (evParts (h'.e k)).Perm ((evParts (h.e 0)).map φ) := by
      have := hse.graph.particles.map Prod.snd
      simp only [List.map_map] at this
      simp only [evParts, List.map_map]
      exact this
    refine h1.trans ((g9.map φ).trans ?_)
    rw [List.map_append]
    exact List.Perm.append hsv.pin.symm hsv.pout.symm

end Verif.Lhef2HepMC
