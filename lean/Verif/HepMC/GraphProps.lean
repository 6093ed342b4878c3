import Verif.HepMC.GraphOps

/-!
# Programs building HepMC events (C84)

A program makes vertices and particles without barcodes and puts them into one event with
`AddVertex`, `AddParticleIn`, `AddParticleOut` in any order and any number of times.
-/

namespace Verif.HepMC

variable {F G N : Type}

/-! ## Specification -/

/-- The vertex a particle was last added to as incoming. -/
def lastIn : List (Op F) → Nat → Option Nat
  | [], _ => none
  | .addIn v q :: os, p => (lastIn os p).or (if q = p then some v else none)
  | _ :: os, p => lastIn os p

/-- The vertex a particle was last added to as outgoing. -/
def lastOut : List (Op F) → Nat → Option Nat
  | [], _ => none
  | .addOut v q :: os, p => (lastOut os p).or (if q = p then some v else none)
  | _ :: os, p => lastOut os p

/-- A program that uses only what it has made, and adds particles only to vertices it has added
to the event. -/
def Orderly : Nat → Nat → List Nat → List (Op F) → Prop
  | _, _, _, [] => True
  | nv, np, a, .newVertex _ :: os => Orderly (nv + 1) np a os
  | nv, np, a, .newParticle _ :: os => Orderly nv (np + 1) a os
  | nv, np, a, .addVertex v :: os => v < nv ∧ Orderly nv np (v :: a) os
  | nv, np, a, .addIn v p :: os => v ∈ a ∧ p < np ∧ Orderly nv np a os
  | nv, np, a, .addOut v p :: os => v ∈ a ∧ p < np ∧ Orderly nv np a os

/-- A new event, made with its two maps, and no vertex or particle used yet. -/
structure Fresh (h : Heap F G N) (e : Nat) : Prop where
  vmap : (h.e e).vertices = some []
  pmap : (h.e e).particles = some []
  vtx : ∀ v, (h.v v).event = none ∧ (h.v v).data.barcode = 0 ∧ (h.v v).pin = [] ∧ (h.v v).pout = []
  part : ∀ p, (h.p p).data.barcode = 0 ∧ (h.p p).prod = none ∧ (h.p p).fin = none

/-! ## Invariant -/

/-- What holds between two operations. -/
structure Built (h : Heap F G N) (e : Nat) : Prop where
  b : Buildable h e
  ev : ∀ v, (h.v v).event = some e ∨
    (h.v v).event = none ∧ (h.v v).data.barcode = 0 ∧ (h.v v).pin = [] ∧ (h.v v).pout = []
  vkeys : ∀ q ∈ mlist (h.e e).vertices, -((h.e e).bcverts : Int) ≤ q.1
  pkeys : ∀ q ∈ mlist (h.e e).particles, q.1 ≤ ((h.e e).bcparts : Int)
  pfree : ∀ p, p ∉ evParts (h.e e) → (h.p p).data.barcode = 0 ∧ (h.p p).prod = none ∧ (h.p p).fin = none
  att : ∀ p ∈ evParts (h.e e), (h.p p).prod ≠ none ∨ (h.p p).fin ≠ none
  vlt : ∀ v ∈ evVerts (h.e e), v < h.nv
  plt : ∀ p ∈ evParts (h.e e), p < h.np

theorem Fresh.built {h : Heap F G N} {e : Nat} (hf : Fresh h e) : Built h e := by
  have hv : evVerts (h.e e) = [] := by unfold evVerts; rw [hf.vmap]; rfl
  have hp : evParts (h.e e) = [] := by unfold evParts; rw [hf.pmap]; rfl
  have hmv : mlist (h.e e).vertices = [] := by rw [hf.vmap]; rfl
  have hmp : mlist (h.e e).particles = [] := by rw [hf.pmap]; rfl
  refine ⟨⟨by rw [hf.vmap]; simp, by rw [hf.pmap]; simp, ?_, ?_⟩, fun v => Or.inr (hf.vtx v), ?_, ?_, fun p _ => hf.part p, ?_,
    ?_, ?_⟩
  · constructor
    · rw [hmv]; simp
    · rw [hmv]; simp
    · rw [hv]; simp
    · rw [hmp]; simp
    · rw [hmp]; simp
    · rw [hp]; simp
    · rw [hv]; simp
    · rw [hv]; simp
    · rw [hv]; simp
    · rw [hv]; simp
    · rw [hp]; simp
    · rw [hp]; simp
  · intro v; rw [(hf.vtx v).1, hv]; simp
  · rw [hmv]; simp
  · rw [hmp]; simp
  · rw [hp]; simp
  · rw [hv]; simp
  · rw [hp]; simp

/-- The barcode a new particle gets is not in use. -/
theorem Built.pnew {h : Heap F G N} {e p : Nat} (hb : Built h e) (hp : p ∉ evParts (h.e e)) :
    (h.p p).prod = none ∧ (h.p p).fin = none ∧ nextPBc h e p ∉ (mlist (h.e e).particles).map Prod.fst := by
  obtain ⟨h1, h2, h3⟩ := hb.pfree p hp
  refine ⟨h2, h3, fun hm => ?_⟩
  obtain ⟨q, hq, he⟩ := List.mem_map.mp hm
  have := hb.pkeys q hq
  unfold nextPBc at he
  rw [if_pos h1] at he
  omega

theorem Built.vnew {h : Heap F G N} {e v : Nat} (hb : Built h e) (hv : v ∉ evVerts (h.e e)) :
    (h.v v).event = none ∧ (h.v v).data.barcode = 0 ∧ (h.v v).pin = [] ∧ (h.v v).pout = [] ∧
      nextVBc h e v ∉ (mlist (h.e e).vertices).map Prod.fst := by
  obtain ⟨h1, h2, h3, h4⟩ := (hb.ev v).resolve_left (fun hh => hv ((hb.b.owned v).mp hh))
  refine ⟨h1, h2, h3, h4, fun hm => ?_⟩
  obtain ⟨q, hq, he⟩ := List.mem_map.mp hm
  have := hb.vkeys q hq
  unfold nextVBc at he
  rw [if_pos h2] at he
  omega

theorem partEvt_pkeys {h : Heap F G N} {e p : Nat} (hb : Built h e) :
    ∀ q ∈ mlist (partEvt h e p).particles, q.1 ≤ ((partEvt h e p).bcparts : Int) := by
  intro q hq
  have hq' : q ∈ mset (mlist (h.e e).particles) (nextPBc h e p) p := hq
  rw [mem_mset] at hq'
  unfold partEvt
  dsimp only
  by_cases h0 : (h.p p).data.barcode = 0
  · rw [if_pos h0]
    rcases hq' with rfl | ⟨h1, _⟩
    · unfold nextPBc; rw [if_pos h0]; simp
    · have := hb.pkeys q h1; omega
  · rw [if_neg h0]
    rcases hq' with rfl | ⟨h1, _⟩
    · have hp : p ∈ evParts (h.e e) := by
        by_cases hp : p ∈ evParts (h.e e)
        · exact hp
        · exact absurd (hb.pfree p hp).1 h0
      obtain ⟨b, hbm⟩ := (mem_parts _ _).mp hp
      have := hb.pkeys _ hbm
      have h2 := hb.b.sound.pkey b p hbm
      unfold nextPBc; rw [if_neg h0, h2]; exact this
    · exact hb.pkeys q h1

theorem Built.addIn {h h' : Heap F G N} {e v p : Nat} (hb : Built h e) (hp : p < h.np) (hr : HepMC.addIn h v p = some h') :
    Built h' e ∧ v ∈ evVerts (h.e e) ∧ (∀ q, (h'.p q).fin = if p = q then some v else (h.p q).fin) ∧
      (∀ q, (h'.p q).prod = (h.p q).prod) ∧ (h'.e e).vertices = (h.e e).vertices ∧ h'.nv = h.nv ∧ h'.np = h.np := by
  rcases hb.ev v with hv | ⟨hv, _⟩
  · have hvm := (hb.b.owned v).mp hv
    have heq := addIn_eq h e v p hv hb.b.pmap (hb.b.sound.in_nodup v hvm)
    have hpn : p ∈ evParts (h.e e) ∨ (h.p p).prod = none ∧ (h.p p).fin = none ∧
        nextPBc h e p ∉ (mlist (h.e e).particles).map Prod.fst := by
      by_cases hm : p ∈ evParts (h.e e)
      · exact Or.inl hm
      · exact Or.inr (hb.pnew hm)
    obtain ⟨h2, e2, b2, f2, p2, _, _, o2, m2, v2, np2, nv2, w2, _⟩ := C84_addIn hb.b hvm hpn
    rw [hr] at e2 heq
    cases e2
    have hee : h'.e e = partEvt h e p := by rw [Option.some.inj heq]; exact put_same _ _ _
    refine ⟨⟨b2, ?_, ?_, ?_, ?_, ?_, ?_, ?_⟩, hvm, ?_, ?_, v2, nv2, np2⟩
    · intro w
      rcases hb.ev w with h1 | ⟨h1, h3, h4, h5⟩
      · exact Or.inl ((w2 w).2.1.trans h1)
      · refine Or.inr ⟨(w2 w).2.1.trans h1, by rw [(w2 w).1]; exact h3, ?_, (w2 w).2.2.trans h5⟩
        rw [Option.some.inj heq]
        show inList h v p w = []
        unfold inList
        rw [if_neg (by rintro rfl; rw [h1] at hv; cases hv)]
        rw [h4]
        split <;> rfl
    · rw [v2]
      intro q hq
      rw [hee]
      exact hb.vkeys q hq
    · rw [hee]; exact partEvt_pkeys hb
    · intro q hq
      have : q ≠ p ∧ q ∉ evParts (h.e e) := ⟨fun hh => hq ((m2 q).mpr (Or.inl hh)), fun hh => hq ((m2 q).mpr (Or.inr hh))⟩
      rw [o2 q this.1]
      exact hb.pfree q this.2
    · intro q hq
      by_cases hqp : q = p
      · subst hqp; rw [f2]; simp
      · rw [o2 q hqp]; exact hb.att q (((m2 q).mp hq).resolve_left hqp)
    · intro w hw
      rw [nv2]
      unfold evVerts at hw
      rw [v2] at hw
      exact hb.vlt w hw
    · intro q hq
      rw [np2]
      rcases (m2 q).mp hq with rfl | h1
      · exact hp
      · exact hb.plt q h1
    · intro q
      by_cases hqp : p = q
      · subst hqp; rw [f2, if_pos rfl]
      · rw [if_neg hqp, o2 q (Ne.symm hqp)]
    · intro q
      by_cases hqp : q = p
      · subst hqp; exact p2
      · rw [o2 q hqp]
  · exfalso
    unfold HepMC.addIn at hr
    dsimp only at hr
    have : ∀ h2 : Heap F G N, (h2.v v).event = none → ((removeIn h2 v p).v v).event = none := by
      intro h2 hh; simp only [removeIn, put_same]; exact hh
    rw [this, Option.bind_none] at hr
    · cases hr
    · split
      · exact hv
      · next w _ =>
        by_cases hw : v = w
        · subst hw; exact this h hv
        · simp only [removeIn, put_ne _ _ hw]; exact hv

theorem Built.addOut {h h' : Heap F G N} {e v p : Nat} (hb : Built h e) (hp : p < h.np) (hr : HepMC.addOut h v p = some h') :
    Built h' e ∧ v ∈ evVerts (h.e e) ∧ (∀ q, (h'.p q).prod = if p = q then some v else (h.p q).prod) ∧
      (∀ q, (h'.p q).fin = (h.p q).fin) ∧ (h'.e e).vertices = (h.e e).vertices ∧ h'.nv = h.nv ∧ h'.np = h.np := by
  rcases hb.ev v with hv | ⟨hv, _⟩
  · have hvm := (hb.b.owned v).mp hv
    have heq := addOut_eq h e v p hv hb.b.pmap (hb.b.sound.out_nodup v hvm)
    have hpn : p ∈ evParts (h.e e) ∨ (h.p p).prod = none ∧ (h.p p).fin = none ∧
        nextPBc h e p ∉ (mlist (h.e e).particles).map Prod.fst := by
      by_cases hm : p ∈ evParts (h.e e)
      · exact Or.inl hm
      · exact Or.inr (hb.pnew hm)
    obtain ⟨h2, e2, b2, f2, p2, _, _, o2, m2, v2, np2, nv2, w2, _⟩ := C84_addOut hb.b hvm hpn
    rw [hr] at e2 heq
    cases e2
    have hee : h'.e e = partEvt h e p := by rw [Option.some.inj heq]; exact put_same _ _ _
    refine ⟨⟨b2, ?_, ?_, ?_, ?_, ?_, ?_, ?_⟩, hvm, ?_, ?_, v2, nv2, np2⟩
    · intro w
      rcases hb.ev w with h1 | ⟨h1, h3, h4, h5⟩
      · exact Or.inl ((w2 w).2.1.trans h1)
      · refine Or.inr ⟨(w2 w).2.1.trans h1, by rw [(w2 w).1]; exact h3, (w2 w).2.2.trans h4, ?_⟩
        rw [Option.some.inj heq]
        show outList h v p w = []
        unfold outList
        rw [if_neg (by rintro rfl; rw [h1] at hv; cases hv)]
        rw [h5]
        split <;> rfl
    · rw [v2]
      intro q hq
      rw [hee]
      exact hb.vkeys q hq
    · rw [hee]; exact partEvt_pkeys hb
    · intro q hq
      have : q ≠ p ∧ q ∉ evParts (h.e e) := ⟨fun hh => hq ((m2 q).mpr (Or.inl hh)), fun hh => hq ((m2 q).mpr (Or.inr hh))⟩
      rw [o2 q this.1]
      exact hb.pfree q this.2
    · intro q hq
      by_cases hqp : q = p
      · subst hqp; rw [f2]; simp
      · rw [o2 q hqp]; exact hb.att q (((m2 q).mp hq).resolve_left hqp)
    · intro w hw
      rw [nv2]
      unfold evVerts at hw
      rw [v2] at hw
      exact hb.vlt w hw
    · intro q hq
      rw [np2]
      rcases (m2 q).mp hq with rfl | h1
      · exact hp
      · exact hb.plt q h1
    · intro q
      by_cases hqp : p = q
      · subst hqp; rw [f2, if_pos rfl]
      · rw [if_neg hqp, o2 q (Ne.symm hqp)]
    · intro q
      by_cases hqp : q = p
      · subst hqp; exact p2
      · rw [o2 q hqp]
  · exfalso
    unfold HepMC.addOut at hr
    dsimp only at hr
    have : ∀ h2 : Heap F G N, (h2.v v).event = none → ((removeOut h2 v p).v v).event = none := by
      intro h2 hh; simp only [removeOut, put_same]; exact hh
    rw [this, Option.bind_none] at hr
    · cases hr
    · split
      · exact hv
      · next w _ =>
        by_cases hw : v = w
        · subst hw; exact this h hv
        · simp only [removeOut, put_ne _ _ hw]; exact hv

theorem Built.addVertex {h : Heap F G N} {e v : Nat} (hb : Built h e) (hv : v < h.nv) :
    ∃ h', HepMC.addVertex h e v = some h' ∧ Built h' e ∧ h'.p = h.p ∧ (∀ w, w ∈ evVerts (h'.e e) ↔ w = v ∨ w ∈ evVerts (h.e e)) ∧
      h'.nv = h.nv ∧ h'.np = h.np := by
  have hvn : v ∈ evVerts (h.e e) ∨ (h.v v).event = none ∧ (h.v v).pin = [] ∧ (h.v v).pout = [] ∧
      nextVBc h e v ∉ (mlist (h.e e).vertices).map Prod.fst := by
    by_cases hm : v ∈ evVerts (h.e e)
    · exact Or.inl hm
    · obtain ⟨h1, _, h3, h4, h5⟩ := hb.vnew hm
      exact Or.inr ⟨h1, h3, h4, h5⟩
  obtain ⟨h', e2, b2, v2, p2, m2, o2, _, _, pp2, np2, nv2, _, bp2, again⟩ := C84_addVertex hb.b hvn
  have hparts : ∀ q, q ∈ evParts (h'.e e) ↔ q ∈ evParts (h.e e) := fun q => by simp only [mem_parts, pp2]
  refine ⟨h', e2, ⟨b2, ?_, ?_, ?_, ?_, ?_, ?_, ?_⟩, p2, m2, nv2, np2⟩
  · intro w
    by_cases hw : w = v
    · subst hw; exact Or.inl v2
    · rw [o2 w hw]; exact hb.ev w
  · by_cases hm : v ∈ evVerts (h.e e)
    · obtain ⟨_, h2, h3⟩ := again hm
      intro q hq
      rw [h2]
      exact hb.vkeys q ((h3 q).mp hq)
    · obtain ⟨h1, h0, h3, h4, h5⟩ := hb.vnew hm
      have heq := addVertex_new h e v hb.b.vmap h1 h3 h4
      rw [e2] at heq
      have hee : h'.e e = vtxEvt h e v := by rw [Option.some.inj heq]; exact put_same _ _ _
      rw [hee]
      intro q hq
      have hq' : q ∈ mset (mlist (h.e e).vertices) (nextVBc h e v) v := hq
      rw [mem_mset] at hq'
      unfold vtxEvt
      dsimp only
      rw [if_pos h0]
      rcases hq' with rfl | ⟨h6, _⟩
      · unfold nextVBc; rw [if_pos h0]; simp
      · have := hb.vkeys q h6; omega
  · intro q hq
    rw [bp2]
    exact hb.pkeys q ((pp2 q).mp hq)
  · intro q hq
    rw [p2]
    exact hb.pfree q (fun hh => hq ((hparts q).mpr hh))
  · intro q hq
    rw [p2]
    exact hb.att q ((hparts q).mp hq)
  · intro w hw
    rw [nv2]
    rcases (m2 w).mp hw with rfl | h1
    · exact hv
    · exact hb.vlt w h1
  · intro q hq
    rw [np2]
    exact hb.plt q ((hparts q).mp hq)

theorem Built.newVertex {h : Heap F G N} {e : Nat} (hb : Built h e) (d : VData F) :
    Built { h with nv := h.nv + 1, v := put h.v h.nv ⟨{ d with barcode := 0 }, [], [], none⟩ } e := by
  have hn : h.nv ∉ evVerts (h.e e) := fun hh => Nat.lt_irrefl _ (hb.vlt _ hh)
  have hne : ∀ w ∈ evVerts (h.e e), w ≠ h.nv := fun w hw he => hn (he ▸ hw)
  have hs := hb.b.sound
  refine ⟨⟨hb.b.vmap, hb.b.pmap, ?_, ?_⟩, ?_, hb.vkeys, hb.pkeys, hb.pfree, hb.att, ?_, hb.plt⟩
  · constructor
    · intro b w hm
      show (put h.v h.nv _ w).data.barcode = b
      rw [put_ne _ _ (hne w ((mem_verts _ _).mpr ⟨b, hm⟩))]
      exact hs.vkey b w hm
    · exact hs.vnodup
    · intro w hw
      show (put h.v h.nv _ w).data.barcode ≠ 0
      rw [put_ne _ _ (hne w hw)]
      exact hs.vne0 w hw
    · exact hs.pkey
    · exact hs.pnodup
    · exact hs.pne0
    · intro w hw p
      show p ∈ (put h.v h.nv _ w).pin ↔ _
      rw [put_ne _ _ (hne w hw)]
      exact hs.in_iff w hw p
    · intro w hw p
      show p ∈ (put h.v h.nv _ w).pout ↔ _
      rw [put_ne _ _ (hne w hw)]
      exact hs.out_iff w hw p
    · intro w hw
      show (put h.v h.nv _ w).pin.Nodup
      rw [put_ne _ _ (hne w hw)]
      exact hs.in_nodup w hw
    · intro w hw
      show (put h.v h.nv _ w).pout.Nodup
      rw [put_ne _ _ (hne w hw)]
      exact hs.out_nodup w hw
    · exact hs.fin_reg
    · exact hs.prod_reg
  · intro w
    show (put h.v h.nv _ w).event = some e ↔ w ∈ evVerts (h.e e)
    by_cases hw : w = h.nv
    · subst hw; rw [put_same]; simp [hn]
    · rw [put_ne _ _ hw]; exact hb.b.owned w
  · intro w
    show (put h.v h.nv _ w).event = some e ∨ (put h.v h.nv _ w).event = none ∧ (put h.v h.nv _ w).data.barcode = 0 ∧
      (put h.v h.nv _ w).pin = [] ∧ (put h.v h.nv _ w).pout = []
    by_cases hw : w = h.nv
    · subst hw; rw [put_same]; exact Or.inr ⟨rfl, rfl, rfl, rfl⟩
    · rw [put_ne _ _ hw]; exact hb.ev w
  · intro w hw
    exact Nat.lt_succ_of_lt (hb.vlt w hw)

theorem Built.newParticle {h : Heap F G N} {e : Nat} (hb : Built h e) (d : PData F) :
    Built { h with np := h.np + 1, p := put h.p h.np ⟨{ d with barcode := 0 }, none, none⟩ } e := by
  have hn : h.np ∉ evParts (h.e e) := fun hh => Nat.lt_irrefl _ (hb.plt _ hh)
  have hne : ∀ w ∈ evParts (h.e e), w ≠ h.np := fun w hw he => hn (he ▸ hw)
  have hs := hb.b.sound
  refine ⟨⟨hb.b.vmap, hb.b.pmap, ?_, hb.b.owned⟩, hb.ev, hb.vkeys, hb.pkeys, ?_, ?_, hb.vlt, ?_⟩
  · constructor
    · exact hs.vkey
    · exact hs.vnodup
    · exact hs.vne0
    · intro b w hm
      show (put h.p h.np _ w).data.barcode = b
      rw [put_ne _ _ (hne w ((mem_parts _ _).mpr ⟨b, hm⟩))]
      exact hs.pkey b w hm
    · exact hs.pnodup
    · intro w hw
      show (put h.p h.np _ w).data.barcode ≠ 0
      rw [put_ne _ _ (hne w hw)]
      exact hs.pne0 w hw
    · intro w hw p
      show _ ↔ p ∈ evParts (h.e e) ∧ (put h.p h.np _ p).fin = some w
      rw [hs.in_iff w hw p]
      by_cases hp : p = h.np
      · subst hp; simp [hn]
      · rw [put_ne _ _ hp]
    · intro w hw p
      show _ ↔ p ∈ evParts (h.e e) ∧ (put h.p h.np _ p).prod = some w
      rw [hs.out_iff w hw p]
      by_cases hp : p = h.np
      · subst hp; simp [hn]
      · rw [put_ne _ _ hp]
    · exact hs.in_nodup
    · exact hs.out_nodup
    · intro p hp w hw
      replace hw : (put h.p h.np _ p).fin = some w := hw
      rw [put_ne _ _ (hne p hp)] at hw
      exact hs.fin_reg p hp w hw
    · intro p hp w hw
      replace hw : (put h.p h.np _ p).prod = some w := hw
      rw [put_ne _ _ (hne p hp)] at hw
      exact hs.prod_reg p hp w hw
  · intro p hp
    show (put h.p h.np _ p).data.barcode = 0 ∧ (put h.p h.np _ p).prod = none ∧ (put h.p h.np _ p).fin = none
    by_cases hw : p = h.np
    · subst hw; rw [put_same]; exact ⟨rfl, rfl, rfl⟩
    · rw [put_ne _ _ hw]; exact hb.pfree p hp
  · intro p hp
    show (put h.p h.np _ p).prod ≠ none ∨ (put h.p h.np _ p).fin ≠ none
    rw [put_ne _ _ (hne p hp)]
    exact hb.att p hp
  · intro w hw
    exact Nat.lt_succ_of_lt (hb.plt w hw)

/-! ## Whole programs -/

theorem build_built (e : Nat) (ops : List (Op F)) (h h' : Heap F G N) (hb : Built h e) (hr : build e ops h = some h') :
    Built h' e ∧ (∀ p, (h'.p p).fin = (lastIn ops p).or (h.p p).fin) ∧ (∀ p, (h'.p p).prod = (lastOut ops p).or (h.p p).prod) ∧
      ∀ v, v ∈ evVerts (h'.e e) ↔ v ∈ evVerts (h.e e) ∨ Op.addVertex v ∈ ops := by
  induction ops generalizing h with
  | nil =>
    cases hr
    exact ⟨hb, fun p => by simp [lastIn], fun p => by simp [lastOut], fun v => by simp⟩
  | cons o ops ih =>
    unfold build at hr
    obtain ⟨h1, ho, hr2⟩ := Option.bind_eq_some_iff.mp hr
    cases o with
    | newVertex d =>
      cases ho
      obtain ⟨a1, a2, a3, a4⟩ := ih _ (hb.newVertex d) hr2
      refine ⟨a1, a2, a3, fun v => ?_⟩
      rw [a4]
      simp
    | newParticle d =>
      cases ho
      obtain ⟨a1, a2, a3, a4⟩ := ih _ (hb.newParticle d) hr2
      have hn : h.np ∉ evParts (h.e e) := fun hh => Nat.lt_irrefl _ (hb.plt _ hh)
      have hfree := hb.pfree _ hn
      refine ⟨a1, fun p => ?_, fun p => ?_, fun v => ?_⟩
      · rw [a2]
        show (lastIn ops p).or (put h.p h.np _ p).fin = (lastIn ops p).or (h.p p).fin
        by_cases hw : p = h.np
        · subst hw; rw [put_same, hfree.2.2]
        · rw [put_ne _ _ hw]
      · rw [a3]
        show (lastOut ops p).or (put h.p h.np _ p).prod = (lastOut ops p).or (h.p p).prod
        by_cases hw : p = h.np
        · subst hw; rw [put_same, hfree.2.1]
        · rw [put_ne _ _ hw]
      · rw [a4]
        simp
    | addVertex v =>
      unfold op at ho
      dsimp only at ho
      split at ho
      · next hlt =>
        obtain ⟨h2, e2, b2, p2, m2, _, _⟩ := hb.addVertex hlt
        rw [e2] at ho
        cases ho
        obtain ⟨a1, a2, a3, a4⟩ := ih _ b2 hr2
        refine ⟨a1, fun p => ?_, fun p => ?_, fun w => ?_⟩
        · rw [a2, p2]; rfl
        · rw [a3, p2]; rfl
        · rw [a4, m2, List.mem_cons]
          constructor
          · rintro ((rfl | h) | h)
            · exact Or.inr (Or.inl rfl)
            · exact Or.inl h
            · exact Or.inr (Or.inr h)
          · rintro (h | h | h)
            · exact Or.inl (Or.inr h)
            · cases h; exact Or.inl (Or.inl rfl)
            · exact Or.inr h
      · cases ho
    | addIn v p =>
      unfold op at ho
      dsimp only at ho
      split at ho
      · next hlt =>
        obtain ⟨b2, _, f2, p2, v2, _, _⟩ := hb.addIn hlt.2 ho
        obtain ⟨a1, a2, a3, a4⟩ := ih _ b2 hr2
        refine ⟨a1, fun q => ?_, fun q => ?_, fun w => ?_⟩
        · rw [a2, f2]
          show _ = ((lastIn ops q).or (if p = q then some v else none)).or (h.p q).fin
          rw [Option.or_assoc]
          split <;> rfl
        · rw [a3, p2]; rfl
        · rw [a4]
          unfold evVerts
          rw [v2]
          simp
      · cases ho
    | addOut v p =>
      unfold op at ho
      dsimp only at ho
      split at ho
      · next hlt =>
        obtain ⟨b2, _, f2, p2, v2, _, _⟩ := hb.addOut hlt.2 ho
        obtain ⟨a1, a2, a3, a4⟩ := ih _ b2 hr2
        refine ⟨a1, fun q => ?_, fun q => ?_, fun w => ?_⟩
        · rw [a2, p2]; rfl
        · rw [a3, f2]
          show _ = ((lastOut ops q).or (if p = q then some v else none)).or (h.p q).prod
          rw [Option.or_assoc]
          split <;> rfl
        · rw [a4]
          unfold evVerts
          rw [v2]
          simp
      · cases ho

/-- Whatever a program does to build an event, if no call panics: the graph is consistent, the
vertices of the event are those added, the particles are those added to a vertex, and each
particle ends in, and comes from, the vertex it was last added to.  Only programs that leave
all barcodes to the event and build one event are covered: see the counterexamples. -/
theorem C84_build_partial {h h' : Heap F G N} {e : Nat} {ops : List (Op F)} (hf : Fresh h e) (hr : build e ops h = some h') :
    Sound h' (h'.e e) ∧ (∀ v, v ∈ evVerts (h'.e e) ↔ Op.addVertex v ∈ ops) ∧
      (∀ p, p ∈ evParts (h'.e e) ↔ lastIn ops p ≠ none ∨ lastOut ops p ≠ none) ∧
      (∀ p, (h'.p p).fin = lastIn ops p ∧ (h'.p p).prod = lastOut ops p) ∧
      ∀ v ∈ evVerts (h'.e e), (h'.v v).event = some e := by
  obtain ⟨a1, a2, a3, a4⟩ := build_built e ops h h' hf.built hr
  have h2 : ∀ p, (h'.p p).fin = lastIn ops p := fun p => by rw [a2, (hf.part p).2.2, Option.or_none]
  have h3 : ∀ p, (h'.p p).prod = lastOut ops p := fun p => by rw [a3, (hf.part p).2.1, Option.or_none]
  refine ⟨a1.b.sound, fun v => ?_, fun p => ?_, fun p => ⟨h2 p, h3 p⟩, fun v hv => (a1.b.owned v).mpr hv⟩
  · rw [a4]
    unfold evVerts
    rw [hf.vmap]
    simp [mlist]
  · constructor
    · intro hp
      have := a1.att p hp
      rw [h2, h3] at this
      exact this.symm
    · intro hp
      by_cases hm : p ∈ evParts (h'.e e)
      · exact hm
      · have := a1.pfree p hm
        rw [h2, h3] at this
        rcases hp with hp | hp
        · exact absurd this.2.2 hp
        · exact absurd this.2.1 hp

/-- A program that adds particles only to vertices already in the event does not panic. -/
theorem C84_build_runs {e : Nat} {ops : List (Op F)} {h : Heap F G N} (hf : Fresh h e) (ho : Orderly h.nv h.np [] ops) :
    ∃ h', build e ops h = some h' := by
  suffices H : ∀ (ops : List (Op F)) (h : Heap F G N) (a : List Nat), Built h e → (∀ v ∈ a, v ∈ evVerts (h.e e)) →
      Orderly h.nv h.np a ops → ∃ h', build e ops h = some h' from H ops h [] hf.built (by simp) ho
  intro ops
  induction ops with
  | nil => intro h a _ _ _; exact ⟨h, rfl⟩
  | cons o ops ih =>
    intro h a hb ha ho
    cases o with
    | newVertex d => exact ih _ a (hb.newVertex d) ha ho
    | newParticle d => exact ih _ a (hb.newParticle d) ha ho
    | addVertex v =>
      obtain ⟨hlt, ho⟩ := ho
      obtain ⟨h2, e2, b2, _, m2, nv2, np2⟩ := hb.addVertex hlt
      unfold build op
      dsimp only
      rw [if_pos hlt, e2, Option.bind_some]
      refine ih h2 (v :: a) b2 ?_ (by rw [nv2, np2]; exact ho)
      intro w hw
      rw [m2]
      rcases List.mem_cons.mp hw with rfl | hw
      · exact Or.inl rfl
      · exact Or.inr (ha w hw)
    | addIn v p =>
      obtain ⟨hva, hlt, ho⟩ := ho
      have hv := ha v hva
      have hve := (hb.b.owned v).mpr hv
      have heq := addIn_eq h e v p hve hb.b.pmap (hb.b.sound.in_nodup v hv)
      obtain ⟨b2, _, _, _, v2, nv2, np2⟩ := hb.addIn hlt heq
      unfold build op
      dsimp only
      rw [if_pos ⟨hb.vlt v hv, hlt⟩, heq, Option.bind_some]
      refine ih _ a b2 ?_ (by rw [nv2, np2]; exact ho)
      intro w hw
      unfold evVerts
      rw [v2]
      exact ha w hw
    | addOut v p =>
      obtain ⟨hva, hlt, ho⟩ := ho
      have hv := ha v hva
      have hve := (hb.b.owned v).mpr hv
      have heq := addOut_eq h e v p hve hb.b.pmap (hb.b.sound.out_nodup v hv)
      obtain ⟨b2, _, _, _, v2, nv2, np2⟩ := hb.addOut hlt heq
      unfold build op
      dsimp only
      rw [if_pos ⟨hb.vlt v hv, hlt⟩, heq, Option.bind_some]
      refine ih _ a b2 ?_ (by rw [nv2, np2]; exact ho)
      intro w hw
      unfold evVerts
      rw [v2]
      exact ha w hw

/-- An event so built can be written and read back (C83), once it has a vertex, its beams end in
a vertex and each weight has one name. -/
theorem C84_built_writable {c : Fmt F G N} {h h' : Heap F G N} {e : Nat} {ops : List (Op F)} (hf : Fresh h e)
    (hr : build e ops h = some h') (hv : ∃ v, Op.addVertex v ∈ ops) (hsig : ∀ v, (h'.e e).sig = some v → Op.addVertex v ∈ ops)
    (hb1 : ∀ p, (h'.e e).beam1 = some p → lastIn ops p ≠ none) (hb2 : ∀ p, (h'.e e).beam2 = some p → lastIn ops p ≠ none)
    (hfl : ∀ p ∈ evParts (h'.e e), ((h'.p p).data.flow.map Prod.fst).Nodup) (hn : ((h'.e e).wmap.map Prod.fst).Nodup)
    (hna : ((h'.e e).wmap.map Prod.snd).Perm (List.range ((h'.e e).weights.getD []).length))
    (hbl : ∀ q ∈ (h'.e e).wmap, (32 : UInt8) ∉ c.q q.1) : Writable c h' (h'.e e) := by
  obtain ⟨a1, a2, a3, a4, _⟩ := C84_build_partial hf hr
  refine ⟨a1, ?_, ?_, ?_, ?_, ?_, hfl, hn, hna, hbl⟩
  · obtain ⟨v, hv⟩ := hv
    intro hh
    have := (a2 v).mpr hv
    rw [hh] at this
    cases this
  · intro p hp
    rw [(a4 p).1, (a4 p).2]
    exact ((a3 p).mp hp).symm
  · intro v hs
    exact (a2 v).mpr (hsig v hs)
  · intro p hp
    rw [(a4 p).1]
    exact ⟨(a3 p).mpr (Or.inl (hb1 p hp)), hb1 p hp⟩
  · intro p hp
    rw [(a4 p).1]
    exact ⟨(a3 p).mpr (Or.inl (hb2 p hp)), hb2 p hp⟩

end Verif.HepMC
