import Verif.HepMC.RootCnvLemmas
import Mathlib.Data.List.Nodup

/-!
# Events written to ROOT trees and read back are the same
-/

namespace Verif.HepMC.Root

open Verif.HepMC

variable {F G N : Type} [DecidableEq N]

/-- The numbers of an event fit the columns, and the event has what the columns cannot do without. -/
structure Fits (n : Num F G) (m : Mem F G N) (x : Evt F G N) : Prop where
  sigId : Small x.sigId
  number : Small x.number
  mpi : Small x.mpi
  vbc : ∀ v ∈ evVerts x, Small (m.heap.v v).data.barcode ∧ Small (m.heap.v v).data.id
  vlen : ∀ v ∈ evVerts x, Small (m.heap.v v).pin.length ∧ Small (m.heap.v v).pout.length
  vmap : ∀ v ∈ evVerts x, ((m.vmap v).map Prod.fst).Nodup ∧ ∀ q ∈ m.vmap v, Small q.2
  pbc : ∀ p ∈ evParts x, Small (m.heap.p p).data.barcode ∧ Small (m.heap.p p).data.status
  flow : ∀ p ∈ evParts x, ((m.heap.p p).data.flow.map Prod.fst).Nodup ∧ ∀ q ∈ (m.heap.p p).data.flow, Small q.1 ∧ Small q.2
  wmap : (x.wmap.map Prod.fst).Nodup ∧ ∀ q ∈ x.wmap, Small q.2
  sig : ∀ v, x.sig = some v → v ∈ evVerts x
  beam1 : ∀ p, x.beam1 = some p → p ∈ evParts x
  beam2 : ∀ p, x.beam2 = some p → p ∈ evParts x
  cross : ∀ c, x.cross = some c → ¬ (n.isZeroF c.value = true ∧ n.isZeroF c.error = true)
  heavy : ∀ c, x.heavy = some c → (∀ z ∈ [c.nCollHard, c.nPartProj, c.nPartTarg, c.nColl, c.nNwColl, c.nwNColl, c.nwNwColl,
    c.specNeutrons, c.specProtons], Small z) ∧ ¬ ((∀ z ∈ [c.nCollHard, c.nPartProj, c.nPartTarg, c.nColl, c.nNwColl, c.nwNColl, c.nwNwColl,
    c.specNeutrons, c.specProtons], z = 0) ∧ ∀ z ∈ [c.impact, c.planeAngle, c.ecc, c.sigmaNN], n.isZeroG z = true)
  pdf : ∃ c, x.pdf = some c ∧ Small c.id1 ∧ Small c.id2 ∧ Small c.lha1 ∧ Small c.lha2

/-- The event `x'` in `m'` is the event `x` in `m`, pointers to particles renamed by `φ`, pointers to vertices by `ψ`; its vertices
point to the event `e`. -/
structure Same (φ ψ : Nat → Nat) (m : Mem F G N) (x : Evt F G N) (m' : Mem F G N) (x' : Evt F G N) (e : Nat) : Prop where
  graph : SameGraph φ ψ m.heap x m'.heap x'
  pin : ∀ v ∈ evVerts x, (m'.heap.v (ψ v)).pin = (m.heap.v v).pin.map φ
  pout : ∀ v ∈ evVerts x, (m'.heap.v (ψ v)).pout = (m.heap.v v).pout.map φ
  event : ∀ v ∈ evVerts x, (m'.heap.v (ψ v)).event = some e
  vmap : ∀ v ∈ evVerts x, (m'.vmap (ψ v)).Perm (m.vmap v)
  values : SameValues x x'
  sig : x'.sig = x.sig.map ψ
  beam1 : x'.beam1 = x.beam1.map φ
  beam2 : x'.beam2 = x.beam2.map φ
  wmap : x'.wmap.Perm x.wmap
  cross : x'.cross = x.cross
  heavy : x'.heavy = x.heavy
  pdf : x'.pdf = x.pdf

/-- Zeros are zero. -/
structure Num.Lawful (n : Num F G) : Prop where
  f : n.isZeroF n.zeroF = true
  g : n.isZeroG n.zeroG = true

/-- Ranging over a map visits every entry once. -/
structure Order.Lawful (o : Order N) : Prop where
  w : ∀ l, (o.w l).Perm l
  f : ∀ l, (o.f l).Perm l

/-! ## The order of columns -/

omit [DecidableEq N] in
theorem mem_vOrder (x : Evt F G N) (v : Nat) : v ∈ vOrder x ↔ v ∈ evVerts x := by
  unfold vOrder evVerts
  exact ((sortBy_perm _ _).map _).mem_iff

omit [DecidableEq N] in
theorem mem_pOrder (x : Evt F G N) (v : Nat) : v ∈ pOrder x ↔ v ∈ evParts x := by
  unfold pOrder evParts
  exact ((sortBy_perm _ _).map _).mem_iff

omit [DecidableEq N] in
theorem vbarcodes {m : Mem F G N} {x : Evt F G N} (hs : Sound m.heap x) :
    ((vOrder x).map fun v => (m.heap.v v).data.barcode) = (sortBy (fun q : Int × Nat => -q.1) (mlist x.vertices)).map Prod.fst := by
  unfold vOrder
  rw [List.map_map]
  apply List.map_congr_left
  intro q hq
  exact hs.vkey q.1 q.2 ((sortBy_perm _ _).mem_iff.mp hq)

omit [DecidableEq N] in
theorem pbarcodes {m : Mem F G N} {x : Evt F G N} (hs : Sound m.heap x) :
    ((pOrder x).map fun v => (m.heap.p v).data.barcode) = (sortBy (fun q : Int × Nat => q.1) (mlist x.particles)).map Prod.fst := by
  unfold pOrder
  rw [List.map_map]
  apply List.map_congr_left
  intro q hq
  exact hs.pkey q.1 q.2 ((sortBy_perm _ _).mem_iff.mp hq)

omit [DecidableEq N] in
theorem vnd {m : Mem F G N} {x : Evt F G N} (hs : Sound m.heap x) : ((vOrder x).map fun v => (m.heap.v v).data.barcode).Nodup := by
  rw [vbarcodes hs]
  exact ((sortBy_perm _ _).map _).nodup_iff.mpr hs.vnodup

omit [DecidableEq N] in
theorem pnd {m : Mem F G N} {x : Evt F G N} (hs : Sound m.heap x) : ((pOrder x).map fun v => (m.heap.p v).data.barcode).Nodup := by
  rw [pbarcodes hs]
  exact ((sortBy_perm _ _).map _).nodup_iff.mpr hs.pnodup

theorem idx_get (l : List Nat) (hn : l.Nodup) (k i : Nat) (h : i < l.length) : k + l.idxOf l[i] = k + i := by
  rw [hn.idxOf_getElem]

theorem mlist_perm {L : List (Int × Nat)} {l : List (Int × Nat)} {f : Nat → Nat}
    (hL : (L.map Prod.fst).Nodup) (hl : (l.map Prod.fst).Nodup)
    (h : ∀ q, q ∈ L ↔ ∃ p ∈ l, q = (p.1, f p.2)) : L.Perm (l.map fun q => (q.1, f q.2)) := by
  rw [List.perm_ext_iff_of_nodup (List.Nodup.of_map _ hL)]
  · intro q
    rw [h, List.mem_map]
    constructor
    · rintro ⟨p, hp, rfl⟩; exact ⟨p, hp, rfl⟩
    · rintro ⟨p, hp, rfl⟩; exact ⟨p, hp, rfl⟩
  · apply List.Nodup.of_map Prod.fst
    rw [List.map_map]
    exact hl

theorem wRow_perm {o : Order N} (ho : o.Lawful) (l : List (N × Int)) (h : (l.map Prod.fst).Nodup) (hs : ∀ q ∈ l, Small q.2) :
    (toMap (wRow o l)).Perm l := by
  have e : wRow o l = o.w l := by
    unfold wRow
    conv => rhs; rw [← List.map_id (o.w l)]
    apply List.map_congr_left
    intro q hq
    rw [i32_small (hs q ((ho.w l).mem_iff.mp hq))]
    rfl
  rw [e]
  exact (toMap_perm _ (((ho.w l).map _).nodup_iff.mpr h)).trans (ho.w l)

omit [DecidableEq N] in
theorem vbc_some {n : Num F G} {m : Mem F G N} {x : Evt F G N} (hf : Fits n m x) {v : Nat} (hv : v ∈ evVerts x) :
    vbc m.heap (some v) = (m.heap.v v).data.barcode := i32_small (hf.vbc v hv).1

omit [DecidableEq N] in
theorem pbc_some {n : Num F G} {m : Mem F G N} {x : Evt F G N} (hf : Fits n m x) {p : Nat} (hp : p ∈ evParts x) :
    pbc m.heap (some p) = (m.heap.p p).data.barcode := i32_small (hf.pbc p hp).1

omit [DecidableEq N] in
theorem cross_back {n : Num F G} (hn : n.Lawful) {m : Mem F G N} {x : Evt F G N} (hf : Fits n m x) :
    (if hasXSect n (xsecRow n x.cross) then some (xsecRow n x.cross) else none) = x.cross := by
  cases hc : x.cross with
  | none => simp [xsecRow, hasXSect, hn.f]
  | some c =>
    have h := hf.cross c hc
    rw [if_pos]
    · rfl
    · simp only [xsecRow, hasXSect, Bool.not_eq_true', Bool.and_eq_false_iff]
      cases h1 : n.isZeroF c.error
      · exact Or.inl rfl
      · cases h2 : n.isZeroF c.value
        · exact Or.inr rfl
        · exact absurd ⟨h2, h1⟩ h

omit [DecidableEq N] in
theorem heavy_back {n : Num F G} (hn : n.Lawful) {m : Mem F G N} {x : Evt F G N} (hf : Fits n m x) :
    (if hasHI n (hiRow n x.heavy) then some (hiRow n x.heavy) else none) = x.heavy := by
  cases hc : x.heavy with
  | none => simp [hiRow, hasHI, hn.g]
  | some c =>
    have h := hf.heavy c hc
    simp only [List.mem_cons, List.not_mem_nil, or_false, forall_eq_or_imp, forall_eq] at h
    obtain ⟨⟨a1, a2, a3, a4, a5, a6, a7, a8, a9⟩, hz⟩ := h
    have e : hiRow n (some c) = c := by
      simp only [hiRow, i32_small a1, i32_small a2, i32_small a3, i32_small a4, i32_small a5, i32_small a6, i32_small a7, i32_small a8,
        i32_small a9]
    rw [e, if_pos]
    simp only [hasHI, Bool.not_eq_true', ← Bool.not_eq_true, Bool.and_eq_true, decide_eq_true_eq]
    intro h
    apply hz
    simpa only [and_assoc] using h

/-- Flattening an event and making an event of the columns gives the event again; nothing else in memory changes, and all
vertices and particles of the event are new. -/
theorem C138_event {n : Num F G} (hn : n.Lawful) {o : Order N} (ho : o.Lawful) {m : Mem F G N} {x : Evt F G N} (hs : Sound m.heap x)
    (hf : Fits n m x) (old : Flat F G N) :
    ∃ f, read n o old.reset m x = some f ∧ ∀ (e : Nat) (m0 : Mem F G N), ∃ m' φ ψ, write n f e m0 = some m' ∧
      Same φ ψ m x m' (m'.heap.e e) e ∧ m0.heap.np ≤ m'.heap.np ∧ m0.heap.nv ≤ m'.heap.nv ∧
      (∀ p ∈ evParts x, m0.heap.np ≤ φ p ∧ φ p < m'.heap.np) ∧ (∀ v ∈ evVerts x, m0.heap.nv ≤ ψ v ∧ ψ v < m'.heap.nv) ∧
      (∀ j, j < m0.heap.np → m'.heap.p j = m0.heap.p j) ∧
      (∀ j, j < m0.heap.nv → m'.heap.v j = m0.heap.v j ∧ m'.vmap j = m0.vmap j) ∧
      (∀ j, j ≠ e → m'.heap.e j = m0.heap.e j) := by
  obtain ⟨pdf, hpdf, p1, p2, p3, p4⟩ := hf.pdf
  refine ⟨_, by rw [read, hpdf]; rfl, ?_⟩
  intro e m0
  have hpn : (pOrder x).Nodup := List.Nodup.of_map _ (pnd hs)
  have hvn : (vOrder x).Nodup := List.Nodup.of_map _ (vnd hs)
  let φ : Nat → Nat := fun p => m0.heap.np + (pOrder x).idxOf p
  let ψ : Nat → Nat := fun v => m0.heap.nv + (vOrder x).idxOf v
  have hφi : ∀ p ∈ pOrder x, ∀ q ∈ pOrder x, φ p = φ q → p = q := by
    intro p hp q _ h
    have h : (pOrder x).idxOf p = (pOrder x).idxOf q := by simp only [φ] at h; omega
    exact (List.idxOf_inj hp).mp h
  have hpb : ∀ p ∈ pOrder x, (pRow o m p).bc = (m.heap.p p).data.barcode := fun p hp =>
    i32_small (hf.pbc p ((mem_pOrder x p).mp hp)).1
  have hvb : ∀ v ∈ vOrder x, (vRow o m v).bc = (m.heap.v v).data.barcode := fun v hv =>
    i32_small (hf.vbc v ((mem_vOrder x v).mp hv)).1
  have hni : ∀ v ∈ vOrder x, (vRow o m v).nin = ((m.heap.v v).pin.length : Int) := by
    intro v hv
    simp only [vRow]
    exact i32_small (hf.vlen v ((mem_vOrder x v).mp hv)).1
  have hno : ∀ v ∈ vOrder x, (vRow o m v).nout = ((m.heap.v v).pout.length : Int) := by
    intro v hv
    simp only [vRow]
    exact i32_small (hf.vlen v ((mem_vOrder x v).mp hv)).2
  -- the columns and the event before particles
  generalize hF : columns n o old.reset m x pdf = f
  let m1 : Mem F G N := { m0 with heap := { m0.heap with e := put m0.heap.e e (values n f (m0.heap.e e)) } }
  obtain ⟨m2, LP, a1, a2, a3, a4, a5, a6, a7, a8, a9, a10⟩ := addParts_spec e (pRow o m)
    (fun p => (o.f (m.heap.p p).data.flow).map fun q : Int × Int => (i32 q.1, i32 q.2)) (pOrder x)
    (fun p _ => pairs_flat _) (by rw [List.map_congr_left hpb]; exact pnd hs) φ m1 (fun i hi => idx_get _ hpn _ i hi) []
    (by simp [m1, put, values]) (by simp) (by simp)
  have hm2e : m2.heap.e e = { values n f (m0.heap.e e) with particles := some LP } := by
    rw [a6, put_same]
    simp [m1, put]
  obtain ⟨m3, LV, b1, b2, b3, b4, b5, b6, b7, b8, b9, b10, b11, b12, b13, b14, b15⟩ := addVerts_spec e (vRow o m)
    (fun v => (m.heap.v v).pin) (fun v => (m.heap.v v).pout) (fun p => pbc m.heap (some p)) (fun p => (m.heap.p p).fin)
    (fun p => (m.heap.p p).prod) φ ψ (pOrder x) (vOrder x) hφi
    hni hno
    (fun v hv p => by rw [mem_pOrder]; exact hs.in_iff v ((mem_vOrder x v).mp hv) p)
    (fun v hv p => by rw [mem_pOrder]; exact hs.out_iff v ((mem_vOrder x v).mp hv) p)
    (by rw [List.map_congr_left hvb]; exact vnd hs) m2
    (fun i hi => by rw [a3]; exact idx_get _ hvn _ i hi)
    (fun p hp => by
      rw [hm2e]
      refine mget_mem _ a7 ((a8 _).mpr (Or.inr ⟨p, hp, rfl⟩)))
    [] (by rw [hm2e]; rfl) (by simp) (by simp)
  have hm3e : m3.heap.e e = { values n f (m0.heap.e e) with particles := some LP, vertices := some LV } := by
    rw [b4, put_same, hm2e]
  have hw : write n f e m0 = some { m3 with heap := { m3.heap with e := put m3.heap.e e (ends f (m3.heap.e e)) } } := by
    simp only [write]
    have e1 : f.prows = (pOrder x).map (pRow o m) := by rw [← hF]; rfl
    have e2 : f.vrows = (vOrder x).map (vRow o m) := by rw [← hF]; rfl
    have e3 : f.inbcs = (vOrder x).flatMap fun v => (m.heap.v v).pin.map fun p => pbc m.heap (some p) := by
      rw [← hF]; simp [columns, Flat.reset]
    have e4 : f.outbcs = (vOrder x).flatMap fun v => (m.heap.v v).pout.map fun p => pbc m.heap (some p) := by
      rw [← hF]; simp [columns, Flat.reset]
    rw [e1, e2, e3, e4]
    have a1' : addParts e ((pOrder x).map (pRow o m))
        { m0 with heap := { m0.heap with e := put m0.heap.e e (values n f (m0.heap.e e)) } } = some m2 := a1
    rw [a1', Option.bind_some, b1, Option.map_some]
  refine ⟨_, φ, ψ, hw, ?_, ?_, ?_, ?_, ?_, ?_, ?_, ?_⟩
  · have hev : (put m3.heap.e e (ends f (m3.heap.e e))) e =
        ends f { values n f (m0.heap.e e) with particles := some LP, vertices := some LV } := by rw [put_same, hm3e]
    have hpm : LP.Perm ((mlist x.particles).map fun q => (q.1, φ q.2)) := by
      refine mlist_perm a7 hs.pnodup ?_
      intro q
      rw [a8]
      simp only [List.not_mem_nil, false_or]
      constructor
      · rintro ⟨p, hp, rfl⟩
        obtain ⟨b, hb⟩ := (mem_parts x p).mp ((mem_pOrder x p).mp hp)
        refine ⟨(b, p), hb, ?_⟩
        rw [hpb p hp, hs.pkey b p hb]
      · rintro ⟨⟨b, p⟩, hb, rfl⟩
        have hp := (mem_pOrder x p).mpr ((mem_parts x p).mpr ⟨b, hb⟩)
        refine ⟨p, hp, ?_⟩
        rw [hpb p hp, hs.pkey b p hb]
    have hvm : LV.Perm ((mlist x.vertices).map fun q => (q.1, ψ q.2)) := by
      refine mlist_perm b5 hs.vnodup ?_
      intro q
      rw [b6]
      simp only [List.not_mem_nil, false_or]
      constructor
      · rintro ⟨p, hp, rfl⟩
        obtain ⟨b, hb⟩ := (mem_verts x p).mp ((mem_vOrder x p).mp hp)
        refine ⟨(b, p), hb, ?_⟩
        rw [hvb p hp, hs.vkey b p hb]
      · rintro ⟨⟨b, p⟩, hb, rfl⟩
        have hp := (mem_vOrder x p).mpr ((mem_verts x p).mpr ⟨b, hb⟩)
        refine ⟨p, hp, ?_⟩
        rw [hvb p hp, hs.vkey b p hb]
    have hpick : ∀ o : Option Nat, (∀ p, o = some p → p ∈ evParts x) → pick LP (pbc m.heap o) = o.map φ := by
      intro o h
      cases o with
      | none => simp [pbc, pick]
      | some p =>
        have hp := h p rfl
        rw [pbc_some hf hp, pick, if_neg (hs.pne0 p hp)]
        have hp' := (mem_pOrder x p).mpr hp
        rw [← hpb p hp']
        exact mget_mem _ a7 ((a8 _).mpr (Or.inr ⟨p, hp', rfl⟩))
    have hpickv : ∀ o : Option Nat, (∀ v, o = some v → v ∈ evVerts x) → pick LV (vbc m.heap o) = o.map ψ := by
      intro o h
      cases o with
      | none => simp [vbc, pick]
      | some v =>
        have hv := h v rfl
        rw [vbc_some hf hv, pick, if_neg (hs.vne0 v hv)]
        have hv' := (mem_vOrder x v).mpr hv
        rw [← hvb v hv']
        exact mget_mem _ b5 ((b6 _).mpr (Or.inr ⟨v, hv', rfl⟩))
    have hvtx : ∀ v ∈ evVerts x, m3.heap.v (ψ v) =
        ⟨(m.heap.v v).data, (m.heap.v v).pin.map φ, (m.heap.v v).pout.map φ, some e⟩ := by
      intro v hv
      have hv' := (mem_vOrder x v).mpr hv
      rw [b7 v hv', hvb v hv']
      simp only [vRow, i32_small (hf.vbc v hv).2]
    simp only [hev]
    refine ⟨⟨?_, ?_, ?_, ?_⟩, ?_, ?_, ?_, ?_, ?_, ?_, ?_, ?_, ?_, ?_, ?_, ?_⟩
    · simpa [ends, mlist] using hvm
    · simpa [ends, mlist] using hpm
    · intro v hv
      simp only [hvtx v hv]
      exact ⟨rfl, List.Perm.refl _, List.Perm.refl _⟩
    · intro p hp
      have hp' := (mem_pOrder x p).mpr hp
      have hd : (m3.heap.p (φ p)).data = (newPart (pRow o m p)
          ((o.f (m.heap.p p).data.flow).map fun q => (i32 q.1, i32 q.2))).data := by rw [b10 p hp', a9 p hp']
      have hfl : (o.f (m.heap.p p).data.flow).map (fun q => (i32 q.1, i32 q.2)) = o.f (m.heap.p p).data.flow :=
        map_small _ fun q hq => (hf.flow p hp).2 q ((ho.f _).mem_iff.mp hq)
      rw [hfl] at hd
      refine ⟨?_, ?_, ?_, ?_⟩
      · simp only [hd, newPart, pRow, i32_small (hf.pbc p hp).1, i32_small (hf.pbc p hp).2]
      · simp only [hd, newPart]
        exact (toMap_perm _ (((ho.f _).map _).nodup_iff.mpr (hf.flow p hp).1)).trans (ho.f _)
      · cases h : (m.heap.p p).prod with
        | none => rw [b14 p hp' (by simp [h]), a9 p hp']; rfl
        | some v => exact b12 p hp' v ((mem_vOrder x v).mpr (hs.prod_reg p hp v h)) h
      · cases h : (m.heap.p p).fin with
        | none => rw [b13 p hp' (by simp [h]), a9 p hp']; rfl
        | some v => exact b11 p hp' v ((mem_vOrder x v).mpr (hs.fin_reg p hp v h)) h
    · intro v hv; simp only [hvtx v hv]
    · intro v hv; simp only [hvtx v hv]
    · intro v hv; simp only [hvtx v hv]
    · intro v hv
      simp only [b8 v ((mem_vOrder x v).mpr hv)]
      exact wRow_perm ho _ (hf.vmap v hv).1 (hf.vmap v hv).2
    · rw [← hF]
      exact ⟨i32_small hf.sigId, i32_small hf.number, i32_small hf.mpi, rfl, rfl, rfl, rfl, rfl, rfl, rfl⟩
    · rw [← hF]; exact hpickv _ hf.sig
    · rw [← hF]; exact hpick _ hf.beam1
    · rw [← hF]; exact hpick _ hf.beam2
    · rw [← hF]
      have k := wRow_perm ho (x.wmap.map fun q => (q.1, (q.2 : Int))) (by rw [List.map_map]; exact hf.wmap.1) (by
        intro q hq
        obtain ⟨r, hr, rfl⟩ := List.mem_map.mp hq
        exact hf.wmap.2 r hr)
      have k2 := k.map fun q : N × Int => (q.1, q.2.toNat)
      rw [List.map_map] at k2
      refine k2.trans ?_
      rw [show ((fun q : N × Int => (q.1, q.2.toNat)) ∘ fun q : N × Nat => (q.1, (q.2 : Int))) = id by funext q; simp, List.map_id]
    · rw [← hF]; exact cross_back hn hf
    · rw [← hF]; exact heavy_back hn hf
    · rw [← hF, hpdf]
      simp only [ends, values, columns, pdfRow, i32_small p1, i32_small p2, i32_small p3, i32_small p4]
  · rw [b3, a2]
    exact Nat.le_add_right _ _
  · rw [b2, a3]
    exact Nat.le_add_right _ _
  · intro p hp
    have hi := List.idxOf_lt_length_iff.mpr ((mem_pOrder x p).mpr hp)
    have : m1.heap.np = m0.heap.np := rfl
    simp only [φ]
    refine ⟨by omega, ?_⟩
    rw [b3, a2]
    omega
  · intro v hv
    have hi := List.idxOf_lt_length_iff.mpr ((mem_vOrder x v).mpr hv)
    have : m1.heap.nv = m0.heap.nv := rfl
    simp only [ψ]
    refine ⟨by omega, ?_⟩
    rw [b2, a3]
    omega
  · intro j hj
    have h : j ∉ (pOrder x).map φ := by
      intro h
      obtain ⟨p, _, rfl⟩ := List.mem_map.mp h
      simp only [φ] at hj
      omega
    exact (b15 j h).trans (a10 j hj)
  · intro j hj
    have := b9 j (by rw [a3]; exact hj)
    rw [a4, a5] at this
    exact this
  · intro j hj
    simp only [put_ne _ _ hj, b4, a6, m1]

end Verif.HepMC.Root
