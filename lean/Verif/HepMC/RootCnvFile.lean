import Verif.HepMC.RootCnvProps
import Verif.HepMC.Examples

/-!
# The columns of an event, files of events; examples and counterexamples
-/

namespace Verif.HepMC.Root

open Verif.HepMC

variable {F G N : Type} [DecidableEq N]

/-! ## Columns -/

/-- The barcode of a vertex, zero for none. -/
def barcodeOf (m : Mem F G N) : Option Nat → Int
  | none => 0
  | some v => (m.heap.v v).data.barcode

omit [DecidableEq N] in
theorem vbc_of {n : Num F G} {m : Mem F G N} {x : Evt F G N} (hf : Fits n m x) (v : Option Nat) (hv : ∀ w, v = some w → w ∈ evVerts x) :
    vbc m.heap v = barcodeOf m v := by
  cases v with
  | none => rfl
  | some w => exact vbc_some hf (hv w rfl)

omit [DecidableEq N] in
theorem rowP {n : Num F G} {m : Mem F G N} {x : Evt F G N} (hf : Fits n m x) (o : Order N) {p : Nat} (hp : p ∈ pOrder x) :
    (pRow o m p).bc = (m.heap.p p).data.barcode := by
  simp only [pRow]
  exact i32_small (hf.pbc p ((mem_pOrder x p).mp hp)).1

omit [DecidableEq N] in
theorem rowV {n : Num F G} {m : Mem F G N} {x : Evt F G N} (hf : Fits n m x) (o : Order N) {v : Nat} (hv : v ∈ vOrder x) :
    (vRow o m v).bc = (m.heap.v v).data.barcode ∧ (vRow o m v).nin = ((m.heap.v v).pin.length : Int) ∧
    (vRow o m v).nout = ((m.heap.v v).pout.length : Int) := by
  simp only [vRow]
  have hv := (mem_vOrder x v).mp hv
  exact ⟨i32_small (hf.vbc v hv).1, i32_small (hf.vlen v hv).1, i32_small (hf.vlen v hv).2⟩

theorem map_rows {α β γ : Type} (f : α → β) (l : List α) (g : β → γ) (k : α → γ) (h : ∀ a ∈ l, g (f a) = k a) : (l.map f).map g = l.map k := by
  rw [List.map_map]
  exact List.map_congr_left h

omit [DecidableEq N] in
/-- What a reader of the tree sees: a row for every particle, barcodes growing, each with the barcodes of the vertices the particle comes from and
ends in; a row for every vertex, barcodes decreasing, with the numbers of its particles; the barcodes of the particles at vertices
follow in the order of the vertices. -/
theorem C138_columns {n : Num F G} {o : Order N} {m : Mem F G N} {x : Evt F G N} (hs : Sound m.heap x) (hf : Fits n m x)
    (old f : Flat F G N) (hr : read n o old.reset m x = some f) :
    (f.prows.map PRow.bc).Pairwise (· < ·) ∧ (f.vrows.map VRow.bc).Pairwise (· > ·) ∧
    (f.prows.map PRow.bc).Perm ((mlist x.particles).map Prod.fst) ∧ (f.vrows.map VRow.bc).Perm ((mlist x.vertices).map Prod.fst) ∧
    (∀ r ∈ f.prows, ∃ p ∈ evParts x, r.bc = (m.heap.p p).data.barcode ∧ r.pid = (m.heap.p p).data.pdg ∧
      r.pvtx = barcodeOf m (m.heap.p p).prod ∧ r.evtx = barcodeOf m (m.heap.p p).fin) ∧
    ∃ vs : List Nat, f.vrows.map VRow.bc = vs.map (fun v => (m.heap.v v).data.barcode) ∧
      f.vrows.map VRow.nin = vs.map (fun v => ((m.heap.v v).pin.length : Int)) ∧
      f.vrows.map VRow.nout = vs.map (fun v => ((m.heap.v v).pout.length : Int)) ∧
      f.inbcs = vs.flatMap (fun v => (m.heap.v v).pin.map fun p => (m.heap.p p).data.barcode) ∧
      f.outbcs = vs.flatMap (fun v => (m.heap.v v).pout.map fun p => (m.heap.p p).data.barcode) := by
  obtain ⟨pdf, hpdf, _⟩ := hf.pdf
  rw [read, hpdf, Option.map_some] at hr
  cases hr
  have hpb : (columns n o old.reset m x pdf).prows.map PRow.bc = (pOrder x).map fun p => (m.heap.p p).data.barcode := by
    simp only [columns, List.map_map]
    apply List.map_congr_left
    intro p hp
    exact rowP hf o hp
  have hvb : (columns n o old.reset m x pdf).vrows.map VRow.bc = (vOrder x).map fun p => (m.heap.v p).data.barcode := by
    simp only [columns, List.map_map]
    apply List.map_congr_left
    intro p hp
    exact (rowV hf o hp).1
  refine ⟨?_, ?_, ?_, ?_, ?_, vOrder x, hvb, ?_, ?_, ?_, ?_⟩
  · have hn := pnd hs
    rw [hpb]
    rw [pbarcodes hs] at hn ⊢
    have h1 : ((sortBy (fun q : Int × Nat => q.1) (mlist x.particles)).map Prod.fst).Pairwise (· ≤ ·) :=
      List.pairwise_map.mpr (sortBy_sorted _ _)
    exact (h1.and hn).imp (fun h => by omega)
  · have hn := vnd hs
    rw [hvb]
    rw [vbarcodes hs] at hn ⊢
    have h1 : ((sortBy (fun q : Int × Nat => -q.1) (mlist x.vertices)).map Prod.fst).Pairwise (fun a b => -a ≤ -b) :=
      List.pairwise_map.mpr (sortBy_sorted _ _)
    exact (h1.and hn).imp (fun h => by omega)
  · rw [hpb, pbarcodes hs]
    exact (sortBy_perm _ _).map _
  · rw [hvb, vbarcodes hs]
    exact (sortBy_perm _ _).map _
  · intro r hr
    obtain ⟨p, hp, rfl⟩ := List.mem_map.mp hr
    have hb := rowP hf o hp
    have hp := (mem_pOrder x p).mp hp
    exact ⟨p, hp, hb, rfl, vbc_of hf _ (hs.prod_reg p hp), vbc_of hf _ (hs.fin_reg p hp)⟩
  · exact map_rows _ (vOrder x) VRow.nin _ fun v hv => (rowV hf o hv).2.1
  · exact map_rows _ (vOrder x) VRow.nout _ fun v hv => (rowV hf o hv).2.2
  · simp only [columns, Flat.reset, List.nil_append]
    apply List.flatMap_congr
    intro v hv
    apply List.map_congr_left
    intro p hp
    exact pbc_some hf ((hs.in_iff v ((mem_vOrder x v).mp hv) p).mp hp).1
  · simp only [columns, Flat.reset, List.nil_append]
    apply List.flatMap_congr
    intro v hv
    apply List.map_congr_left
    intro p hp
    exact pbc_some hf ((hs.out_iff v ((mem_vOrder x v).mp hv) p).mp hp).1

/-! ## Files -/

omit [DecidableEq N] in
/-- What an event is does not depend on what is made later. -/
theorem Same.later {φ ψ : Nat → Nat} {m m1 m2 : Mem F G N} {x x' : Evt F G N} {e : Nat} (h : Same φ ψ m x m1 x' e)
    (hp : ∀ p ∈ evParts x, m2.heap.p (φ p) = m1.heap.p (φ p))
    (hv : ∀ v ∈ evVerts x, m2.heap.v (ψ v) = m1.heap.v (ψ v) ∧ m2.vmap (ψ v) = m1.vmap (ψ v)) : Same φ ψ m x m2 x' e := by
  refine ⟨⟨h.graph.vertices, h.graph.particles, ?_, ?_⟩, ?_, ?_, ?_, ?_, h.values, h.sig, h.beam1, h.beam2, h.wmap, h.cross, h.heavy, h.pdf⟩
  · intro v k; rw [(hv v k).1]; exact h.graph.vtx v k
  · intro p k; rw [hp p k]; exact h.graph.part p k
  · intro v k; rw [(hv v k).1]; exact h.pin v k
  · intro v k; rw [(hv v k).1]; exact h.pout v k
  · intro v k; rw [(hv v k).1]; exact h.event v k
  · intro v k; rw [(hv v k).2]; exact h.vmap v k

/-- One call of `Read`. -/
theorem readOne_spec {n : Num F G} (hn : n.Lawful) {o : Order N} (ho : o.Lawful) {m : Mem F G N} {x : Evt F G N} (hs : Sound m.heap x)
    (hf : Fits n m x) (old : Flat F G N) : ∃ f, read n o old.reset m x = some f ∧
    ∀ (rows : List (Flat F G N)) (e user : Nat) (m0 : Mem F G N), ∃ m' φ ψ,
      readOne n ⟨f :: rows, false⟩ e user m0 = (⟨rows, false⟩, .evt m') ∧ Same φ ψ m x m' (m'.heap.e user) e ∧
      (∀ p ∈ evParts x, φ p < m'.heap.np) ∧ (∀ v ∈ evVerts x, ψ v < m'.heap.nv) ∧ m0.heap.np ≤ m'.heap.np ∧ m0.heap.nv ≤ m'.heap.nv ∧
      (∀ j, j < m0.heap.np → m'.heap.p j = m0.heap.p j) ∧
      (∀ j, j < m0.heap.nv → m'.heap.v j = m0.heap.v j ∧ m'.vmap j = m0.vmap j) ∧
      (∀ j, j ≠ e → j ≠ user → m'.heap.e j = m0.heap.e j) := by
  obtain ⟨f, hr, h⟩ := C138_event hn ho hs hf old
  refine ⟨f, hr, ?_⟩
  intro rows e user m0
  obtain ⟨m', φ, ψ, h1, h2, h3, h4, h5, h6, h7, h8, h9⟩ :=
    h e { m0 with heap := { m0.heap with e := put m0.heap.e e (zeroEvt n) } }
  refine ⟨{ m' with heap := { m'.heap with e := put m'.heap.e user (m'.heap.e e) } }, φ, ψ, ?_, ?_, fun p hp => (h5 p hp).2,
    fun v hv => (h6 v hv).2, h3, h4, h7, h8, ?_⟩
  · simp only [readOne, Bool.false_eq_true, if_false, h1]
  · simp only [put_same]
    exact h2.later (fun _ _ => rfl) (fun _ _ => ⟨rfl, rfl⟩)
  · intro j hj hu
    simp only [put_ne _ _ hu, h9 j hj, put_ne _ _ hj]

theorem files_aux {n : Num F G} (hn : n.Lawful) {o : Order N} (ho : o.Lawful) (es : List (Mem F G N × Evt F G N))
    (h : ∀ q ∈ es, Sound q.1.heap q.2 ∧ Fits n q.1 q.2) (old : Flat F G N) : ∃ rows, writeAll n o old es = some rows ∧
    rows.length = es.length ∧
    ∀ (rest : List (Flat F G N)) (ks : List (Nat × Nat)) (m0 : Mem F G N), ks.length = es.length → (ks.map Prod.fst ++ ks.map Prod.snd).Nodup →
      ∃ m', readAll n ⟨rows ++ rest, false⟩ ks m0 = some (⟨rest, false⟩, m') ∧
      (∀ i (hi : i < es.length) (hk : i < ks.length), ∃ φ ψ, Same φ ψ es[i].1 es[i].2 m' (m'.heap.e ks[i].2) ks[i].1) ∧
      (∀ j, j < m0.heap.np → m'.heap.p j = m0.heap.p j) ∧
      (∀ j, j < m0.heap.nv → m'.heap.v j = m0.heap.v j ∧ m'.vmap j = m0.vmap j) ∧
      (∀ j, j ∉ ks.map Prod.fst → j ∉ ks.map Prod.snd → m'.heap.e j = m0.heap.e j) := by
  induction es generalizing old with
  | nil =>
    refine ⟨[], rfl, rfl, ?_⟩
    intro rest ks m0 hl _
    cases ks with
    | nil => exact ⟨m0, rfl, by simp, fun _ _ => rfl, fun _ _ => ⟨rfl, rfl⟩, fun _ _ _ => rfl⟩
    | cons k ks => cases hl
  | cons a es ih =>
    obtain ⟨f, hr, h1⟩ := readOne_spec hn ho (h a (by simp)).1 (h a (by simp)).2 old
    obtain ⟨rows, hw, hl, h2⟩ := ih (fun q hq => h q (List.mem_cons_of_mem _ hq)) f
    refine ⟨f :: rows, ?_, by simp [hl], ?_⟩
    · rw [writeAll, hr, Option.bind_some, hw]; rfl
    · intro rest ks m0 hkl hnd
      cases ks with
      | nil => cases hkl
      | cons k ks =>
        obtain ⟨m1, φ, ψ, a1, a2, a3, a4, a5, a6, a7, a8, a9⟩ := h1 (rows ++ rest) k.1 k.2 m0
        have hnd' : (ks.map Prod.fst ++ ks.map Prod.snd).Nodup := by
          refine List.Nodup.sublist ?_ hnd
          simp only [List.map_cons, List.cons_append]
          exact List.Sublist.cons _ (List.Sublist.append (List.Sublist.refl _) (List.Sublist.cons _ (List.Sublist.refl _)))
        have hk2 : k.2 ∉ ks.map Prod.fst ∧ k.2 ∉ ks.map Prod.snd := by
          rw [List.nodup_append] at hnd
          obtain ⟨_, n2, n3⟩ := hnd
          simp only [List.map_cons, List.nodup_cons] at n2
          refine ⟨?_, n2.1⟩
          intro hc
          exact n3 k.2 (by simp only [List.map_cons]; exact List.mem_cons_of_mem _ hc) k.2 (by simp) rfl
        obtain ⟨m', b1, b2, b3, b4, b5⟩ := h2 rest ks m1 (by simpa using hkl) hnd'
        refine ⟨m', ?_, ?_, ?_, ?_, ?_⟩
        · rw [List.cons_append, readAll, a1]
          exact b1
        · intro i hi hk
          cases i with
          | zero =>
            refine ⟨φ, ψ, ?_⟩
            simp only [List.getElem_cons_zero]
            rw [b5 k.2 hk2.1 hk2.2]
            exact a2.later (fun p hp => b3 _ (a3 p hp)) (fun v hv => b4 _ (a4 v hv))
          | succ i =>
            simp only [List.getElem_cons_succ]
            exact b2 i (by simpa using hi) (by simpa using hk)
        · intro j hj
          rw [b3 j (by omega), a7 j hj]
        · intro j hj
          rw [(b4 j (by omega)).1, (b4 j (by omega)).2]
          exact a8 j hj
        · intro j hj1 hj2
          simp only [List.map_cons, List.mem_cons, not_or] at hj1 hj2
          rw [b5 j hj1.2 hj2.2, a9 j hj1.1 hj2.1]

/-- Events written one after the other are read back in order, the same, each in the variable it was read into; reading one does not change those
read before; the next call tells the end of file. -/
theorem C139_events {n : Num F G} (hn : n.Lawful) {o : Order N} (ho : o.Lawful) (es : List (Mem F G N × Evt F G N))
    (h : ∀ q ∈ es, Sound q.1.heap q.2 ∧ Fits n q.1 q.2) (old : Flat F G N) : ∃ rows, writeAll n o old es = some rows ∧
    rows.length = es.length ∧
    ∀ (ks : List (Nat × Nat)) (m0 : Mem F G N), ks.length = es.length → (ks.map Prod.fst ++ ks.map Prod.snd).Nodup →
      ∃ m', readAll n ⟨rows, false⟩ ks m0 = some (⟨[], false⟩, m') ∧
      (∀ i (hi : i < es.length) (hk : i < ks.length), ∃ φ ψ, Same φ ψ es[i].1 es[i].2 m' (m'.heap.e ks[i].2) ks[i].1) ∧
      ∀ e user, readOne n ⟨[], false⟩ e user m' = (⟨[], true⟩, .eof) := by
  obtain ⟨rows, h1, h2, h3⟩ := files_aux hn ho es h old
  refine ⟨rows, h1, h2, ?_⟩
  intro ks m0 hk hnd
  obtain ⟨m', a1, a2, _⟩ := h3 [] ks m0 hk hnd
  rw [List.append_nil] at a1
  exact ⟨m', a1, a2, fun _ _ => rfl⟩

omit [DecidableEq N] in
/-- An event without parton data cannot be written, the writer panics: wherever it is in the list, and whatever was written before. -/
theorem C139_no_pdf_panics_counterexample (n : Num F G) (o : Order N) (es : List (Mem F G N × Evt F G N)) (old : Flat F G N)
    (h : ∃ q ∈ es, q.2.pdf = none) : writeAll n o old es = none := by
  induction es generalizing old with
  | nil => obtain ⟨q, hq, _⟩ := h; cases hq
  | cons a es ih =>
    obtain ⟨q, hq, hp⟩ := h
    rcases List.mem_cons.mp hq with rfl | hq
    · simp [writeAll, read, hp]
    · rw [writeAll]
      cases read n o old.reset a.1 a.2 with
      | none => rfl
      | some f => simp [ih f ⟨q, hq, hp⟩]

/-- After the end of file was told, `Read` gives no error, but an event with nothing in it: who asks again gets events for ever. -/
theorem C139_after_end_counterexample (n : Num F G) (e user e2 user2 : Nat) (m : Mem F G N) : ∃ m',
    (readOne n ⟨[], false⟩ e user m).2 = .eof ∧
    readOne n (readOne n ⟨[], false⟩ e user m).1 e2 user2 m = (⟨[], true⟩, .evt m') ∧
    evVerts (m'.heap.e user2) = [] ∧ evParts (m'.heap.e user2) = [] := by
  refine ⟨_, rfl, rfl, ?_, ?_⟩ <;> simp [put, zeroEvt, evVerts, evParts, mlist]

/-- The vertices of an event that was read do not point to the event that was given to `Read`. -/
theorem C139_event_pointer_counterexample {n : Num F G} (hn : n.Lawful) {o : Order N} (ho : o.Lawful) {m : Mem F G N} {x : Evt F G N}
    (hs : Sound m.heap x) (hf : Fits n m x) (old : Flat F G N) (hv : evVerts x ≠ []) : ∃ f, writeAll n o old [(m, x)] = some [f] ∧
    ∀ (e user : Nat) (m0 : Mem F G N), e ≠ user → ∃ m', readOne n ⟨[f], false⟩ e user m0 = (⟨[], false⟩, .evt m') ∧
      evVerts (m'.heap.e user) ≠ [] ∧ ∀ w ∈ evVerts (m'.heap.e user), (m'.heap.v w).event ≠ some user := by
  obtain ⟨f, hr, h⟩ := readOne_spec hn ho hs hf old
  refine ⟨f, by simp [writeAll, hr], ?_⟩
  intro e user m0 hne
  obtain ⟨m', φ, ψ, h1, h2, _⟩ := h [] e user m0
  have hp : (evVerts (m'.heap.e user)).Perm ((evVerts x).map ψ) := by
    have := h2.graph.vertices.map Prod.snd
    rw [List.map_map] at this
    simpa [evVerts, List.map_map, Function.comp_def] using this
  refine ⟨m', h1, ?_, ?_⟩
  · intro hc
    rw [hc] at hp
    have := hp.length_eq
    simp only [List.length_nil, List.length_map] at this
    exact hv (List.eq_nil_of_length_eq_zero this.symm)
  · intro w hw
    obtain ⟨v, hv, rfl⟩ := List.mem_map.mp (hp.mem_iff.mp hw)
    rw [h2.event v hv]
    intro hc
    cases hc
    exact hne rfl

/-! ## Examples -/

namespace Ex

open Verif.HepMC.Examples

/-- Numbers. -/
def num : Num Int Int := ⟨0, 0, fun x => decide (x = 0), fun x => decide (x = 0)⟩

theorem num_lawful : num.Lawful := ⟨rfl, rfl⟩

/-- Maps are visited backwards. -/
def ord : Order Nm := ⟨List.reverse, List.reverse⟩

theorem ord_lawful : ord.Lawful := ⟨List.reverse_perm, List.reverse_perm⟩

/-- The event of the examples, with parton data. -/
def evt : Evt Int Int Nm := { exE with pdf := some ⟨1, 2, 3, 4, 5, 6, 7, 8, 9⟩, heavy := some ⟨0, 0, 0, 0, 0, 0, 0, 0, 0, 1, 0, 0, 0⟩ }

/-- The memory. -/
def mem : Mem Int Int Nm := ⟨exH, fun v => if v = 0 then [([1], 0), ([2], 1)] else []⟩

theorem evt_sound : Sound mem.heap evt :=
  ⟨ex_sound.vkey, ex_sound.vnodup, ex_sound.vne0, ex_sound.pkey, ex_sound.pnodup, ex_sound.pne0, ex_sound.in_iff,
    ex_sound.out_iff, ex_sound.in_nodup, ex_sound.out_nodup, ex_sound.fin_reg, ex_sound.prod_reg⟩

theorem evt_fits : Fits num mem evt where
  sigId := by decide
  number := by decide
  mpi := by decide
  vbc := by rw [show evVerts evt = [0, 1] from rfl]; decide
  vlen := by rw [show evVerts evt = [0, 1] from rfl]; decide
  vmap := by rw [show evVerts evt = [0, 1] from rfl]; decide
  pbc := by rw [show evParts evt = [2, 0, 1, 3, 4] from rfl]; decide
  flow := by rw [show evParts evt = [2, 0, 1, 3, 4] from rfl]; decide
  wmap := by decide
  sig := by rintro v ⟨⟩; rw [show evVerts evt = [0, 1] from rfl]; simp
  beam1 := by rintro v ⟨⟩; rw [show evParts evt = [2, 0, 1, 3, 4] from rfl]; simp
  beam2 := by rintro v ⟨⟩; rw [show evParts evt = [2, 0, 1, 3, 4] from rfl]; simp
  cross := by rintro c ⟨⟩; decide
  heavy := by rintro c ⟨⟩; decide
  pdf := ⟨_, rfl, by decide⟩

/-- Columns with something in them. -/
def flat0 : Flat Int Int Nm :=
  ⟨0, 0, 0, 0, 0, 0, 0, 0, 0, 0, 0, [7], [8], [9], [], [1], ⟨0, 0⟩, ⟨0, 0, 0, 0, 0, 0, 0, 0, 0, 0, 0, 0, 0⟩, ⟨0, 0, 0, 0, 0, 0, 0, 0, 0⟩, .mev, .mm,
    [], []⟩

/-- Two events in a file. -/
example : ∃ rows, writeAll num ord flat0 [(mem, evt), (mem, evt)] = some rows ∧ rows.length = 2 ∧
    ∃ m', readAll num ⟨rows, false⟩ [(10, 11), (12, 13)] mem = some (⟨[], false⟩, m') ∧ (m'.heap.e 11).number = 42 ∧
      (m'.heap.e 13).cross = some ⟨12, 1⟩ := by
  obtain ⟨rows, h1, h2, h3⟩ := C139_events num_lawful ord_lawful [(mem, evt), (mem, evt)]
    (by intro q hq; simp at hq; subst hq; exact ⟨evt_sound, evt_fits⟩) flat0
  obtain ⟨m', a1, a2, _⟩ := h3 [(10, 11), (12, 13)] mem rfl (by decide)
  obtain ⟨_, _, s0⟩ := a2 0 (by simp) (by simp)
  obtain ⟨_, _, s1⟩ := a2 1 (by simp) (by simp)
  exact ⟨rows, h1, h2, m', a1, s0.values.number, s1.cross⟩

example : ∃ f, read num ord flat0.reset mem evt = some f ∧ f.prows.map PRow.bc = [1, 2, 3, 4, 5] ∧ f.prows.map PRow.pvtx = [0, 0, -1, -2, -2] ∧
    f.prows.map PRow.evtx = [-1, -1, -2, 0, 0] ∧ f.vrows.map VRow.bc = [-1, -2] ∧ f.inbcs = [1, 2, 3] ∧ f.outbcs = [3, 4, 5] :=
  ⟨_, rfl, rfl, rfl, rfl, rfl, rfl, rfl⟩

/-- What an event becomes. -/
def back (x : Evt Int Int Nm) : Option (Evt Int Int Nm) :=
  (read num ord flat0.reset mem x).bind fun f => (write num f 5 mem).map fun m => m.heap.e 5

/-- A cross section of zero is lost, so is heavy-ion data of zeros only; numbers that do not fit 32 bits change; the counters that give the next
barcodes are not kept. -/
theorem C138_losses_counterexample :
    ((back { evt with cross := some ⟨0, 0⟩ }).map fun x => x.cross) = some none ∧
    ((back { evt with heavy := some ⟨0, 0, 0, 0, 0, 0, 0, 0, 0, 0, 0, 0, 0⟩ }).map fun x => x.heavy) = some none ∧
    ((back { evt with number := 2147483648 }).map fun x => x.number) = some (-2147483648) ∧
    ((back { evt with bcparts := 5, bcverts := 2 }).map fun x => (x.bcparts, x.bcverts)) = some (0, 0) := by
  decide +kernel

example : writeAll num ord flat0 [(mem, evt), (mem, exE)] = none :=
  C139_no_pdf_panics_counterexample _ _ _ _ ⟨(mem, exE), by simp, rfl⟩

example : evVerts evt ≠ [] := by decide

end Ex

end Verif.HepMC.Root
