import Verif.HepMC.TextLemmas

/-! # Lemmas: every line written is read back -/

namespace Verif.HepMC

variable {F G N : Type}

/-- The map of flow codes as read. -/
def canonFlow (l : List (Int × Int)) : List (Int × Int) := (sortBy Prod.fst l).reverse

theorem canonFlow_perm (l : List (Int × Int)) : (canonFlow l).Perm l :=
  (List.reverse_perm _).trans (sortBy_perm _ _)

theorem pFlow_enc (l : List (Int × Int)) (h : (l.map Prod.fst).Nodup) (ts : Toks) :
    pFlow (flowWords l ++ ts) = some (canonFlow l, ts) := by
  unfold pFlow flowWords
  rw [List.cons_append, P.bind_some (pInt_len l _)]
  have hp := sortBy_perm Prod.fst l
  rw [P.bind_some (m := pMany _ _) (a := sortBy Prod.fst l) (ts' := ts)]
  · show some (_, ts) = _
    rw [foldl_mset]
    · simp [canonFlow]
    · simp only [List.map_nil, List.append_nil]
      exact (hp.map Prod.fst).nodup_iff.mpr h
  · rw [Int.toNat_natCast, ← hp.length_eq]
    refine pMany_flat _ _ ?_ _ _
    intro a ts
    rw [List.cons_append, P.bind_some (pInt_enc _ _), List.cons_append, P.bind_some (pInt_enc _ _)]
    rfl

/-- What reading the line of a particle yields. -/
def readDat (h : Heap F G N) (p : Nat) : PData F × Int :=
  ({ (h.p p).data with flow := canonFlow (h.p p).data.flow }, vBc h (h.p p).fin)

theorem pPart_enc {c : Fmt F G N} (hc : c.Lawful) (h : Heap F G N) (p : Nat)
    (hf : ((h.p p).data.flow.map Prod.fst).Nodup) {ft : FType} (hft : ft = .genEvent) :
    (R.ofOption (pPart c ft (partWords c h p).tail)) = .ok (readDat h p, []) := by
  subst hft
  unfold pPart partWords
  simp only [List.cons_append, List.nil_append, List.tail_cons]
  rw [P.bind_some (pInt_enc _ _), P.bind_some (pInt_enc _ _), P.bind_some (pF_enc hc _ _), P.bind_some (pF_enc hc _ _),
    P.bind_some (pF_enc hc _ _), P.bind_some (pF_enc hc _ _), if_neg (by decide), P.bind_some (pF_enc hc _ _),
    P.bind_some (pInt_enc _ _), P.bind_some (pF_enc hc _ _), P.bind_some (pF_enc hc _ _), P.bind_some (pInt_enc _ _)]
  have := pFlow_enc (h.p p).data.flow hf []
  rw [List.append_nil] at this
  rw [P.bind_some this]
  rfl

theorem rVtx_enc {c : Fmt F G N} (hc : c.Lawful) (h : Heap F G N) (v : Nat) :
    rVtx c (vtxWords c h v).tail = .ok ⟨(h.v v).data, ((orphans h v).length : Int), ((h.v v).pout.length : Int)⟩ := by
  unfold rVtx vtxWords
  simp only [List.cons_append, List.nil_append, List.tail_cons]
  rw [P.bind_some (pInt_enc _ _), P.bind_some (pInt_enc _ _), P.bind_some (pF_enc hc _ _), P.bind_some (pF_enc hc _ _),
    P.bind_some (pF_enc hc _ _), P.bind_some (pF_enc hc _ _), P.bind_some (pInt_len _ _), P.bind_some (pInt_len _ _),
    P.bind_some (pInt_len _ _)]
  show (pSlice (pF c) _ _).bind _ = _
  have := pMany_map (pF c) c.fF (pF_enc hc) (h.v v).data.weights []
  rw [List.append_nil] at this
  rw [R.bind_ok (a := ((h.v v).data.weights, []))]
  dsimp only
  rw [pSlice, if_neg (by omega), Int.toNat_natCast, this]; rfl

theorem rEvt_enc {c : Fmt F G N} (hc : c.Lawful) (h : Heap F G N) (e : Evt F G N) :
    rEvt c (evtWords c h e).tail = .ok ⟨e.number, e.mpi, e.scale, e.aqcd, e.aqed, e.sigId, vBc h e.sig,
      ((mlist e.vertices).length : Int), pBc h e.beam1, pBc h e.beam2, e.rnd, e.weights.getD []⟩ := by
  unfold rEvt evtWords
  simp only [List.cons_append, List.nil_append, List.tail_cons]
  rw [P.bind_some (pInt_enc _ _), P.bind_some (pInt_enc _ _), P.bind_some (pF_enc hc _ _), P.bind_some (pF_enc hc _ _),
    P.bind_some (pF_enc hc _ _), P.bind_some (pInt_enc _ _), P.bind_some (pInt_enc _ _), P.bind_some (pInt_len _ _),
    P.bind_some (pInt_enc _ _), P.bind_some (pInt_enc _ _), P.bind_some (pInt_len _ _)]
  show (pSlice pInt _ _).bind _ = _
  rw [R.bind_ok (a := (e.rnd, lenEnc (e.weights.getD []) :: (e.weights.getD []).map c.fF))]
  · simp only [pInt_len, R.ofOption]
    show (pSlice (pF c) _ _).bind _ = _
    have := pMany_map (pF c) c.fF (pF_enc hc) (e.weights.getD []) []
    rw [List.append_nil] at this
    rw [R.bind_ok (a := (e.weights.getD [], []))]
    rw [pSlice, if_neg (by omega), Int.toNat_natCast, this]; rfl
  · dsimp only
    rw [pSlice, if_neg (by omega), Int.toNat_natCast, pMany_map pInt intEnc pInt_enc]; rfl

theorem pCross_enc {c : Fmt F G N} (hc : c.Lawful) (x : CrossSection F) : pCross c (crossWords c x).tail = some (x, []) := by
  unfold pCross crossWords
  rw [List.tail_cons, P.bind_some (pF_enc hc _ _), P.bind_some (pF_enc hc _ _)]
  rfl

theorem pHeavy_enc {c : Fmt F G N} (hc : c.Lawful) (x : HeavyIon G) : pHeavy c (heavyWords c x).tail = some (x, []) := by
  unfold pHeavy heavyWords
  rw [List.tail_cons, P.bind_some (pInt_enc _ _), P.bind_some (pInt_enc _ _), P.bind_some (pInt_enc _ _),
    P.bind_some (pInt_enc _ _), P.bind_some (pInt_enc _ _), P.bind_some (pInt_enc _ _), P.bind_some (pInt_enc _ _),
    P.bind_some (pInt_enc _ _), P.bind_some (pInt_enc _ _), P.bind_some (pG_enc hc _ _), P.bind_some (pG_enc hc _ _),
    P.bind_some (pG_enc hc _ _), P.bind_some (pG_enc hc _ _)]
  rfl

theorem pPdf_enc {c : Fmt F G N} (hc : c.Lawful) (x : Option (PdfInfo F)) : pPdf c (pdfWords c x).tail =
    some (x.getD ⟨0, 0, 0, 0, c.zero, c.zero, c.zero, c.zero, c.zero⟩, []) := by
  unfold pPdf pdfWords
  dsimp only
  rw [List.tail_cons, P.bind_some (pInt_enc _ _), P.bind_some (pInt_enc _ _), P.bind_some (pF_enc hc _ _),
    P.bind_some (pF_enc hc _ _), P.bind_some (pF_enc hc _ _), P.bind_some (pF_enc hc _ _), P.bind_some (pF_enc hc _ _),
    P.bind_some (pInt_enc _ _), P.bind_some (pInt_enc _ _)]
  rfl

theorem mu_enc (u : MUnit) : MUnit.ofStr u.str = some u := by cases u <;> decide +kernel
theorem lu_enc (u : LUnit) : LUnit.ofStr u.str = some u := by cases u <;> decide +kernel

/-! ## Names of weights -/

theorem nameAt_mem (c : Fmt F G N) (m : List (N × Nat)) (i : Nat) (h : (m.map Prod.snd).Nodup) {n : N}
    (hm : (n, i) ∈ m) : nameAt c m i = n := by
  unfold nameAt
  have key : ∀ (m : List (N × Nat)) (a : N), (m.map Prod.snd).Nodup →
      (((n, i) ∈ m) ∨ (a = n ∧ i ∉ m.map Prod.snd)) → m.foldl (fun a q => if q.2 = i then q.1 else a) a = n := by
    intro m
    induction m with
    | nil => intro a _ ho; rcases ho with ho | ho; (· cases ho); exact ho.1
    | cons q m ih =>
      intro a hn ho
      simp only [List.map_cons, List.nodup_cons] at hn
      rw [List.foldl_cons]
      apply ih _ hn.2
      rcases ho with ho | ho
      · rcases List.mem_cons.mp ho with rfl | ho
        · right; simpa using hn.1
        · exact .inl ho
      · right
        simp only [List.map_cons, List.mem_cons, not_or] at ho
        rw [if_neg (fun hh => ho.2.1 hh.symm)]
        exact ⟨ho.1, ho.2.2⟩
  exact key m _ h (.inl hm)

theorem pNames_enc [DecidableEq N] {c : Fmt F G N} (hc : c.Lawful) (ns : List N) (ts : Toks) (i : Nat) (m : List (N × Nat))
    (hn : (ns ++ m.map Prod.fst).Nodup) :
    pNames c ns.length i m (ns.map c.q ++ ts) = some ((ns.zipIdx i).reverse ++ m) := by
  induction ns generalizing i m with
  | nil => rfl
  | cons n ns ih =>
    simp only [List.length_cons, pNames, List.map_cons, List.cons_append, tnext, hc.q_rt, List.zipIdx_cons,
      List.reverse_cons]
    simp only [List.cons_append, List.nodup_cons, List.mem_append, not_or] at hn
    rw [mset_new _ _ _ hn.1.2, ih]
    · simp
    · have h2 := hn.2
      rw [List.nodup_append] at h2 ⊢
      refine ⟨h2.1, ?_, ?_⟩
      · simp only [List.map_cons, List.nodup_cons]; exact ⟨hn.1.2, h2.2.1⟩
      · intro a ha b hb
        simp only [List.map_cons, List.mem_cons] at hb
        rcases hb with rfl | hb
        · rintro rfl; exact hn.1.1 ha
        · exact h2.2.2 a ha b hb

/-- The names in the order of the weights, with their indices, are the map of names. -/
theorem names_perm (c : Fmt F G N) (m : List (N × Nat)) (n : Nat) (h2 : (m.map Prod.snd).Perm (List.range n)) :
    (((List.range n).map (nameAt c m)).zipIdx).Perm m := by
  have hnd : (m.map Prod.snd).Nodup := h2.nodup_iff.mpr List.nodup_range
  have hz : ((List.range n).map (nameAt c m)).zipIdx = (List.range n).map fun i => (nameAt c m i, i) := by
    apply List.ext_getElem
    · simp
    · intro i h1 h2; simp
  rw [hz]
  have hm : m.map (fun q => (nameAt c m q.2, q.2)) = m := by
    conv => rhs; rw [← List.map_id m]
    apply List.map_congr_left
    intro q hq
    rw [nameAt_mem c m q.2 hnd (n := q.1) hq]
    rfl
  have := h2.symm.map fun i => (nameAt c m i, i)
  rw [List.map_map] at this
  exact this.trans (List.Perm.of_eq hm)

end Verif.HepMC
