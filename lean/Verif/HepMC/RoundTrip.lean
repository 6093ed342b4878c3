import Verif.HepMC.ConnectLemmas

/-! # Lemmas: an event that was written is read back -/

namespace Verif.HepMC

variable {F G N : Type} [DecidableEq N]

/-- What reading the event `x` of `h0` into the event number `k` of the heap `hb` leaves. -/
structure ReadInto (c : Fmt F G N) (h0 : Heap F G N) (x : Evt F G N) (hb : Heap F G N) (k : Nat) (h' : Heap F G N) (φ ψ : Nat → Nat) :
    Prop where
  graph : SameGraph φ ψ h0 x h' (h'.e k)
  values : SameValues x (h'.e k)
  sig : (h'.e k).sig = (x.sig.map ψ).or (hb.e k).sig
  beam1 : (h'.e k).beam1 = (x.beam1.map φ).or (hb.e k).beam1
  beam2 : (h'.e k).beam2 = (x.beam2.map φ).or (hb.e k).beam2
  wmap : if 0 < (x.weights.getD []).length then (h'.e k).wmap.Perm x.wmap
    else (h'.e k).wmap = if (hb.e k).weights.isNone then [] else (hb.e k).wmap
  cross : (h'.e k).cross = x.cross.or (hb.e k).cross
  heavy : (h'.e k).heavy = x.heavy.or (hb.e k).heavy
  pdf : (h'.e k).pdf = some (x.pdf.getD ⟨0, 0, 0, 0, c.zero, c.zero, c.zero, c.zero, c.zero⟩)
  owner : ∀ v ∈ evVerts x, (h'.v (ψ v)).event = some k
  sorted_in : ∀ v ∈ evVerts x, ((h'.v (ψ v)).pin.map fun p => (h'.p p).data.barcode).Pairwise (· ≤ ·)
  sorted_out : ∀ v ∈ evVerts x, ((h'.v (ψ v)).pout.map fun p => (h'.p p).data.barcode).Pairwise (· ≤ ·)
  newp : ∀ p ∈ evParts x, hb.np ≤ φ p ∧ φ p < h'.np
  newv : ∀ v ∈ evVerts x, hb.nv ≤ ψ v ∧ ψ v < h'.nv
  np : hb.np ≤ h'.np
  nv : hb.nv ≤ h'.nv
  pframe : ∀ i < hb.np, h'.p i = hb.p i
  vframe : ∀ i < hb.nv, h'.v i = hb.v i
  eframe : ∀ i, i ≠ k → h'.e i = hb.e i

omit [DecidableEq N] in
theorem foldl_addVtx_d (e : Nat) (h0 : Heap F G N) (vs : List Nat) (a : Acc F G N) : (vs.foldl (addVtx e h0) a).d = a.d := by
  induction vs generalizing a with
  | nil => rfl
  | cons v vs ih => rw [List.foldl_cons, ih, addVtx_d]

omit [DecidableEq N] in
theorem setSignal_ok {h0 : Heap F G N} {x : Evt F G N} {hb : Heap F G N} {e : Nat} {xb : Evt F G N} (hs : Sound h0 x)
    (hsig : ∀ v, x.sig = some v → v ∈ evVerts x) {a : Acc F G N}
    (hi : Inv h0 x hb e xb a (flat h0 (vtxOrder h0 x)) (vtxOrder h0 x)) (hd : a.d.sigBc = vBc h0 x.sig) :
    setSignal a.d a.h e = .ok { a.h with e := put hb.e e { xb with
      vertices := some (((vtxOrder h0 x).map fun v => ((h0.v v).data.barcode, psi h0 x hb.nv v)).reverse)
      particles := some (((flat h0 (vtxOrder h0 x)).map fun p => ((h0.p p).data.barcode, phi h0 x hb.np p)).reverse)
      sig := (x.sig.map (psi h0 x hb.nv)).or xb.sig } } := by
  unfold setSignal
  rw [hd]
  cases hx : x.sig with
  | none =>
    rw [if_pos (by simp [vBc])]
    congr 1
    have := hi.evt
    generalize a.h = h at *
    cases h
    simp only at this
    subst this
    simp
  | some s =>
    have hsv := hsig s hx
    rw [if_neg (by simpa [vBc] using hs.vne0 s hsv)]
    have hf : (mlist (a.h.e e).vertices).find? (fun q => decide ((a.h.v q.2).data.barcode = vBc h0 (some s))) =
        some ((h0.v s).data.barcode, psi h0 x hb.nv s) := by
      rw [hi.evt, put_same]
      simp only [mlist, Option.getD_some]
      rw [List.find?_eq_some_iff_append]
      have hm : ((h0.v s).data.barcode, psi h0 x hb.nv s) ∈
          ((vtxOrder h0 x).map fun v => ((h0.v v).data.barcode, psi h0 x hb.nv v)).reverse := by
        rw [List.mem_reverse]
        exact List.mem_map_of_mem (f := fun v => ((h0.v v).data.barcode, psi h0 x hb.nv v)) (mem_vtxOrder.mpr hsv)
      have hnd : (((vtxOrder h0 x).map fun v => ((h0.v v).data.barcode, psi h0 x hb.nv v)).reverse).Nodup := by
        rw [(List.reverse_perm _).nodup_iff]
        apply nodup_map_of hs.vl_nodup
        intro a ha b hb hab
        exact hs.vbc_inj (mem_vtxOrder.mp ha) (mem_vtxOrder.mp hb) (congrArg Prod.fst hab)
      refine ⟨?_, ?_⟩
      · rw [(hi.vtx s (mem_vtxOrder.mpr hsv)).1]
        simp [vBc]
      · obtain ⟨A, B, hAB⟩ := List.append_of_mem hm
        refine ⟨A, B, hAB, ?_⟩
        intro q hq
        have hq' : q ∈ ((vtxOrder h0 x).map fun v => ((h0.v v).data.barcode, psi h0 x hb.nv v)).reverse := by
          rw [hAB]; simp [hq]
        rw [List.mem_reverse] at hq'
        obtain ⟨w, hw, rfl⟩ := List.mem_map.mp hq'
        rw [(hi.vtx w hw).1]
        simp only [vBc, Bool.not_eq_true']
        apply decide_eq_false
        intro he
        have := hs.vbc_inj (mem_vtxOrder.mp hw) hsv he
        subst this
        rw [hAB, List.nodup_append] at hnd
        exact hnd.2.2 _ hq _ (by simp) rfl
    rw [hf]
    simp only
    unfold Heap.modE
    rw [hi.evt, put_same, put_put]
    simp

theorem decode_one {c : Fmt F G N} (hc : c.Lawful) {h0 : Heap F G N} {x : Evt F G N} (hw : Writable c h0 x)
    {ord : List (Int × Int) → List (Int × Int)} (hord : ∀ l, (ord l).Perm l) (d : Dec) (hseen : d.seen = true)
    (ht : d.ftype = .genEvent) (more : List (List UInt8)) (hr : d.rest = (evtLines c h0 x).map joinSp ++ more)
    (hb : Heap F G N) (k : Nat) :
    ∃ h', decode c ord d hb k = .ok ({ d with rest := more, sigBc := vBc h0 x.sig, bp1 := pBc h0 x.beam1, bp2 := pBc h0 x.beam2 }, h') ∧
      ReadInto c h0 x hb k h' (phi h0 x hb.np) (psi h0 x hb.nv) := by
  have hs := hw.toSound
  have hfl := mem_flat hs hw.attached
  -- the lines
  obtain ⟨v, vs, hvl⟩ : ∃ v vs, vtxOrder h0 x = v :: vs := by
    cases hv : vtxOrder h0 x with
    | nil =>
      have := (vtxOrder_perm h0 x).length_eq
      rw [hv] at this
      exact absurd (List.length_eq_zero_iff.mp this.symm) hw.nonempty
    | cons v vs => exact ⟨v, vs, rfl⟩
  obtain ⟨tl, htl⟩ : ∃ tl, headLines c h0 x = evtWords c h0 x :: tl := ⟨_, rfl⟩
  have hflow : ∀ w ∈ v :: vs, ∀ p ∈ orphans h0 w ++ (h0.v w).pout, ((h0.p p).data.flow.map Prod.fst).Nodup := by
    intro w hw' p hp
    exact hw.flow_nodup p (hs.block (mem_vtxOrder.mp (by rw [hvl]; exact hw')) hp).1
  have hr' : d.rest = joinSp (evtWords c h0 x) :: (tl.map joinSp ++ joinSp (vtxWords c h0 v) ::
      ((orphans h0 v).map (fun p => joinSp (partWords c h0 p)) ++ ((h0.v v).pout.map (fun p => joinSp (partWords c h0 p)) ++
        ((vs.flatMap (vtxLines c h0)).map joinSp ++ more)))) := by
    rw [hr, evtLines, hvl, htl, List.flatMap_cons, vtxLines]
    simp [List.map_append, Function.comp_def]
  generalize hmore1 : (orphans h0 v).map (fun p => joinSp (partWords c h0 p)) ++ ((h0.v v).pout.map (fun p => joinSp (partWords c h0 p)) ++
    ((vs.flatMap (vtxLines c h0)).map joinSp ++ more)) = more1 at hr'
  have hst := head_steps hc k h0 x ⟨{ d with sigBc := 0, bp1 := 0, bp2 := 0, rest := tl.map joinSp ++ joinSp (vtxWords c h0 v) :: more1 },
    hb, 0⟩ ht hw.names_nodup hw.names_all hw.blanks
  rw [htl] at hst
  have hloop := headLoop_steps (headStep_V k h0 v) (vtxWords_clean hc h0 v) more1 tl (evtWords c h0 x) _ _ hst
  -- the vertices
  generalize hd1 : ({ d with rest := more1, sigBc := vBc h0 x.sig, bp1 := pBc h0 x.beam1, bp2 := pBc h0 x.beam2 } : Dec) = d1
  have hd1t : d1.ftype = .genEvent := by rw [← hd1]; exact ht
  have hd1r : d1.rest = more1 := by rw [← hd1]
  have i0 : Inv h0 x hb k (headEvt c x (hb.e k)) ⟨d1, hb.modE k (headEvt c x), []⟩ (flat h0 []) [] := by
    constructor
    · rfl
    · intro p hp; cases hp
    · rfl
    · intro i _; rfl
    · intro w hw; cases hw
    · intro i _; rfl
    · rfl
  obtain ⟨iA, nA⟩ := i0.addVtxs hs (v :: vs) (by rfl) hvl
  have hA : readAllVtxs c k ((mlist x.vertices).length : Int) ⟨d1, hb.modE k (headEvt c x), []⟩ (vtxWords c h0 v) =
      .ok (((v :: vs).foldl (addVtx k h0) ⟨d1, hb.modE k (headEvt c x), []⟩).withRest more) := by
    have hlen : (mlist x.vertices).length = vs.length + 1 := by
      have := (vtxOrder_perm h0 x).length_eq
      rw [hvl, evVerts, List.length_map, List.length_cons] at this
      exact this.symm
    unfold readAllVtxs
    rw [hlen, Int.toNat_natCast]
    dsimp only
    rw [R.bind_ok (readVtx_enc hc h0 k _ v (hflow v (by simp)) _ hd1t (by rw [hmore1]; exact hd1r))]
    rw [readVtxs_enc hc h0 k more vs (fun w hw => hflow w (List.mem_cons_of_mem _ hw)) _ ?_ (by rfl)]
    · rw [List.foldl_cons]
      congr 1
      generalize addVtx k h0 _ v = b
      have key : ∀ (vs : List Nat) (a : Acc F G N) (l1 : List (List UInt8)),
          (vs.foldl (addVtx k h0) (a.withRest l1)).withRest more = (vs.foldl (addVtx k h0) a).withRest more := by
        intro vs
        induction vs with
        | nil => intro a l1; rfl
        | cons w vs ih =>
          intro a l1
          rw [List.foldl_cons, List.foldl_cons]
          have : addVtx k h0 (a.withRest l1) w = (addVtx k h0 a w).withRest l1 := by
            unfold addVtx
            simp only [incV_withRest, addParts_withRest]
            rfl
          rw [this, ih]
      exact key vs b _
    · show (addVtx k h0 _ v).d.ftype = _
      rw [addVtx_d]; exact hd1t
  generalize hAdef : (v :: vs).foldl (addVtx k h0) ⟨d1, hb.modE k (headEvt c x), []⟩ = A at *
  have hAd : A.d = d1 := by rw [← hAdef, foldl_addVtx_d]
  -- the signal vertex
  have iA' : Inv h0 x hb k (headEvt c x (hb.e k)) (A.withRest more) (flat h0 (vtxOrder h0 x)) (vtxOrder h0 x) :=
    ⟨iA.np, iA.part, iA.pend, iA.pframe, iA.vtx, iA.vframe, iA.evt⟩
  have hsig := setSignal_ok hs hw.sig_in iA' (by simp only [Acc.withRest]; rw [hAd, ← hd1])
  -- the end vertices
  have hpend : (ord (A.withRest more).pend).Perm (((flat h0 (vtxOrder h0 x)).filter fun p => (h0.p p).fin.isSome).map fun p =>
      ((h0.p p).data.barcode, vBc h0 (h0.p p).fin)) := by
    refine (hord _).trans ?_
    rw [iA'.pend]
    exact List.reverse_perm _
  obtain ⟨D, hD, hDo⟩ := perm_map_exists hpend rfl
  have hDmem : ∀ p, p ∈ D ↔ p ∈ evParts x ∧ (h0.p p).fin.isSome = true := by
    intro p
    rw [hD.mem_iff, List.mem_filter, hfl]
  have hDnd : D.Nodup := hD.nodup_iff.mpr ((hs.flat_nodup _ hs.vl_nodup fun w hw => mem_vtxOrder.mp hw).filter _)
  generalize hxs : ({ headEvt c x (hb.e k) with
      vertices := some (((vtxOrder h0 x).map fun v => ((h0.v v).data.barcode, psi h0 x hb.nv v)).reverse)
      particles := some (((flat h0 (vtxOrder h0 x)).map fun p => ((h0.p p).data.barcode, phi h0 x hb.np p)).reverse)
      sig := (x.sig.map (psi h0 x hb.nv)).or (headEvt c x (hb.e k)).sig } : Evt F G N) = xs at hsig
  have hV : mlist xs.vertices = ((vtxOrder h0 x).map fun v => ((h0.v v).data.barcode, psi h0 x hb.nv v)).reverse := by
    rw [← hxs]; rfl
  have hP : mlist xs.particles = ((flat h0 (vtxOrder h0 x)).map fun p => ((h0.p p).data.barcode, phi h0 x hb.np p)).reverse := by
    rw [← hxs]; rfl
  have c0 : CInv h0 x hb k (A.withRest more).d xs { (A.withRest more).h with e := put hb.e k xs } [] := by
    constructor
    · exact nA
    · exact iA.np
    · intro p hp
      rw [if_neg (by simp)]
      exact iA.part p hp
    · exact iA.pframe
    · intro w hw'
      obtain ⟨a1, a2, a3, a4⟩ := iA.vtx w hw'
      exact ⟨a1, a3, a4, [], by simp, by simp, a2⟩
    · exact iA.vframe
    · exact ⟨xs.beam1, xs.beam2, rfl, by simp, by simp, by simp, by simp⟩
  obtain ⟨h', hcon, cD⟩ := c0.steps hs hfl hV hP D (by simpa using fun q hq => ((hDmem q).mp hq).1) (by simpa using hDnd)
    fun p hp => ((hDmem p).mp hp).2
  rw [List.nil_append] at cD
  refine ⟨h', ?_, ?_⟩
  · unfold decode
    rw [if_pos hseen]
    show R.bind (R.ok d) _ = _
    rw [R.bind_ok rfl, R.bind_ok (readline_cons (d := { d with sigBc := 0, bp1 := 0, bp2 := 0 }) hr' (evtWords_clean hc h0 x))]
    have hE : evtWords c h0 x = [69] :: (evtWords c h0 x).tail := by
      unfold evtWords; rw [str1.1]; rfl
    dsimp only
    rw [hE]
    dsimp only
    rw [if_neg (by simp), ← hE, R.bind_ok hloop]
    dsimp only
    rw [hd1, R.bind_ok hA, R.bind_ok hsig, hDo, R.bind_ok hcon]
    show R.ok _ = R.ok _
    congr 2
    simp only [Acc.withRest]
    rw [hAd, ← hd1]
  · obtain ⟨b1, b2, he, k1, k2, k3, k4⟩ := cD.evt
    have hek : h'.e k = { xs with beam1 := b1, beam2 := b2 } := by rw [he, put_same]
    have hbp1 : (A.withRest more).d.bp1 = pBc h0 x.beam1 := by simp only [Acc.withRest]; rw [hAd, ← hd1]
    have hbp2 : (A.withRest more).d.bp2 = pBc h0 x.beam2 := by simp only [Acc.withRest]; rw [hAd, ← hd1]
    have hpbar : ∀ p ∈ evParts x, (h'.p (phi h0 x hb.np p)).data.barcode = (h0.p p).data.barcode := by
      intro p hp; rw [cD.part p ((hfl p).mpr hp)]; rfl
    have hflperm : (flat h0 (vtxOrder h0 x)).Perm (evParts x) :=
      (List.perm_ext_iff_of_nodup (hs.flat_nodup _ hs.vl_nodup fun w hw => mem_vtxOrder.mp hw) hs.parts_nodup).mpr hfl
    constructor
    · -- graph
      constructor
      · rw [hek]
        show (mlist xs.vertices).Perm _
        rw [hV, hs.vmap, List.map_map]
        exact (List.reverse_perm _).trans ((vtxOrder_perm h0 x).map _)
      · rw [hek]
        show (mlist xs.particles).Perm _
        rw [hP, hs.pmap, List.map_map]
        exact (List.reverse_perm _).trans (hflperm.map _)
      · intro w hw'
        obtain ⟨a1, a2, a3, L, a4, a5, a6⟩ := cD.vtx w (mem_vtxOrder.mpr hw')
        refine ⟨a1, ?_, ?_⟩
        · rw [a6]
          apply List.Perm.map
          refine a4.trans ?_
          rw [List.perm_ext_iff_of_nodup (hDnd.filter _) (hs.in_nodup w hw')]
          intro p
          rw [List.mem_filter, hDmem, hs.in_iff w hw', decide_eq_true_eq]
          constructor
          · rintro ⟨⟨a, _⟩, b⟩; exact ⟨a, b⟩
          · rintro ⟨a, b⟩; exact ⟨⟨a, by rw [b]; rfl⟩, b⟩
        · rw [a2]
          exact (sortBy_perm _ _).map _
      · intro p hp
        have hpp := cD.part p ((hfl p).mpr hp)
        have hfin : (if p ∈ D then (h0.p p).fin.map (psi h0 x hb.nv) else none) = (h0.p p).fin.map (psi h0 x hb.nv) := by
          by_cases hpD : p ∈ D
          · rw [if_pos hpD]
          · rw [if_neg hpD]
            have : (h0.p p).fin = none := by
              cases hf : (h0.p p).fin with
              | none => rfl
              | some w => exact absurd ((hDmem p).mpr ⟨hp, by rw [hf]; rfl⟩) hpD
            rw [this]; rfl
        rw [hfin] at hpp
        rw [hpp]
        exact ⟨rfl, canonFlow_perm _, rfl, rfl⟩
    · rw [hek, ← hxs]
      exact ⟨rfl, rfl, rfl, rfl, rfl, rfl, rfl, rfl, rfl, rfl⟩
    · rw [hek, ← hxs]; rfl
    · rw [hek]
      show b1 = _
      cases hx : x.beam1 with
      | none =>
        rw [k2, ← hxs]
        · rfl
        · intro p hp
          rw [hbp1, hx]
          exact hs.pne0 p ((hDmem p).mp hp).1
      | some p =>
        obtain ⟨q1, q2⟩ := hw.beam1_in p hx
        rw [k1 p ((hDmem p).mpr ⟨q1, Option.isSome_iff_ne_none.mpr q2⟩) (by rw [hbp1, hx]; rfl)]
        rfl
    · rw [hek]
      show b2 = _
      cases hx : x.beam2 with
      | none =>
        rw [k4, ← hxs]
        · rfl
        · intro p hp
          rw [hbp2, hx]
          exact hs.pne0 p ((hDmem p).mp hp).1
      | some p =>
        obtain ⟨q1, q2⟩ := hw.beam2_in p hx
        rw [k3 p ((hDmem p).mpr ⟨q1, Option.isSome_iff_ne_none.mpr q2⟩) (by rw [hbp2, hx]; rfl)]
        rfl
    · rw [hek, ← hxs]
      simp only [headEvt]
      split
      · exact canonNames_perm c x.wmap _ hw.names_all
      · rfl
    · rw [hek, ← hxs]; rfl
    · rw [hek, ← hxs]; rfl
    · rw [hek, ← hxs]; rfl
    · intro w hw'
      exact (cD.vtx w (mem_vtxOrder.mpr hw')).2.2.1
    · intro w hw'
      obtain ⟨_, _, _, L, a4, a5, a6⟩ := cD.vtx w (mem_vtxOrder.mpr hw')
      rw [a6, List.map_map]
      rw [List.pairwise_map]
      refine a5.imp_of_mem ?_
      intro p q hp hq hle
      have m1 := ((hDmem p).mp (List.mem_filter.mp (a4.mem_iff.mp hp)).1).1
      have m2 := ((hDmem q).mp (List.mem_filter.mp (a4.mem_iff.mp hq)).1).1
      simp only [Function.comp_apply]
      rw [hpbar p m1, hpbar q m2]
      exact hle
    · intro w hw'
      obtain ⟨_, a2, _, _⟩ := cD.vtx w (mem_vtxOrder.mpr hw')
      rw [a2, List.map_map]
      rw [List.pairwise_map]
      refine (sortBy_sorted _ _).imp_of_mem ?_
      intro p q hp hq hle
      have m1 := ((hs.out_iff w hw' p).mp ((sortBy_perm _ _).mem_iff.mp hp)).1
      have m2 := ((hs.out_iff w hw' q).mp ((sortBy_perm _ _).mem_iff.mp hq)).1
      simp only [Function.comp_apply]
      rw [hpbar p m1, hpbar q m2]
      exact hle
    · intro p hp
      rw [cD.np]
      have := List.idxOf_lt_length_iff.mpr ((hfl p).mpr hp)
      unfold phi
      omega
    · intro w hw'
      rw [cD.nv]
      have := List.idxOf_lt_length_iff.mpr (mem_vtxOrder.mpr hw' : w ∈ vtxOrder h0 x)
      unfold psi
      omega
    · rw [cD.np]; omega
    · rw [cD.nv]; omega
    · exact cD.pframe
    · exact cD.vframe
    · intro i hik
      rw [he, put_ne _ _ hik]

end Verif.HepMC
