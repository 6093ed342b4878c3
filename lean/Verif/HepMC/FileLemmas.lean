import Verif.HepMC.RoundTrip

/-! # Lemmas: a file of several events -/

namespace Verif.HepMC

variable {F G N : Type}

/-- A graph with the same members as a consistent graph is consistent. -/
theorem SameGraph.sound {φ ψ : Nat → Nat} {h h' : Heap F G N} {x x' : Evt F G N} (hg : SameGraph φ ψ h x h' x') (hs : Sound h x)
    (hφ : ∀ p ∈ evParts x, ∀ q ∈ evParts x, φ p = φ q → p = q) (hψ : ∀ p ∈ evVerts x, ∀ q ∈ evVerts x, ψ p = ψ q → p = q) :
    Sound h' x' := by
  have hV : (evVerts x').Perm ((evVerts x).map ψ) := by
    unfold evVerts
    refine (hg.vertices.map Prod.snd).trans ?_
    rw [List.map_map, List.map_map]
    exact List.Perm.refl _
  have hP : (evParts x').Perm ((evParts x).map φ) := by
    unfold evParts
    refine (hg.particles.map Prod.snd).trans ?_
    rw [List.map_map, List.map_map]
    exact List.Perm.refl _
  have mV : ∀ v, v ∈ evVerts x' ↔ ∃ w ∈ evVerts x, ψ w = v := fun v => by rw [hV.mem_iff, List.mem_map]
  have mP : ∀ p, p ∈ evParts x' ↔ ∃ q ∈ evParts x, φ q = p := fun p => by rw [hP.mem_iff, List.mem_map]
  have bP : ∀ p ∈ evParts x, (h'.p (φ p)).data.barcode = (h.p p).data.barcode := by
    intro p hp; rw [(hg.part p hp).data]
  have kV : ∀ b v, (b, v) ∈ mlist x.vertices → v ∈ evVerts x := fun b v hm => List.mem_map.mpr ⟨_, hm, rfl⟩
  have kP : ∀ b v, (b, v) ∈ mlist x.particles → v ∈ evParts x := fun b v hm => List.mem_map.mpr ⟨_, hm, rfl⟩
  constructor
  · intro b v hm
    rw [hg.vertices.mem_iff, List.mem_map] at hm
    obtain ⟨⟨b', w⟩, hw, he⟩ := hm
    cases he
    rw [(hg.vtx w (kV _ _ hw)).data]
    exact hs.vkey _ _ hw
  · refine (hg.vertices.map Prod.fst).nodup_iff.mpr ?_
    rw [List.map_map]
    exact hs.vnodup
  · intro v hv
    obtain ⟨w, hw, rfl⟩ := (mV v).mp hv
    rw [(hg.vtx w hw).data]
    exact hs.vne0 w hw
  · intro b v hm
    rw [hg.particles.mem_iff, List.mem_map] at hm
    obtain ⟨⟨b', w⟩, hw, he⟩ := hm
    cases he
    rw [bP w (kP _ _ hw)]
    exact hs.pkey _ _ hw
  · refine (hg.particles.map Prod.fst).nodup_iff.mpr ?_
    rw [List.map_map]
    exact hs.pnodup
  · intro v hv
    obtain ⟨w, hw, rfl⟩ := (mP v).mp hv
    rw [bP w hw]
    exact hs.pne0 w hw
  · intro v hv p
    obtain ⟨w, hw, rfl⟩ := (mV v).mp hv
    rw [(hg.vtx w hw).pin.mem_iff, List.mem_map, mP]
    constructor
    · rintro ⟨q, hq, rfl⟩
      obtain ⟨q1, q2⟩ := (hs.in_iff w hw q).mp hq
      exact ⟨⟨q, q1, rfl⟩, by rw [(hg.part q q1).fin, q2]; rfl⟩
    · rintro ⟨⟨q, q1, rfl⟩, q2⟩
      rw [(hg.part q q1).fin, Option.map_eq_some_iff] at q2
      obtain ⟨w', hw', he⟩ := q2
      have := hψ _ (hs.fin_reg q q1 w' hw') _ hw he
      subst this
      exact ⟨q, (hs.in_iff _ hw q).mpr ⟨q1, hw'⟩, rfl⟩
  · intro v hv p
    obtain ⟨w, hw, rfl⟩ := (mV v).mp hv
    rw [(hg.vtx w hw).pout.mem_iff, List.mem_map, mP]
    constructor
    · rintro ⟨q, hq, rfl⟩
      obtain ⟨q1, q2⟩ := (hs.out_iff w hw q).mp hq
      exact ⟨⟨q, q1, rfl⟩, by rw [(hg.part q q1).prod, q2]; rfl⟩
    · rintro ⟨⟨q, q1, rfl⟩, q2⟩
      rw [(hg.part q q1).prod, Option.map_eq_some_iff] at q2
      obtain ⟨w', hw', he⟩ := q2
      have := hψ _ (hs.prod_reg q q1 w' hw') _ hw he
      subst this
      exact ⟨q, (hs.out_iff _ hw q).mpr ⟨q1, hw'⟩, rfl⟩
  · intro v hv
    obtain ⟨w, hw, rfl⟩ := (mV v).mp hv
    rw [(hg.vtx w hw).pin.nodup_iff]
    exact nodup_map_of (hs.in_nodup w hw) fun a ha b hb => hφ a ((hs.in_iff w hw a).mp ha).1 b ((hs.in_iff w hw b).mp hb).1
  · intro v hv
    obtain ⟨w, hw, rfl⟩ := (mV v).mp hv
    rw [(hg.vtx w hw).pout.nodup_iff]
    exact nodup_map_of (hs.out_nodup w hw) fun a ha b hb => hφ a ((hs.out_iff w hw a).mp ha).1 b ((hs.out_iff w hw b).mp hb).1
  · intro p hp v hv
    obtain ⟨q, hq, rfl⟩ := (mP p).mp hp
    rw [(hg.part q hq).fin, Option.map_eq_some_iff] at hv
    obtain ⟨w, hw, rfl⟩ := hv
    exact (mV _).mpr ⟨w, hs.fin_reg q hq w hw, rfl⟩
  · intro p hp v hv
    obtain ⟨q, hq, rfl⟩ := (mP p).mp hp
    rw [(hg.part q hq).prod, Option.map_eq_some_iff] at hv
    obtain ⟨w, hw, rfl⟩ := hv
    exact (mV _).mpr ⟨w, hs.prod_reg q hq w hw, rfl⟩

/-! ## Lines of a file -/

theorem header_clean : ∀ l ∈ fileHeader ++ [[endGenEvent]], CleanLine l := by
  unfold CleanLine CleanWord
  decide +kernel

theorem evtLines_clean [DecidableEq N] {c : Fmt F G N} (hc : c.Lawful) {h0 : Heap F G N} {x : Evt F G N} (hw : Writable c h0 x) :
    ∀ l ∈ evtLines c h0 x, CleanLine l := by
  intro l hl
  rcases List.mem_append.mp hl with hl | hl
  · exact (head_steps hc 0 h0 x ⟨⟨[], false, false, true, .genEvent, 0, 0, 0⟩, h0, 0⟩ rfl hw.names_nodup hw.names_all
      hw.blanks).clean l hl
  · obtain ⟨v, _, hl⟩ := List.mem_flatMap.mp hl
    unfold vtxLines at hl
    rcases List.mem_cons.mp hl with rfl | hl
    · exact vtxWords_clean hc h0 v
    · rcases List.mem_append.mp hl with hl | hl <;>
      · obtain ⟨p, _, rfl⟩ := List.mem_map.mp hl
        exact partWords_clean hc h0 p

theorem encodeAll_seen (c : Fmt F G N) (es : List (Heap F G N × Evt F G N)) :
    encodeAll c true es = textOf (es.flatMap (fun q => evtLines c q.1 q.2) ++ [[endGenEvent]]) := by
  induction es with
  | nil => rfl
  | cons q es ih =>
    rw [encodeAll, encode]
    dsimp only
    rw [ih, List.flatMap_cons, List.append_assoc, textOf_append (evtLines c q.1 q.2)]
    rfl

theorem encodeAll_cons (c : Fmt F G N) (q : Heap F G N × Evt F G N) (es : List (Heap F G N × Evt F G N)) :
    encodeAll c false (q :: es) = textOf (fileHeader ++ ((q :: es).flatMap (fun q => evtLines c q.1 q.2) ++ [[endGenEvent]])) := by
  rw [encodeAll, encode]
  dsimp only
  rw [encodeAll_seen, ← textOf_append]
  congr 1
  simp [List.append_assoc]

theorem findType_header (d : Dec) (more : List (List UInt8)) :
    findType d (fileHeader.map joinSp ++ more) = .ok { d with rest := more, ftype := .genEvent, seen := true } := by
  have h1 : startKey (tnext (splitOn 32 (joinSp [[]]))).1 = none := by decide +kernel
  have h2 : startKey (tnext (splitOn 32 (joinSp [str "HepMC::Version", str "2.06.09"]))).1 = none := by decide +kernel
  have h3 : startKey (tnext (splitOn 32 (joinSp [startGenEvent]))).1 = some .genEvent := by decide +kernel
  unfold fileHeader
  simp only [List.map_cons, List.map_nil, List.cons_append, List.nil_append]
  rw [findType]; simp only [h1]
  rw [findType]; simp only [h2]
  rw [findType]; simp only [h3]

variable [DecidableEq N]

/-- The end of the listing is an end of file. -/
theorem decode_end {c : Fmt F G N} (ord : List (Int × Int) → List (Int × Int)) (d : Dec) (hseen : d.seen = true)
    (ht : d.ftype = .genEvent) (hr : d.rest = [joinSp [endGenEvent]]) (h : Heap F G N) (k : Nat) :
    decode c ord d h k = .eof { d with sigBc := 0, bp1 := 0, bp2 := 0, rest := [] } := by
  unfold decode
  rw [if_pos hseen]
  rw [R.bind_ok rfl, R.bind_ok (readline_cons (d := { d with sigBc := 0, bp1 := 0, bp2 := 0 }) hr
    (header_clean _ (by simp)))]
  obtain ⟨w, hw, hk⟩ : ∃ w, endGenEvent = 72 :: w ∧ endKey (72 :: w) = some .genEvent :=
    ⟨endGenEvent.tail, by decide +kernel, by decide +kernel⟩
  dsimp only
  rw [hw]
  dsimp only
  rw [if_pos (by decide), if_neg (by decide), if_pos (by rw [hk, ht])]

/-- Decode into several events. -/
def decodeAll (c : Fmt F G N) : Dec → Heap F G N → List (Nat × (List (Int × Int) → List (Int × Int))) → R (Dec × Heap F G N)
  | d, h, [] => .ok (d, h)
  | d, h, (k, ord) :: ks => (decode c ord d h k).bind fun q => decodeAll c q.1 q.2 ks

/-- An event read: it is the event written, with objects of its own, below the counters. -/
structure Got (c : Fmt F G N) (h0 : Heap F G N) (x : Evt F G N) (h' : Heap F G N) (k : Nat) (φ ψ : Nat → Nat) : Prop where
  same : SameEvent c φ ψ h0 x h' (h'.e k)
  injp : ∀ p ∈ evParts x, ∀ q ∈ evParts x, φ p = φ q → p = q
  injv : ∀ p ∈ evVerts x, ∀ q ∈ evVerts x, ψ p = ψ q → p = q
  owner : ∀ v ∈ evVerts x, (h'.v (ψ v)).event = some k
  ltp : ∀ p ∈ evParts x, φ p < h'.np
  ltv : ∀ v ∈ evVerts x, ψ v < h'.nv

omit [DecidableEq N] in
theorem ReadInto.got {c : Fmt F G N} {h0 : Heap F G N} {x : Evt F G N} (hw : Writable c h0 x) {hb : Heap F G N} {k : Nat}
    {h' : Heap F G N} (hr : ReadInto c h0 x hb k h' (phi h0 x hb.np) (psi h0 x hb.nv)) (hz : hb.e k = zeroEvt c) :
    Got c h0 x h' k (phi h0 x hb.np) (psi h0 x hb.nv) := by
  have hfl := mem_flat hw.toSound hw.attached
  constructor
  · constructor
    · exact hr.graph
    · exact hr.values
    · rw [hr.sig, hz]; simp [zeroEvt]
    · rw [hr.beam1, hz]; simp [zeroEvt]
    · rw [hr.beam2, hz]; simp [zeroEvt]
    · have := hr.wmap
      split at this
      · exact this
      · next hn =>
        have hl : (x.weights.getD []).length = 0 := by omega
        have hx := hw.names_all
        rw [hl] at hx
        have : x.wmap = [] := List.map_eq_nil_iff.mp hx.eq_nil
        rw [‹(h'.e k).wmap = _›, hz, this]
        exact List.Perm.refl _
    · rw [hr.cross, hz]; simp [zeroEvt]
    · rw [hr.heavy, hz]; simp [zeroEvt]
    · exact hr.pdf
  · intro p hp q hq he
    exact phi_inj ((hfl p).mpr hp) ((hfl q).mpr hq) he
  · intro p hp q hq he
    exact psi_inj (mem_vtxOrder.mpr hp) (mem_vtxOrder.mpr hq) he
  · exact hr.owner
  · exact fun p hp => (hr.newp p hp).2
  · exact fun p hp => (hr.newv p hp).2

omit [DecidableEq N] in
theorem Got.frame {c : Fmt F G N} {h0 : Heap F G N} {x : Evt F G N} {h h' : Heap F G N} {k : Nat} {φ ψ : Nat → Nat}
    (hg : Got c h0 x h k φ ψ) (np : h.np ≤ h'.np) (nv : h.nv ≤ h'.nv) (hp : ∀ i < h.np, h'.p i = h.p i)
    (hv : ∀ i < h.nv, h'.v i = h.v i) (he : h'.e k = h.e k) : Got c h0 x h' k φ ψ := by
  obtain ⟨s, i1, i2, o, l1, l2⟩ := hg
  refine ⟨⟨⟨?_, ?_, ?_, ?_⟩, ?_, ?_, ?_, ?_, ?_, ?_, ?_, ?_⟩, i1, i2, ?_, ?_, ?_⟩
  · rw [he]; exact s.graph.vertices
  · rw [he]; exact s.graph.particles
  · intro v hv'; rw [hv _ (l2 v hv')]; exact s.graph.vtx v hv'
  · intro p hp'; rw [hp _ (l1 p hp')]; exact s.graph.part p hp'
  · rw [he]; exact s.values
  · rw [he]; exact s.sig
  · rw [he]; exact s.beam1
  · rw [he]; exact s.beam2
  · rw [he]; exact s.wmap
  · rw [he]; exact s.cross
  · rw [he]; exact s.heavy
  · rw [he]; exact s.pdf
  · intro v hv'; rw [hv _ (l2 v hv')]; exact o v hv'
  · intro p hp'; exact Nat.lt_of_lt_of_le (l1 p hp') np
  · intro p hp'; exact Nat.lt_of_lt_of_le (l2 p hp') nv

theorem decodeAll_enc {c : Fmt F G N} (hc : c.Lawful) (more : List (List UInt8)) :
    ∀ (es : List (Heap F G N × Evt F G N)) (ks : List (Nat × (List (Int × Int) → List (Int × Int)))) (d : Dec) (hb : Heap F G N),
    (∀ q ∈ es, Writable c q.1 q.2) → ks.length = es.length → (ks.map Prod.fst).Nodup →
    (∀ q ∈ ks, ∀ l, (q.2 l).Perm l) → (∀ q ∈ ks, hb.e q.1 = zeroEvt c) → d.seen = true → d.ftype = .genEvent →
    d.rest = (es.flatMap fun q => evtLines c q.1 q.2).map joinSp ++ more →
    ∃ d' h', decodeAll c d hb ks = .ok (d', h') ∧ d'.seen = true ∧ d'.ftype = .genEvent ∧ d'.rest = more ∧
      d'.done = d.done ∧ d'.long = d.long ∧
      hb.np ≤ h'.np ∧ hb.nv ≤ h'.nv ∧ (∀ i < hb.np, h'.p i = hb.p i) ∧ (∀ i < hb.nv, h'.v i = hb.v i) ∧
      (∀ i, i ∉ ks.map Prod.fst → h'.e i = hb.e i) ∧
      ∀ (i : Nat) (q : Heap F G N × Evt F G N) (kk : Nat × (List (Int × Int) → List (Int × Int))), es[i]? = some q → ks[i]? = some kk →
        ∃ φ ψ, Got c q.1 q.2 h' kk.1 φ ψ
  | [], ks, d, hb => by
    intro _ hl _ _ _ h1 h2 h3
    have : ks = [] := List.length_eq_zero_iff.mp hl
    subst this
    refine ⟨d, hb, rfl, h1, h2, by simpa using h3, rfl, rfl, Nat.le_refl _, Nat.le_refl _, fun _ _ => rfl, fun _ _ => rfl,
      fun _ _ => rfl, ?_⟩
    intro i q kk hq
    simp at hq
  | q :: es, [], d, hb => by
    intro _ hl
    simp at hl
  | q :: es, (k, ord) :: ks, d, hb => by
    intro hw hl hnd hord hz h1 h2 h3
    simp only [List.length_cons, Nat.add_right_cancel_iff] at hl
    rw [List.map_cons, List.nodup_cons] at hnd
    obtain ⟨h1', hdec, hri⟩ := decode_one hc (hw q (by simp)) (hord (k, ord) (by simp)) d h1 h2
      ((es.flatMap fun q => evtLines c q.1 q.2).map joinSp ++ more) (by rw [h3]; simp [List.append_assoc]) hb k
    have hz' : ∀ r ∈ ks, h1'.e r.1 = zeroEvt c := by
      intro r hr
      rw [hri.eframe _ ?_]
      · exact hz r (List.mem_cons_of_mem _ hr)
      · intro he
        exact hnd.1 (List.mem_map.mpr ⟨r, hr, he⟩)
    obtain ⟨d', h', e1, e2, e3, e4, e5, e6, f1, f2, f3, f4, f5, f6⟩ := decodeAll_enc hc more es ks
      { d with
        rest := (es.flatMap fun q => evtLines c q.1 q.2).map joinSp ++ more
        sigBc := vBc q.1 q.2.sig
        bp1 := pBc q.1 q.2.beam1
        bp2 := pBc q.1 q.2.beam2 } h1'
      (fun r hr => hw r (List.mem_cons_of_mem _ hr)) hl hnd.2 (fun r hr => hord r (List.mem_cons_of_mem _ hr)) hz'
      h1 h2 rfl
    refine ⟨d', h', ?_, e2, e3, e4, e5, e6, Nat.le_trans hri.np f1, Nat.le_trans hri.nv f2, ?_, ?_, ?_, ?_⟩
    · rw [decodeAll, R.bind_ok hdec]
      exact e1
    · intro i hi
      rw [f3 i (Nat.lt_of_lt_of_le hi hri.np), hri.pframe i hi]
    · intro i hi
      rw [f4 i (Nat.lt_of_lt_of_le hi hri.nv), hri.vframe i hi]
    · intro i hi
      simp only [List.map_cons, List.mem_cons, not_or] at hi
      rw [f5 i hi.2, hri.eframe i hi.1]
    · intro i r kk hr hkk
      cases i with
      | zero =>
        cases hr
        cases hkk
        exact ⟨_, _, (hri.got (hw q (by simp)) (hz (k, ord) (by simp))).frame f1 f2 f3 f4 (f5 k hnd.1)⟩
      | succ i => exact f6 i r kk hr hkk

theorem decode_header {c : Fmt F G N} (ord : List (Int × Int) → List (Int × Int)) (d : Dec) (hs : d.seen = false)
    (more : List (List UInt8)) (hr : d.rest = fileHeader.map joinSp ++ more) (h : Heap F G N) (k : Nat) :
    decode c ord d h k = decode c ord { d with rest := more, ftype := .genEvent, seen := true } h k := by
  unfold decode
  rw [hs, hr, findType_header]
  rfl

end Verif.HepMC
