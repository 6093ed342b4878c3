import Verif.HepMC.Props

/-!
# Copying HepMC files (C85)

`hepmc/io.go` reads every event into one `Event` variable and writes it.
-/

namespace Verif.HepMC

variable {F G N : Type} [DecidableEq N]

/-- `hepmc/io.go:33-55 (`Copy`)` from a `Decoder` to an `Encoder`: all events are read into the
event `k`; the number of events copied, the bytes written and the state of the encoder.  One
order of map iteration per call of `Read` is given; when they run out the outcome is `hang`,
so that this is never mistaken for a result. -/
def copyEvents (c : Fmt F G N) (k : Nat) :
    List (List (Int × Int) → List (Int × Int)) → Dec → Heap F G N → Bool → R (Nat × List UInt8 × Bool)
  | [], _, _, _ => .hang
  | o :: os, d, h, seen =>
    match decode c o d h k with
    | .ok q =>
      (copyEvents c k os q.1 q.2 (encode c seen q.2 (q.2.e k)).1).bind fun r =>
        .ok (r.1 + 1, (encode c seen q.2 (q.2.e k)).2 ++ r.2.1, r.2.2)
    | .eof _ => .ok (0, [], seen)
    | .err => .err
    | .panic => .panic
    | .hang => .hang

/-- The lists of particles of the vertices are sorted by barcode, as they are in events read. -/
structure Ordered (h : Heap F G N) (x : Evt F G N) : Prop where
  pin : ∀ v ∈ evVerts x, ((h.v v).pin.map fun p => (h.p p).data.barcode).Pairwise (· ≤ ·)
  pout : ∀ v ∈ evVerts x, ((h.v v).pout.map fun p => (h.p p).data.barcode).Pairwise (· ≤ ·)

/-- What the event `a` has, the event `b` has as well: signal vertex, beams, weights with names,
cross section, heavy-ion data. -/
structure Covers (a b : Evt F G N) : Prop where
  sig : a.sig ≠ none → b.sig ≠ none
  beam1 : a.beam1 ≠ none → b.beam1 ≠ none
  beam2 : a.beam2 ≠ none → b.beam2 ≠ none
  names : a.wmap ≠ [] → 0 < (b.weights.getD []).length
  cross : a.cross ≠ none → b.cross ≠ none
  heavy : a.heavy ≠ none → b.heavy ≠ none

/-! ## Lemmas -/

omit [DecidableEq N] in
/-- Equal events with sorted lists are written as the same lines. -/
theorem evtLines_same {c : Fmt F G N} {φ ψ : Nat → Nat} {h h' : Heap F G N} {x x' : Evt F G N} (hs : Sound h x)
    (he : SameEvent c φ ψ h x h' x') (hs' : Sound h' x')
    (hsig : ∀ v, x.sig = some v → v ∈ evVerts x) (hb1 : ∀ p, x.beam1 = some p → p ∈ evParts x)
    (hb2 : ∀ p, x.beam2 = some p → p ∈ evParts x) (hfl : ∀ p ∈ evParts x, ((h.p p).data.flow.map Prod.fst).Nodup)
    (hn : (x.wmap.map Prod.snd).Nodup) (ho : Ordered h x) (ho' : Ordered h' x') :
    evtLines c h' x' = evtLines c h x := by
  have hg := he.graph
  have bP : ∀ p ∈ evParts x, (h'.p (φ p)).data.barcode = (h.p p).data.barcode := by
    intro p hp; rw [(hg.part p hp).data]
  have bV : ∀ v ∈ evVerts x, (h'.v (ψ v)).data.barcode = (h.v v).data.barcode := by
    intro v hv; rw [(hg.vtx v hv).data]
  have hV : (evVerts x').Perm ((evVerts x).map ψ) := by
    unfold evVerts
    refine (hg.vertices.map Prod.snd).trans ?_
    rw [List.map_map, List.map_map]
    exact List.Perm.refl _
  have hord : vtxOrder h' x' = (vtxOrder h x).map ψ := by
    apply sorted_unique fun v => -(h'.v v).data.barcode
    · refine (vtxOrder_perm h' x').trans (hV.trans ?_)
      exact ((vtxOrder_perm h x).map ψ).symm
    · refine nodup_map_of hs'.vl_nodup ?_
      intro a ha b hb hab
      exact hs'.vbc_inj (mem_vtxOrder.mp ha) (mem_vtxOrder.mp hb) (by omega)
    · exact sortBy_sorted _ _
    · rw [List.pairwise_map]
      refine (sortBy_sorted (fun v => -(h.v v).data.barcode) (evVerts x)).imp_of_mem ?_
      intro a b ha hb hab
      rw [bV a (mem_vtxOrder.mp ha), bV b (mem_vtxOrder.mp hb)]
      exact hab
  have sameList : ∀ (l l' : List Nat), l'.Perm (l.map φ) → (∀ p ∈ l, p ∈ evParts x) → l.Nodup →
      (l.map fun p => (h.p p).data.barcode).Pairwise (· ≤ ·) → (l'.map fun p => (h'.p p).data.barcode).Pairwise (· ≤ ·) →
      l' = l.map φ := by
    intro l l' hp hm hnd h1 h2
    apply sorted_unique (fun p => (h'.p p).data.barcode) _ _ hp
    · refine ((hp.map _).nodup_iff).mpr ?_
      rw [List.map_map]
      refine nodup_map_of hnd ?_
      intro a ha b hb hab
      simp only [Function.comp_apply] at hab
      rw [bP a (hm a ha), bP b (hm b hb)] at hab
      exact hs.pbc_inj (hm a ha) (hm b hb) hab
    · exact List.pairwise_map.mp h2
    · rw [List.pairwise_map]
      refine (List.pairwise_map.mp h1).imp_of_mem ?_
      intro a b ha hb hab
      rw [bP a (hm a ha), bP b (hm b hb)]
      exact hab
  have mV' : ∀ v ∈ evVerts x, ψ v ∈ evVerts x' := fun v hv => hV.mem_iff.mpr (List.mem_map_of_mem hv)
  have hpout : ∀ v ∈ evVerts x, (h'.v (ψ v)).pout = (h.v v).pout.map φ := fun v hv =>
    sameList _ _ (hg.vtx v hv).pout (fun p hp => ((hs.out_iff v hv p).mp hp).1) (hs.out_nodup v hv) (ho.pout v hv)
      (ho'.pout _ (mV' v hv))
  have hpin : ∀ v ∈ evVerts x, (h'.v (ψ v)).pin = (h.v v).pin.map φ := fun v hv =>
    sameList _ _ (hg.vtx v hv).pin (fun p hp => ((hs.in_iff v hv p).mp hp).1) (hs.in_nodup v hv) (ho.pin v hv)
      (ho'.pin _ (mV' v hv))
  have horph : ∀ v ∈ evVerts x, orphans h' (ψ v) = (orphans h v).map φ := by
    intro v hv
    unfold orphans
    rw [hpin v hv, List.filter_map]
    congr 1
    apply List.filter_congr
    intro p hp
    have := (hg.part p ((hs.in_iff v hv p).mp hp).1).prod
    simp only [Function.comp_apply]
    rw [this]
    cases (h.p p).prod <;> rfl
  have hpw : ∀ p ∈ evParts x, partWords c h' (φ p) = partWords c h p := by
    intro p hp
    have hq := hg.part p hp
    have hfin : vBc h' (h'.p (φ p)).fin = vBc h (h.p p).fin := by
      rw [hq.fin]
      cases hf : (h.p p).fin with
      | none => rfl
      | some v => exact bV v (hs.fin_reg p hp v hf)
    have hflw : flowWords (h'.p (φ p)).data.flow = flowWords (h.p p).data.flow := by
      unfold flowWords lenEnc
      rw [← sortBy_unique Prod.fst hq.flow.symm (hfl p hp), hq.flow.length_eq]
    unfold partWords
    dsimp only
    rw [hflw, hfin, hq.data]
  have hvl : ∀ v ∈ evVerts x, vtxLines c h' (ψ v) = vtxLines c h v := by
    intro v hv
    unfold vtxLines vtxWords
    rw [horph v hv, hpout v hv, (hg.vtx v hv).data]
    unfold lenEnc
    rw [List.length_map, List.length_map, List.map_map, List.map_map]
    congr 2
    · exact List.map_congr_left fun p hp => hpw p ((hs.in_iff v hv p).mp (List.mem_filter.mp hp).1).1
    · exact List.map_congr_left fun p hp => hpw p ((hs.out_iff v hv p).mp hp).1
  have hnames : ∀ i, nameAt c x'.wmap i = nameAt c x.wmap i := by
    intro i
    have hwm := he.wmap.symm
    by_cases hi : i ∈ x.wmap.map Prod.snd
    · obtain ⟨⟨n, j⟩, hq, rfl⟩ := List.mem_map.mp hi
      rw [nameAt_mem c x.wmap j hn hq, nameAt_mem c x'.wmap j ((hwm.map Prod.snd).nodup_iff.mp hn) (hwm.mem_iff.mp hq)]
    · have : ∀ (m : List (N × Nat)) (a : N), i ∉ m.map Prod.snd → m.foldl (fun a q => if q.2 = i then q.1 else a) a = a := by
        intro m
        induction m with
        | nil => intro a _; rfl
        | cons q m ih =>
          intro a hm
          simp only [List.map_cons, List.mem_cons, not_or] at hm
          rw [List.foldl_cons, if_neg (fun hh => hm.1 hh.symm), ih _ hm.2]
      unfold nameAt
      rw [this _ _ hi, this _ _ (fun hh => hi ((hwm.map Prod.snd).mem_iff.mpr hh))]
  have e1 : (mlist x'.vertices).length = (mlist x.vertices).length := by
    rw [hg.vertices.length_eq, List.length_map]
  have esig : vBc h' x'.sig = vBc h x.sig := by
    rw [he.sig]
    cases hx : x.sig with
    | none => rfl
    | some v => exact bV v (hsig v hx)
  have eb1 : pBc h' x'.beam1 = pBc h x.beam1 := by
    rw [he.beam1]
    cases hx : x.beam1 with
    | none => rfl
    | some v => exact bP v (hb1 v hx)
  have eb2 : pBc h' x'.beam2 = pBc h x.beam2 := by
    rw [he.beam2]
    cases hx : x.beam2 with
    | none => rfl
    | some v => exact bP v (hb2 v hx)
  have epdf : pdfWords c x'.pdf = pdfWords c x.pdf := by
    rw [he.pdf]; rfl
  have ename : (fun i => c.q (nameAt c x'.wmap i)) = fun i => c.q (nameAt c x.wmap i) := by funext i; rw [hnames]
  unfold evtLines headLines evtWords nameWords
  rw [hord, esig, eb1, eb2, epdf, ename, he.cross, he.heavy, he.values.weights, he.values.mu, he.values.lu, he.values.sigId,
    he.values.number, he.values.mpi, he.values.scale, he.values.aqcd, he.values.aqed, he.values.rnd]
  unfold lenEnc
  rw [e1, List.flatMap_map]
  congr 1
  unfold List.flatMap
  congr 1
  exact List.map_congr_left fun v hv => hvl v (mem_vtxOrder.mp hv)

omit [DecidableEq N] in
theorem ReadInto.same {c : Fmt F G N} {h0 : Heap F G N} {x : Evt F G N} (hw : Writable c h0 x) {hb : Heap F G N} {k : Nat}
    {h' : Heap F G N} {φ ψ : Nat → Nat} (hr : ReadInto c h0 x hb k h' φ ψ) (hcov : Covers (hb.e k) x) :
    SameEvent c φ ψ h0 x h' (h'.e k) := by
  have hor : ∀ {α : Type} {a b : Option α}, (b ≠ none → a ≠ none) → a.or b = a := by
    intro α a b hab
    cases a with
    | some a => rfl
    | none =>
      cases b with
      | none => rfl
      | some b => exact absurd rfl (hab (by simp))
  have hmap : ∀ {α β : Type} {f : α → β} {a : Option α} {b : Option β}, (b ≠ none → a ≠ none) → (a.map f).or b = a.map f := by
    intro α β f a b hab
    apply hor
    intro hb ha
    exact hab hb (Option.map_eq_none_iff.mp ha)
  refine ⟨hr.graph, hr.values, ?_, ?_, ?_, ?_, ?_, ?_, hr.pdf⟩
  · rw [hr.sig]; exact hmap hcov.sig
  · rw [hr.beam1]; exact hmap hcov.beam1
  · rw [hr.beam2]; exact hmap hcov.beam2
  · have := hr.wmap
    split at this
    · exact this
    · next hn =>
      have hl : (x.weights.getD []).length = 0 := by omega
      have hx := hw.names_all
      rw [hl] at hx
      have hx' : x.wmap = [] := List.map_eq_nil_iff.mp hx.eq_nil
      have hold : (hb.e k).wmap = [] := by
        by_cases h : (hb.e k).wmap = []
        · exact h
        · exact absurd (hcov.names h) hn
      rw [this, hx', hold]
      simp
  · rw [hr.cross]; exact hor hcov.cross
  · rw [hr.heavy]; exact hor hcov.heavy

omit [DecidableEq N] in
theorem Ordered.of_read {c : Fmt F G N} {h0 : Heap F G N} {x : Evt F G N} {hb : Heap F G N} {k : Nat}
    {h' : Heap F G N} {φ ψ : Nat → Nat} (hr : ReadInto c h0 x hb k h' φ ψ) : Ordered h' (h'.e k) := by
  have hV : ∀ v ∈ evVerts (h'.e k), ∃ w ∈ evVerts x, ψ w = v := by
    intro v hv
    unfold evVerts at hv
    rw [(hr.graph.vertices.map Prod.snd).mem_iff, List.map_map] at hv
    obtain ⟨q, hq, rfl⟩ := List.mem_map.mp hv
    exact ⟨q.2, List.mem_map.mpr ⟨q, hq, rfl⟩, rfl⟩
  constructor
  · intro v hv
    obtain ⟨w, hw, rfl⟩ := hV v hv
    exact hr.sorted_in w hw
  · intro v hv
    obtain ⟨w, hw, rfl⟩ := hV v hv
    exact hr.sorted_out w hw

theorem copy_enc {c : Fmt F G N} (hc : c.Lawful) (k : Nat) : ∀ (es : List (Heap F G N × Evt F G N))
    (os : List (List (Int × Int) → List (Int × Int))) (d : Dec) (hb : Heap F G N) (seen : Bool),
    (∀ q ∈ es, Writable c q.1 q.2) → (∀ q ∈ es, Ordered q.1 q.2) → es.Pairwise (fun a b => Covers a.2 b.2) →
    (∀ q ∈ es, Covers (hb.e k) q.2) → es.length < os.length → (∀ o ∈ os, ∀ l, (o l).Perm l) →
    d.seen = true → d.ftype = .genEvent →
    d.rest = (es.flatMap fun q => evtLines c q.1 q.2).map joinSp ++ [joinSp [endGenEvent]] →
    ∃ bs s, copyEvents c k os d hb seen = .ok (es.length, bs, s) ∧ bs ++ closeEnc s = encodeAll c seen es
  | es, [], d, hb, seen => by
    intro _ _ _ _ hl
    simp at hl
  | [], o :: os, d, hb, seen => by
    intro _ _ _ _ _ _ h1 h2 h3
    refine ⟨[], seen, ?_, rfl⟩
    rw [copyEvents, decode_end o d h1 h2 (by simpa using h3)]
    rfl
  | q :: es, o :: os, d, hb, seen => by
    intro hw hord hpw hcov hl hos h1 h2 h3
    obtain ⟨h1', hdec, hri⟩ := decode_one hc (hw q (by simp)) (hos o (by simp)) d h1 h2
      ((es.flatMap fun q => evtLines c q.1 q.2).map joinSp ++ [joinSp [endGenEvent]])
      (by rw [h3]; simp [List.append_assoc]) hb k
    have hwq := hw q (by simp)
    have hsame := hri.same hwq (hcov q (by simp))
    have hfl := mem_flat hwq.toSound hwq.attached
    have hsound := hri.graph.sound hwq.toSound (fun p hp r hr he => phi_inj ((hfl p).mpr hp) ((hfl r).mpr hr) he)
      (fun p hp r hr he => psi_inj (mem_vtxOrder.mpr hp) (mem_vtxOrder.mpr hr) he)
    have hlines : evtLines c h1' (h1'.e k) = evtLines c q.1 q.2 :=
      evtLines_same hwq.toSound hsame hsound hwq.sig_in (fun p hp => (hwq.beam1_in p hp).1) (fun p hp => (hwq.beam2_in p hp).1)
        hwq.flow_nodup (hwq.names_all.nodup_iff.mpr List.nodup_range) (hord q (by simp)) (Ordered.of_read hri)
    have hcov' : ∀ r ∈ es, Covers (h1'.e k) r.2 := by
      intro r hr
      have hqr := (List.pairwise_cons.mp hpw).1 r hr
      constructor
      · rw [hsame.sig]; intro h; exact hqr.sig fun h' => h (by rw [h']; rfl)
      · rw [hsame.beam1]; intro h; exact hqr.beam1 fun h' => h (by rw [h']; rfl)
      · rw [hsame.beam2]; intro h; exact hqr.beam2 fun h' => h (by rw [h']; rfl)
      · intro h
        apply hqr.names
        intro h'
        have hp := hsame.wmap
        rw [h'] at hp
        exact h hp.eq_nil
      · rw [hsame.cross]; exact hqr.cross
      · rw [hsame.heavy]; exact hqr.heavy
    obtain ⟨bs, s, e1, e2⟩ := copy_enc hc k es os
      { d with
        rest := (es.flatMap fun q => evtLines c q.1 q.2).map joinSp ++ [joinSp [endGenEvent]]
        sigBc := vBc q.1 q.2.sig
        bp1 := pBc q.1 q.2.beam1
        bp2 := pBc q.1 q.2.beam2 } h1' true
      (fun r hr => hw r (List.mem_cons_of_mem _ hr)) (fun r hr => hord r (List.mem_cons_of_mem _ hr))
      (List.pairwise_cons.mp hpw).2 hcov' (by simpa using hl) (fun r hr => hos r (List.mem_cons_of_mem _ hr)) h1 h2 rfl
    refine ⟨(encode c seen q.1 q.2).2 ++ bs, s, ?_, ?_⟩
    · rw [copyEvents, hdec]
      dsimp only
      have hen : encode c seen h1' (h1'.e k) = encode c seen q.1 q.2 := by
        unfold encode; rw [hlines]
      have hs1 : (encode c seen q.1 q.2).1 = true := rfl
      rw [hen, hs1, R.bind_ok e1]
      rfl
    · rw [List.append_assoc, e2, encodeAll]
      rfl

/-! ## Copying -/

/-- `Copy` from a file to a file makes the same file, byte for byte, when no event lacks what an
earlier event has.  The lists of particles must be sorted, as they are in every event that was
read; the last part of the file is what closing the writer adds.

Missing: events lacking a cross section, heavy-ion data, a signal vertex, beams or weights that
an earlier event has. -/
theorem C85_copy_same_file_partial {c : Fmt F G N} (hc : c.Lawful) (es : List (Heap F G N × Evt F G N)) (hne : es ≠ [])
    (hw : ∀ q ∈ es, Writable c q.1 q.2) (hord : ∀ q ∈ es, Ordered q.1 q.2) (hcov : es.Pairwise fun a b => Covers a.2 b.2)
    (hshort : ShortLines (encodeAll c false es)) (hb : Heap F G N) (k : Nat) (hz : hb.e k = zeroEvt c)
    (os : List (List (Int × Int) → List (Int × Int))) (hos : ∀ o ∈ os, ∀ l, (o l).Perm l) (hlen : es.length < os.length) :
    ∃ bs s, copyEvents c k os (newDecoder (encodeAll c false es)) hb false = .ok (es.length, bs, s) ∧
      bs ++ closeEnc s = encodeAll c false es := by
  obtain ⟨q0, es0, rfl⟩ := List.exists_cons_of_ne_nil hne
  obtain ⟨o0, os0, rfl⟩ : ∃ o os', os = o :: os' := by
    cases os with
    | nil => simp at hlen
    | cons o os => exact ⟨o, os, rfl⟩
  generalize hbs : encodeAll c false (q0 :: es0) = bs0 at *
  rw [encodeAll_cons] at hbs
  generalize hls : (q0 :: es0).flatMap (fun q => evtLines c q.1 q.2) = ls at *
  have hcl : ∀ l ∈ fileHeader ++ (ls ++ [[endGenEvent]]), CleanLine l := by
    intro l hl
    rcases List.mem_append.mp hl with hl | hl
    · exact header_clean l (List.mem_append_left _ hl)
    · rcases List.mem_append.mp hl with hl | hl
      · rw [← hls] at hl
        obtain ⟨q, hq, hl⟩ := List.mem_flatMap.mp hl
        exact evtLines_clean hc (hw q hq) l hl
      · exact header_clean l (List.mem_append_right _ hl)
  have hsh : ∀ l ∈ fileHeader ++ (ls ++ [[endGenEvent]]), (joinSp l).length ≤ maxLine := by
    intro l hl
    have := hshort (joinSp l) (by
      rw [← hbs, splitOn_textOf _ fun l hl => (hcl l hl).no10]
      exact List.mem_append_left _ (List.mem_map_of_mem hl))
    simp only [maxLine]
    omega
  have hrest : (newDecoder bs0).rest = fileHeader.map joinSp ++ (ls.map joinSp ++ [joinSp [endGenEvent]]) := by
    show scan _ = _
    rw [← hbs, scan_textOf _ hcl hsh]
    simp
  obtain ⟨bs, s, e1, e2⟩ := copy_enc hc k (q0 :: es0) (o0 :: os0)
    { newDecoder bs0 with rest := ls.map joinSp ++ [joinSp [endGenEvent]], ftype := .genEvent, seen := true } hb false hw hord hcov
    (fun q _ => by rw [hz]; constructor <;> simp [zeroEvt]) hlen hos rfl rfl (by rw [hls])
  refine ⟨bs, s, ?_, ?_⟩
  · rw [← e1, copyEvents, copyEvents, decode_header o0 _ rfl _ hrest]
  · rw [e2, encodeAll_cons, hls, hbs]

/-- What decoding leaves in an event that was used before: the graph, the values and the parton
data are those of the event read; signal vertex, beams, cross section and heavy-ion data are
those of the event read where it has them and those of the earlier event otherwise. -/
theorem C85_reused_event {c : Fmt F G N} (hc : c.Lawful) {h0 : Heap F G N} {x : Evt F G N} (hw : Writable c h0 x)
    {ord : List (Int × Int) → List (Int × Int)} (hord : ∀ l, (ord l).Perm l) (d : Dec) (hseen : d.seen = true)
    (ht : d.ftype = .genEvent) (more : List (List UInt8)) (hr : d.rest = (evtLines c h0 x).map joinSp ++ more)
    (hb : Heap F G N) (k : Nat) :
    ∃ d' h' φ ψ, decode c ord d hb k = .ok (d', h') ∧ d'.rest = more ∧
      SameGraph φ ψ h0 x h' (h'.e k) ∧ SameValues x (h'.e k) ∧ Sound h' (h'.e k) ∧
      (h'.e k).sig = (x.sig.map ψ).or (hb.e k).sig ∧
      (h'.e k).beam1 = (x.beam1.map φ).or (hb.e k).beam1 ∧ (h'.e k).beam2 = (x.beam2.map φ).or (hb.e k).beam2 ∧
      (h'.e k).cross = x.cross.or (hb.e k).cross ∧ (h'.e k).heavy = x.heavy.or (hb.e k).heavy ∧
      (h'.e k).pdf = some (x.pdf.getD ⟨0, 0, 0, 0, c.zero, c.zero, c.zero, c.zero, c.zero⟩) ∧
      ∀ i, i ≠ k → h'.e i = hb.e i := by
  obtain ⟨h', e1, hri⟩ := decode_one hc hw hord d hseen ht more hr hb k
  have hfl := mem_flat hw.toSound hw.attached
  exact ⟨_, h', _, _, e1, rfl, hri.graph, hri.values,
    hri.graph.sound hw.toSound (fun p hp r hr he => phi_inj ((hfl p).mpr hp) ((hfl r).mpr hr) he)
      (fun p hp r hr he => psi_inj (mem_vtxOrder.mpr hp) (mem_vtxOrder.mpr hr) he),
    hri.sig, hri.beam1, hri.beam2, hri.cross, hri.heavy, hri.pdf, hri.eframe⟩

end Verif.HepMC
