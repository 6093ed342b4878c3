import Verif.HepMC.FileLemmas

/-!
# HepMC files: what is written is read back (C83)

Full statement: every event a program can build and write is read back equal.  It is false as
it stands, see the counterexamples; what is proved excludes exactly the events of `Writable`'s
complement and lines the scanner refuses.
-/

namespace Verif.HepMC

variable {F G N : Type} [DecidableEq N]

/-- Events written one after the other by one encoder are read back by a decoder, in order,
each equal to the event written: same graph, same values.  The graph read is consistent, its
vertices know their event, and the call after the last one returns end of file.  The order in
which Go visits the map of end vertices does not matter.

Missing: events without vertices, particles touching no vertex, beams ending nowhere, several
or no names for one weight, names with blanks, and lines of 64 kB. -/
theorem C83_events_read_back_partial {c : Fmt F G N} (hc : c.Lawful) (es : List (Heap F G N × Evt F G N)) (hne : es ≠ [])
    (hw : ∀ q ∈ es, Writable c q.1 q.2) (hshort : ShortLines (encodeAll c false es)) (hb : Heap F G N)
    (ks : List (Nat × (List (Int × Int) → List (Int × Int)))) (hlen : ks.length = es.length) (hnd : (ks.map Prod.fst).Nodup)
    (hord : ∀ q ∈ ks, ∀ l, (q.2 l).Perm l) (hz : ∀ q ∈ ks, hb.e q.1 = zeroEvt c) :
    ∃ d h', decodeAll c (newDecoder (encodeAll c false es)) hb ks = .ok (d, h') ∧
      (∀ ord k, ∃ d', decode c ord d h' k = .eof d') ∧
      (∀ i < hb.np, h'.p i = hb.p i) ∧ (∀ i < hb.nv, h'.v i = hb.v i) ∧
      ∀ (i : Nat) q kk, es[i]? = some q → ks[i]? = some kk →
        Sound h' (h'.e kk.1) ∧
        ∃ φ ψ, SameEvent c φ ψ q.1 q.2 h' (h'.e kk.1) ∧
          (∀ a ∈ evParts q.2, ∀ b ∈ evParts q.2, φ a = φ b → a = b) ∧
          (∀ a ∈ evVerts q.2, ∀ b ∈ evVerts q.2, ψ a = ψ b → a = b) ∧
          ∀ v ∈ evVerts q.2, (h'.v (ψ v)).event = some kk.1 := by
  obtain ⟨q0, es0, rfl⟩ := List.exists_cons_of_ne_nil hne
  obtain ⟨kk0, ks0, rfl⟩ := List.exists_cons_of_length_eq_add_one (hlen.trans rfl)
  rw [encodeAll_cons] at hshort ⊢
  generalize hls : (q0 :: es0).flatMap (fun q => evtLines c q.1 q.2) = ls at *
  have hcl : ∀ l ∈ fileHeader ++ (ls ++ [[endGenEvent]]), CleanLine l := by
    intro l hl
    rcases List.mem_append.mp hl with hl | hl
    · exact header_clean l (List.mem_append_left _ hl)
    · rcases List.mem_append.mp hl with hl | hl
      · rw [← hls] at hl
        obtain ⟨q, hq, hl⟩ := List.mem_flatMap.mp hl
        exact evtLines_clean hc (hw q hq) l hl
      · exact header_clean l (List.mem_append_right _ hl)
  have hsh : ∀ l ∈ fileHeader ++ (ls ++ [[endGenEvent]]), (joinSp l).length ≤ maxLine := by
    intro l hl
    have := hshort (joinSp l) (by
      rw [splitOn_textOf _ fun l hl => (hcl l hl).no10]
      exact List.mem_append_left _ (List.mem_map_of_mem hl))
    simp only [maxLine]
    omega
  have hrest : (newDecoder (textOf (fileHeader ++ (ls ++ [[endGenEvent]])))).rest =
      fileHeader.map joinSp ++ (ls.map joinSp ++ [joinSp [endGenEvent]]) := by
    show scan _ = _
    rw [scan_textOf _ hcl hsh]
    simp
  generalize hd : newDecoder (textOf (fileHeader ++ (ls ++ [[endGenEvent]]))) = d at *
  have hseen : d.seen = false := by rw [← hd]; rfl
  obtain ⟨d', h', e1, e2, e3, e4, _, _, _, _, f3, f4, _, f6⟩ := decodeAll_enc hc [joinSp [endGenEvent]] (q0 :: es0) (kk0 :: ks0)
    { d with rest := ls.map joinSp ++ [joinSp [endGenEvent]], ftype := .genEvent, seen := true } hb hw hlen hnd hord hz rfl rfl
    (by rw [hls])
  refine ⟨d', h', ?_, ?_, f3, f4, ?_⟩
  · rw [← e1]
    obtain ⟨k0, ord0⟩ := kk0
    rw [decodeAll, decodeAll, decode_header ord0 d hseen _ hrest]
  · intro ord k
    exact ⟨_, decode_end ord d' e2 e3 e4 h' k⟩
  · intro i q kk hq hk
    obtain ⟨φ, ψ, hg⟩ := f6 i q kk hq hk
    have hq' := List.mem_of_getElem? hq
    exact ⟨hg.same.graph.sound (hw q hq').toSound hg.injp hg.injv, φ, ψ, hg.same, hg.injp, hg.injv, hg.owner⟩

/-- An event whose first line is longer than the scanner accepts cannot be read, whatever the
event is: too many weights or random states make a file that `Decode` refuses. -/
theorem C83_long_line_refused {c : Fmt F G N} (hc : c.Lawful) (h0 : Heap F G N) (x : Evt F G N)
    (es : List (Heap F G N × Evt F G N)) (hlong : maxLine < (joinSp (evtWords c h0 x)).length)
    (ord : List (Int × Int) → List (Int × Int)) (hb : Heap F G N) (k : Nat) :
    decode c ord (newDecoder (encodeAll c false ((h0, x) :: es))) hb k = .err := by
  obtain ⟨tl, htl⟩ : ∃ tl, (((h0, x) :: es).flatMap fun q => evtLines c q.1 q.2) = evtWords c h0 x :: tl :=
    ⟨(((h0, x) :: es).flatMap fun q => evtLines c q.1 q.2).tail, rfl⟩
  have hraw : rawLines [] (encodeAll c false ((h0, x) :: es)) = fileHeader.map joinSp ++ joinSp (evtWords c h0 x) ::
      rawLines [] (textOf (tl ++ [[endGenEvent]])) := by
    rw [encodeAll_cons, htl, List.cons_append]
    have hhd : ∀ (ls : List (List (List UInt8))) (bs : List UInt8), (∀ l ∈ ls, (10 : UInt8) ∉ joinSp l) →
        rawLines [] (textOf ls ++ bs) = ls.map joinSp ++ rawLines [] bs := by
      intro ls bs h
      induction ls with
      | nil => rfl
      | cons l ls ih =>
        rw [textOf_cons, List.append_assoc, List.cons_append, rawLines_append _ _ _ (h l (by simp)),
          ih (fun x hx => h x (List.mem_cons_of_mem _ hx))]
        rfl
    rw [textOf_append, hhd _ _ fun l hl => (header_clean l (List.mem_append_left _ hl)).no10, textOf_cons,
      rawLines_append _ _ _ (evtWords_clean hc h0 x).no10]
    rfl
  have hscan : scan (encodeAll c false ((h0, x) :: es)) = fileHeader.map joinSp := by
    unfold scan
    rw [hraw, List.takeWhile_append_of_pos (by
      unfold fileHeader maxLine
      decide +kernel)]
    rw [List.takeWhile_cons_of_neg (by simpa using hlong)]
    decide +kernel
  have hsl : scanLong (encodeAll c false ((h0, x) :: es)) = true := by
    unfold scanLong
    rw [hraw]
    simp [hlong]
  rw [decode_header ord _ rfl [] (by show scan _ = _; rw [hscan]; simp)]
  unfold decode newDecoder
  rw [hsl]
  rfl

/-! ## What is written does not depend on the order of maps -/

omit [DecidableEq N] in
theorem sorted_unique {α : Type} (key : α → Int) : ∀ (l l' : List α), l.Perm l' → (l.map key).Nodup →
    l.Pairwise (fun x y => key x ≤ key y) → l'.Pairwise (fun x y => key x ≤ key y) → l = l'
  | [], l', hp, _, _, _ => hp.nil_eq
  | a :: l, [], hp, _, _, _ => absurd hp.length_eq (by simp)
  | a :: l, b :: l', hp, hn, h1, h2 => by
    have hab : a = b := by
      rw [List.pairwise_cons] at h1 h2
      have hb : b ∈ a :: l := hp.mem_iff.mpr (by simp)
      have ha : a ∈ b :: l' := hp.mem_iff.mp (by simp)
      rcases List.mem_cons.mp hb with rfl | hb'
      · rfl
      · rcases List.mem_cons.mp ha with rfl | ha'
        · rfl
        · have k1 := h1.1 b hb'
          have k2 := h2.1 a ha'
          exact inj_of_nodup_map hn (by simp) hb (by omega)
    subst hab
    rw [sorted_unique key l l' (List.perm_cons a |>.mp hp) (by rw [List.map_cons, List.nodup_cons] at hn; exact hn.2)
      (List.pairwise_cons.mp h1).2 (List.pairwise_cons.mp h2).2]

omit [DecidableEq N] in
theorem sortBy_unique {α : Type} (key : α → Int) {l l' : List α} (hp : l.Perm l') (hn : (l.map key).Nodup) :
    sortBy key l = sortBy key l' := by
  refine sorted_unique key _ _ ((sortBy_perm key l).trans (hp.trans (sortBy_perm key l').symm)) ?_ (sortBy_sorted _ _)
    (sortBy_sorted _ _)
  exact ((sortBy_perm key l).map key).nodup_iff.mpr hn

/-- Two heaps that differ only in the order in which Go happens to visit maps. -/
structure SameMaps (h h' : Heap F G N) (x x' : Evt F G N) : Prop where
  v : h'.v = h.v
  p : ∀ i, h'.p i = { h.p i with data := { (h.p i).data with flow := (h'.p i).data.flow } }
  flow : ∀ i, (h.p i).data.flow.Perm (h'.p i).data.flow
  flow_nodup : ∀ i, ((h.p i).data.flow.map Prod.fst).Nodup
  evt : x' = { x with vertices := x'.vertices, particles := x'.particles, wmap := x'.wmap }
  vertices : (mlist x.vertices).Perm (mlist x'.vertices)
  wmap : x.wmap.Perm x'.wmap

omit [DecidableEq N] in
/-- The bytes written for an event do not depend on the order in which maps are visited:
vertices and flow codes are sorted, names are printed by index. -/
theorem C83_bytes_independent_of_map_order (c : Fmt F G N) {h h' : Heap F G N} {x x' : Evt F G N} (hm : SameMaps h h' x x')
    (hs : Sound h x) (hn : (x.wmap.map Prod.snd).Nodup) (seen : Bool) : encode c seen h' x' = encode c seen h x := by
  obtain ⟨hv, hp, hf, hfn, he, hvs, hwm⟩ := hm
  have e1 : (mlist x'.vertices).length = (mlist x.vertices).length := hvs.length_eq.symm
  have e2 : ∀ v, vBc h' v = vBc h v := by intro v; unfold vBc; rw [hv]
  have e3 : ∀ p, pBc h' p = pBc h p := by
    intro p
    cases p with
    | none => rfl
    | some p => unfold pBc; dsimp only; rw [hp p]
  have e4 : ∀ i, nameAt c x'.wmap i = nameAt c x.wmap i := by
    intro i
    by_cases hi : i ∈ x.wmap.map Prod.snd
    · obtain ⟨⟨n, j⟩, hq, rfl⟩ := List.mem_map.mp hi
      rw [nameAt_mem c x.wmap j hn hq, nameAt_mem c x'.wmap j ((hwm.map Prod.snd).nodup_iff.mp hn) (hwm.mem_iff.mp hq)]
    · have : ∀ (m : List (N × Nat)) (a : N), i ∉ m.map Prod.snd → m.foldl (fun a q => if q.2 = i then q.1 else a) a = a := by
        intro m
        induction m with
        | nil => intro a _; rfl
        | cons q m ih =>
          intro a hm
          simp only [List.map_cons, List.mem_cons, not_or] at hm
          rw [List.foldl_cons, if_neg (fun hh => hm.1 hh.symm), ih _ hm.2]
      unfold nameAt
      rw [this _ _ hi, this _ _ (fun hh => hi ((hwm.map Prod.snd).mem_iff.mpr hh))]
  have e5 : vtxOrder h' x' = vtxOrder h x := by
    unfold vtxOrder
    rw [hv]
    symm
    apply sortBy_unique _ (hvs.map Prod.snd)
    have := hs.vbc_nodup
    unfold evVerts at this
    have h2 : (((mlist x.vertices).map Prod.snd).map fun v => -(h.v v).data.barcode) =
        ((((mlist x.vertices).map Prod.snd).map fun v => (h.v v).data.barcode).map fun z => -z) := by
      rw [List.map_map, List.map_map, List.map_map]; rfl
    rw [h2]
    exact nodup_map_of this fun a _ b _ hab => by omega
  have e6 : ∀ p, partWords c h' p = partWords c h p := by
    intro p
    have hfl : flowWords (h'.p p).data.flow = flowWords (h.p p).data.flow := by
      unfold flowWords lenEnc
      rw [sortBy_unique Prod.fst (hf p) (hfn p), (hf p).length_eq]
    unfold partWords
    dsimp only
    rw [hfl, e2]
    rw [hp p]
  have e7 : ∀ v, orphans h' v = orphans h v := by
    intro v
    unfold orphans
    rw [hv]
    congr 1
    funext p
    rw [hp p]
  have e8 : ∀ v, vtxLines c h' v = vtxLines c h v := by
    intro v
    unfold vtxLines vtxWords
    rw [e7, hv]
    congr 2
    · exact List.map_congr_left fun p _ => e6 p
    · exact List.map_congr_left fun p _ => e6 p
  have e9 : evtLines c h' x' = evtLines c h x := by
    unfold evtLines headLines evtWords nameWords
    rw [e5]
    have : (vtxOrder h x).flatMap (vtxLines c h') = (vtxOrder h x).flatMap (vtxLines c h) := by
      congr 1; funext v; exact e8 v
    rw [this]
    have e4' : (fun i => c.q (nameAt c x'.wmap i)) = fun i => c.q (nameAt c x.wmap i) := by funext i; rw [e4]
    rw [e4', e2, e3, e3]
    unfold lenEnc
    rw [e1, he]
  unfold encode
  rw [e9]

end Verif.HepMC
