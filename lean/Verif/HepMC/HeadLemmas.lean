import Verif.HepMC.ReadLemmas

/-! # Lemmas: the lines of an event before its vertices -/

namespace Verif.HepMC

variable {F G N : Type} [DecidableEq N]

/-- Some lines, read one after the other, lead from one state to another. -/
inductive Steps (c : Fmt F G N) (e : Nat) : HAcc F G N → List (List (List UInt8)) → HAcc F G N → Prop where
  | nil (a : HAcc F G N) : Steps c e a [] a
  | cons {a a1 a2 : HAcc F G N} {l : List (List UInt8)} {ls : List (List (List UInt8))} (hl : CleanLine l)
      (h1 : headStep c e a l = .ok (some a1)) (h2 : Steps c e a1 ls a2) : Steps c e a (l :: ls) a2

theorem Steps.append {c : Fmt F G N} {e : Nat} {a a1 a2 : HAcc F G N} {l1 l2 : List (List (List UInt8))}
    (h1 : Steps c e a l1 a1) (h2 : Steps c e a1 l2 a2) : Steps c e a (l1 ++ l2) a2 := by
  induction h1 with
  | nil a => exact h2
  | cons hl hs _ ih => exact .cons hl hs (ih h2)

theorem Steps.one {c : Fmt F G N} {e : Nat} {a a1 : HAcc F G N} {l : List (List UInt8)} (hl : CleanLine l)
    (h1 : headStep c e a l = .ok (some a1)) : Steps c e a [l] a1 := .cons hl h1 (.nil _)

theorem Steps.clean {c : Fmt F G N} {e : Nat} {a a1 : HAcc F G N} {ls : List (List (List UInt8))}
    (h : Steps c e a ls a1) : ∀ l ∈ ls, CleanLine l := by
  induction h with
  | nil => simp
  | cons hl _ _ ih =>
    intro x hx
    rcases List.mem_cons.mp hx with rfl | hx
    · exact hl
    · exact ih x hx

theorem headLoop_steps {c : Fmt F G N} {e : Nat} {vl : List (List UInt8)} (hv : ∀ a, headStep c e a vl = .ok none)
    (hcv : CleanLine vl) (more : List (List UInt8)) (ls : List (List (List UInt8))) (l : List (List UInt8))
    (a a' : HAcc F G N) (h : Steps c e a (l :: ls) a') :
    headLoop c e a l (ls.map joinSp ++ joinSp vl :: more) = .ok ({ a' with d := { a'.d with rest := more } }, vl) := by
  induction ls generalizing l a with
  | nil =>
    cases h with
    | cons hl h1 h2 =>
      cases h2
      simp only [List.map_nil, List.nil_append, headLoop, h1, R.bind, hcv.split]
      cases more with
      | nil => simp only [headLoop, hv, R.bind]
      | cons m more => simp only [headLoop, hv, R.bind]
  | cons l2 ls ih =>
    cases h with
    | cons hl h1 h2 =>
      have hl2 : CleanLine l2 := h2.clean l2 (by simp)
      simp only [List.map_cons, List.cons_append, headLoop, h1, R.bind, hl2.split]
      exact ih l2 _ h2

/-! ## The lines one by one -/

theorem str1 : str "E" = [69] ∧ str "N" = [78] ∧ str "U" = [85] ∧ str "C" = [67] ∧ str "H" = [72] ∧ str "F" = [70] ∧
    str "V" = [86] ∧ str "P" = [80] := by decide +kernel

theorem headStep_V {c : Fmt F G N} (e : Nat) (h0 : Heap F G N) (v : Nat) (a : HAcc F G N) :
    headStep c e a (vtxWords c h0 v) = .ok none := by
  unfold vtxWords
  dsimp only
  rw [str1.2.2.2.2.2.2.1]
  rfl

omit [DecidableEq N] in
theorem evtWords_clean {c : Fmt F G N} (hc : c.Lawful) (h0 : Heap F G N) (x : Evt F G N) : CleanLine (evtWords c h0 x) := by
  refine ⟨by simp [evtWords], ?_⟩
  unfold evtWords
  apply all_clean_append
  · apply all_clean_append _ (all_clean_map _ _ clean_int)
    repeat first
      | exact all_clean_nil
      | apply all_clean_cons (clean_int _)
      | apply all_clean_cons (clean_len _)
      | apply all_clean_cons (clean_F hc _)
      | apply all_clean_cons clean_str1.2.2.1
  · exact all_clean_cons (clean_len _) (all_clean_map _ _ (clean_F hc))

theorem headStep_E {c : Fmt F G N} (hc : c.Lawful) (e : Nat) (h0 : Heap F G N) (x : Evt F G N) (a : HAcc F G N)
    (ht : a.d.ftype = .genEvent) :
    headStep c e a (evtWords c h0 x) = .ok (some ⟨{ a.d with sigBc := vBc h0 x.sig, bp1 := pBc h0 x.beam1, bp2 := pBc h0 x.beam2 },
      a.h.modE e (fillEvt ⟨x.number, x.mpi, x.scale, x.aqcd, x.aqed, x.sigId, vBc h0 x.sig, ((mlist x.vertices).length : Int),
        pBc h0 x.beam1, pBc h0 x.beam2, x.rnd, x.weights.getD []⟩), ((mlist x.vertices).length : Int)⟩) := by
  have h : evtWords c h0 x = [69] :: (evtWords c h0 x).tail := by
    unfold evtWords; rw [str1.1]; rfl
  rw [h]
  unfold headStep
  dsimp only
  rw [if_pos rfl, ht]
  dsimp only
  rw [R.bind_ok (rEvt_enc hc h0 x)]

omit [DecidableEq N] in
theorem nameWords_clean {c : Fmt F G N} (hc : c.Lawful) (n : Nat) (m : List (N × Nat))
    (hb : ∀ i < n, (32 : UInt8) ∉ c.q (nameAt c m i)) : CleanLine (nameWords c n m) := by
  refine ⟨by simp [nameWords], ?_⟩
  unfold nameWords
  apply all_clean_append
  · apply all_clean_append
    · exact all_clean_cons clean_str1.2.2.2.1 (all_clean_cons (clean_int _) all_clean_nil)
    · intro x hx
      obtain ⟨i, hi, rfl⟩ := List.mem_map.mp hx
      exact ⟨hb i (List.mem_range.mp hi), fun h => (hc.q_clean _ _ h).1 rfl, fun h => (hc.q_clean _ _ h).2 rfl⟩
  · exact all_clean_cons clean_nil all_clean_nil

/-- The map of names as read. -/
def canonNames (c : Fmt F G N) (n : Nat) (m : List (N × Nat)) : List (N × Nat) :=
  (((List.range n).map (nameAt c m)).zipIdx).reverse

omit [DecidableEq N] in
theorem canonNames_perm (c : Fmt F G N) (m : List (N × Nat)) (n : Nat) (h : (m.map Prod.snd).Perm (List.range n)) :
    (canonNames c n m).Perm m := (List.reverse_perm _).trans (names_perm c m n h)

theorem headStep_N {c : Fmt F G N} (hc : c.Lawful) (e : Nat) (n : Nat) (m : List (N × Nat)) (a : HAcc F G N)
    (h1 : (m.map Prod.fst).Nodup) (h2 : (m.map Prod.snd).Perm (List.range n)) :
    headStep c e a (nameWords c n m) = .ok (some { a with h := a.h.modE e fun x => { x with wmap := canonNames c n m } }) := by
  have h : nameWords c n m = [78] :: (nameWords c n m).tail := by
    unfold nameWords; rw [str1.2.1]; rfl
  have ht : (nameWords c n m).tail = intEnc n :: (((List.range n).map (nameAt c m)).map c.q ++ [[]]) := by
    simp [nameWords]
  rw [h, ht]
  unfold headStep
  dsimp only
  rw [if_neg (by decide), if_pos rfl]
  rw [pInt_enc]
  simp only [R.ofOption, R.bind, Int.toNat_natCast]
  have hnd : ((List.range n).map (nameAt c m)).Nodup := by
    have := ((names_perm c m n h2).map Prod.fst).nodup_iff.mpr h1
    rwa [List.zipIdx_map_fst] at this
  have := pNames_enc hc ((List.range n).map (nameAt c m)) [[]] 0 [] (by simpa using hnd)
  rw [List.length_map, List.length_range, List.append_nil] at this
  rw [this]
  rfl

theorem headStep_U {c : Fmt F G N} (e : Nat) (mu : MUnit) (lu : LUnit) (a : HAcc F G N) (ht : a.d.ftype = .genEvent) :
    headStep c e a [str "U", mu.str, lu.str] = .ok (some { a with h := a.h.modE e fun x => { x with mu := mu, lu := lu } }) := by
  rw [str1.2.2.1]
  unfold headStep
  dsimp only
  rw [if_neg (by decide), if_neg (by decide), if_pos rfl, if_pos ht]
  simp only [tnext, mu_enc, lu_enc, R.ofOption, R.bind]

theorem headStep_C {c : Fmt F G N} (hc : c.Lawful) (e : Nat) (q : CrossSection F) (a : HAcc F G N) :
    headStep c e a (crossWords c q) = .ok (some { a with h := a.h.modE e fun x => { x with cross := some q } }) := by
  have h : crossWords c q = [67] :: (crossWords c q).tail := by unfold crossWords; rw [str1.2.2.2.1]; rfl
  rw [h]
  unfold headStep
  dsimp only
  rw [if_neg (by decide), if_neg (by decide), if_neg (by decide), if_pos rfl]
  rw [pCross_enc hc]; rfl

theorem headStep_H {c : Fmt F G N} (hc : c.Lawful) (e : Nat) (q : HeavyIon G) (a : HAcc F G N) (ht : a.d.ftype = .genEvent) :
    headStep c e a (heavyWords c q) = .ok (some { a with h := a.h.modE e fun x => { x with heavy := some q } }) := by
  have h : heavyWords c q = [72] :: (heavyWords c q).tail := by unfold heavyWords; rw [str1.2.2.2.2.1]; rfl
  rw [h]
  unfold headStep
  dsimp only
  rw [if_neg (by decide), if_neg (by decide), if_neg (by decide), if_neg (by decide), if_pos rfl, if_pos (Or.inl ht)]
  rw [pHeavy_enc hc]; rfl

theorem headStep_F {c : Fmt F G N} (hc : c.Lawful) (e : Nat) (q : Option (PdfInfo F)) (a : HAcc F G N)
    (ht : a.d.ftype = .genEvent) :
    headStep c e a (pdfWords c q) = .ok (some { a with h := a.h.modE e fun x =>
      { x with pdf := some (q.getD ⟨0, 0, 0, 0, c.zero, c.zero, c.zero, c.zero, c.zero⟩) } }) := by
  have h : pdfWords c q = [70] :: (pdfWords c q).tail := by unfold pdfWords; dsimp only; rw [str1.2.2.2.2.2.1]; rfl
  rw [h]
  unfold headStep
  dsimp only
  rw [if_neg (by decide), if_neg (by decide), if_neg (by decide), if_neg (by decide), if_neg (by decide), if_pos rfl,
    if_pos (Or.inl ht)]
  rw [pPdf_enc hc]; rfl

omit [DecidableEq N] in
theorem crossWords_clean {c : Fmt F G N} (hc : c.Lawful) (q : CrossSection F) : CleanLine (crossWords c q) :=
  clean_cons clean_str1.2.2.2.2.2.1 (all_clean_cons (clean_F hc _) (all_clean_cons (clean_F hc _) all_clean_nil))

omit [DecidableEq N] in
theorem heavyWords_clean {c : Fmt F G N} (hc : c.Lawful) (q : HeavyIon G) : CleanLine (heavyWords c q) := by
  refine ⟨by simp [heavyWords], ?_⟩
  unfold heavyWords
  repeat first
    | exact all_clean_nil
    | apply all_clean_cons (clean_int _)
    | apply all_clean_cons (clean_G hc _)
    | apply all_clean_cons clean_str1.2.2.2.2.2.2.1

omit [DecidableEq N] in
theorem pdfWords_clean {c : Fmt F G N} (hc : c.Lawful) (q : Option (PdfInfo F)) : CleanLine (pdfWords c q) := by
  refine ⟨by simp [pdfWords], ?_⟩
  unfold pdfWords
  dsimp only
  repeat first
    | exact all_clean_nil
    | apply all_clean_cons (clean_int _)
    | apply all_clean_cons (clean_F hc _)
    | apply all_clean_cons clean_str1.2.2.2.2.2.2.2

theorem unit_clean (mu : MUnit) (lu : LUnit) : CleanLine [str "U", mu.str, lu.str] := by
  have h1 : CleanWord mu.str := by cases mu <;> (unfold CleanWord; decide +kernel)
  have h2 : CleanWord lu.str := by cases lu <;> (unfold CleanWord; decide +kernel)
  exact clean_cons clean_str1.2.2.2.2.1 (all_clean_cons h1 (all_clean_cons h2 all_clean_nil))

/-! ## All of them -/

/-- The event after the lines before the vertices; `old` is the event as it was. -/
def headEvt (c : Fmt F G N) (x old : Evt F G N) : Evt F G N :=
  { old with
    sigId := x.sigId
    number := x.number
    mpi := x.mpi
    wmap := if 0 < (x.weights.getD []).length then canonNames c (x.weights.getD []).length x.wmap
      else if old.weights.isNone then [] else old.wmap
    weights := some (x.weights.getD [])
    rnd := x.rnd
    scale := x.scale
    aqcd := x.aqcd
    aqed := x.aqed
    vertices := some []
    particles := some []
    mu := x.mu
    lu := x.lu
    cross := x.cross.or old.cross
    heavy := x.heavy.or old.heavy
    pdf := some (x.pdf.getD ⟨0, 0, 0, 0, c.zero, c.zero, c.zero, c.zero, c.zero⟩) }

omit [DecidableEq N] in
theorem modE_modE (h : Heap F G N) (e : Nat) (f g : Evt F G N → Evt F G N) :
    (h.modE e f).modE e g = h.modE e (fun x => g (f x)) := by
  unfold Heap.modE
  simp only [put_same]
  congr 1
  funext j
  unfold put
  split <;> rfl

theorem head_steps {c : Fmt F G N} (hc : c.Lawful) (e : Nat) (h0 : Heap F G N) (x : Evt F G N) (a : HAcc F G N)
    (ht : a.d.ftype = .genEvent) (h1 : (x.wmap.map Prod.fst).Nodup)
    (h2 : (x.wmap.map Prod.snd).Perm (List.range (x.weights.getD []).length))
    (hb : ∀ q ∈ x.wmap, (32 : UInt8) ∉ c.q q.1) :
    Steps c e a (headLines c h0 x) ⟨{ a.d with sigBc := vBc h0 x.sig, bp1 := pBc h0 x.beam1, bp2 := pBc h0 x.beam2 },
      a.h.modE e (headEvt c x), ((mlist x.vertices).length : Int)⟩ := by
  have hb' : ∀ i < (x.weights.getD []).length, (32 : UInt8) ∉ c.q (nameAt c x.wmap i) := by
    intro i hi
    have hm : i ∈ x.wmap.map Prod.snd := h2.mem_iff.mpr (List.mem_range.mpr hi)
    obtain ⟨q, hq, rfl⟩ := List.mem_map.mp hm
    rw [nameAt_mem c x.wmap q.2 (h2.nodup_iff.mpr List.nodup_range) (n := q.1) hq]
    exact hb q hq
  unfold headLines
  have sE := Steps.one (evtWords_clean hc h0 x) (headStep_E hc e h0 x a ht)
  generalize hA : (⟨{ a.d with sigBc := vBc h0 x.sig, bp1 := pBc h0 x.beam1, bp2 := pBc h0 x.beam2 },
    a.h.modE e (headEvt c x), ((mlist x.vertices).length : Int)⟩ : HAcc F G N) = A
  -- one optional line after the other
  have sN : ∀ b : HAcc F G N, Steps c e b
      (if (x.weights.getD []).length > 0 then [nameWords c (x.weights.getD []).length x.wmap] else [])
      { b with h := b.h.modE e fun y => { y with
        wmap := if 0 < (x.weights.getD []).length then canonNames c (x.weights.getD []).length x.wmap else y.wmap } } := by
    intro b
    by_cases hw : 0 < (x.weights.getD []).length
    · rw [if_pos hw]
      simp only [if_pos hw]
      exact Steps.one (nameWords_clean hc _ _ hb') (headStep_N hc e _ _ b h1 h2)
    · rw [if_neg hw]
      simp only [if_neg hw]
      have : (b.h.modE e fun y => y) = b.h := by
        unfold Heap.modE
        have : put b.h.e e (b.h.e e) = b.h.e := by
          funext j; unfold put; split
          · rename_i hj; rw [hj]
          · rfl
        rw [this]
      have hb2 : ({ b with h := b.h.modE e fun y => y } : HAcc F G N) = b := by rw [this]
      have := Steps.nil (c := c) (e := e) b
      rw [← hb2] at this
      simpa [hb2] using this
  have sC : ∀ b : HAcc F G N, Steps c e b
      (match x.cross with
        | none => []
        | some q => [crossWords c q])
      { b with h := b.h.modE e fun y => { y with cross := x.cross.or y.cross } } := by
    intro b
    cases x.cross with
    | none =>
      have : (b.h.modE e fun y => { y with cross := (none : Option (CrossSection F)).or y.cross }) = b.h := by
        unfold Heap.modE
        have : put b.h.e e { b.h.e e with cross := (none : Option (CrossSection F)).or (b.h.e e).cross } = b.h.e := by
          funext j; unfold put; split
          · rename_i hj; rw [hj]; rfl
          · rfl
        rw [this]
      rw [this]; exact .nil _
    | some q => exact Steps.one (crossWords_clean hc q) (headStep_C hc e q b)
  have sH : ∀ b : HAcc F G N, b.d.ftype = .genEvent → Steps c e b
      (match x.heavy with
        | none => []
        | some q => [heavyWords c q])
      { b with h := b.h.modE e fun y => { y with heavy := x.heavy.or y.heavy } } := by
    intro b hb
    cases x.heavy with
    | none =>
      have : (b.h.modE e fun y => { y with heavy := (none : Option (HeavyIon G)).or y.heavy }) = b.h := by
        unfold Heap.modE
        have : put b.h.e e { b.h.e e with heavy := (none : Option (HeavyIon G)).or (b.h.e e).heavy } = b.h.e := by
          funext j; unfold put; split
          · rename_i hj; rw [hj]; rfl
          · rfl
        rw [this]
      rw [this]; exact .nil _
    | some q => exact Steps.one (heavyWords_clean hc q) (headStep_H hc e q b hb)
  have key := ((((sE.append (sN _)).append (Steps.one (unit_clean x.mu x.lu) (headStep_U e x.mu x.lu _ (by exact ht)))).append
    (sC _)).append (sH _ (by exact ht))).append (Steps.one (pdfWords_clean hc x.pdf) (headStep_F hc e x.pdf _ (by exact ht)))
  dsimp only at key
  simp only [modE_modE] at key
  rw [← hA]
  exact key

end Verif.HepMC
