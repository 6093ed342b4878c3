import Verif.Fwk.Hstream
import Verif.Fwk.StreamerProps

/-!
# Histograms saved by one job are there for the next one (C168)
-/

namespace Verif.Fwk.Hstream

open Verif.Rio Verif.Fwk.Streamer

variable {V : Type} {enc : V → Option Bytes} {dec : Bytes → Option V}

/-- The record of a histogram. -/
def recOf (enc : V → Option Bytes) (options : BitVec 32) (o : Bytes × V) : Rec :=
  ⟨options, o.1, [⟨0, o.1, (enc o.2).getD []⟩]⟩

/-- Histograms with different names that can be encoded are all written. -/
theorem write_ok (options : BitVec 32) (done : List Bytes) (os : List (Bytes × V))
    (hnd : (os.map (·.1)).Nodup) (hd : ∀ o ∈ os, o.1 ∉ done) (he : ∀ o ∈ os, ∃ d, enc o.2 = some d) :
    write enc options done os = (os.map (recOf enc options), true) := by
  induction os generalizing done with
  | nil => rfl
  | cons o os ih =>
    rw [List.map_cons, List.nodup_cons] at hnd
    obtain ⟨d, hd'⟩ := he o (List.mem_cons_self ..)
    have h2 := ih (o.1 :: done) hnd.2 (by
      intro x hx hc
      rcases List.mem_cons.1 hc with h | h
      · exact hnd.1 (List.mem_map.2 ⟨x, hx, h⟩)
      · exact hd x (List.mem_cons_of_mem _ hx) h) (fun x hx => he x (List.mem_cons_of_mem _ hx))
    simp only [write, hd', h2, more]
    rw [if_neg (hd o (List.mem_cons_self ..))]
    simp [recOf, hd']

/-- What is written up to a name that was there before. -/
theorem write_dup (options : BitVec 32) (done : List Bytes) (pre post : List (Bytes × V)) (o : Bytes × V)
    (hnd : (pre.map (·.1)).Nodup) (hd : ∀ x ∈ pre, x.1 ∉ done) (he : ∀ x ∈ pre, ∃ d, enc x.2 = some d)
    (ho : o.1 ∈ done ∨ o.1 ∈ pre.map (·.1)) :
    write enc options done (pre ++ o :: post) = (pre.map (recOf enc options), false) := by
  induction pre generalizing done with
  | nil =>
    simp only [List.map_nil, List.not_mem_nil, or_false] at ho
    simp [write, ho]
  | cons p pre ih =>
    rw [List.map_cons, List.nodup_cons] at hnd
    obtain ⟨d, hd'⟩ := he p (List.mem_cons_self ..)
    have h2 := ih (p.1 :: done) hnd.2 (by
      intro x hx hc
      rcases List.mem_cons.1 hc with h | h
      · exact hnd.1 (List.mem_map.2 ⟨x, hx, h⟩)
      · exact hd x (List.mem_cons_of_mem _ hx) h) (fun x hx => he x (List.mem_cons_of_mem _ hx))
      (by
        rcases ho with h | h
        · exact .inl (List.mem_cons_of_mem _ h)
        · rw [List.map_cons] at h
          rcases List.mem_cons.1 h with h | h
          · exact .inl (h ▸ List.mem_cons_self ..)
          · exact .inr h)
    simp only [List.cons_append, write, hd', h2, more]
    rw [if_neg (hd p (List.mem_cons_self ..))]
    simp [recOf, hd']

/-- Reading one name from a file made of records. -/
theorem book_file (C : Codec) (M : MetaCodec) (options : BitVec 32) (rs : List Rec) (hgood : C.Good options)
    (hopt : ∀ r ∈ rs, r.options = options) (hfit : ∀ r ∈ rs, r.Fits C) (hm : (metaRec C M options rs).Fits C)
    (name : Bytes) (hmeta : name ≠ metaRecord) :
    (∀ r b pre post, rs = pre ++ r :: post → (∀ x ∈ pre, x.name ≠ name) → (∀ x ∈ post, x.name ≠ name) → r.name = name →
      b ∈ r.blocks → b.name = name → book dec C (mkFile C M options rs) name = onBlock dec (some b)) ∧
    ((∀ r ∈ rs, r.name ≠ name) → book dec C (mkFile C M options rs) name = .empty) := by
  obtain ⟨seen, hs1, hs2⟩ := C32_scan_partial C [(name, true)] (rs ++ [metaRec C M options rs])
    (by
      intro r hr
      rcases List.mem_append.1 hr with hr | hr
      · exact hfit r hr
      · rw [List.mem_singleton] at hr; subst hr; exact hm)
    (compressorKind options)
    (by
      intro r hr _
      rcases List.mem_append.1 hr with hr | hr
      · rw [hopt r hr]
      · rw [List.mem_singleton] at hr; subst hr; rfl)
    hgood (encFooter (rioMagic ++ encRecs C rs).length) (.closed _)
  have hfile : mkFile C M options rs = rioMagic ++
      (encRecs C (rs ++ [metaRec C M options rs]) ++ encFooter (rioMagic ++ encRecs C rs).length) := by
    rw [mkFile_eq, encRecs_append]
    simp [encRecs]
  have hsel : ∀ r : Rec, Selected [(name, true)] r ↔ r.name = name := by
    intro r
    simp [Selected, eq_comm]
  have hfil : ∀ l : List Rec, (∀ x ∈ l, x.name ≠ name) → l.filter (fun r => Selected [(name, true)] r) = [] := by
    intro l hl
    rw [List.filter_eq_nil_iff]
    intro x hx
    simpa [hsel] using hl x hx
  have hmf : ([metaRec C M options rs].filter fun r => Selected [(name, true)] r) = [] := by
    refine hfil _ ?_
    intro x hx
    rw [List.mem_singleton] at hx
    subst hx
    exact fun h => hmeta h.symm
  rw [hfile]
  generalize encRecs C (rs ++ [metaRec C M options rs]) ++ encFooter (rioMagic ++ encRecs C rs).length = rest at *
  unfold scanStream at hs1
  rw [readFull_append _ (show rioMagic.length = 4 from rfl)] at hs1
  simp only [if_true] at hs1
  have hfol := follows_of_scanAll C _ _ _ _ hs1
  rw [List.filter_append, hmf, List.append_nil] at hs2
  unfold book
  rw [readFull_append _ (show rioMagic.length = 4 from rfl)]
  simp only [if_true]
  constructor
  · rintro r b pre post rfl h1 h2 hn hb hbn
    rw [List.filter_append, List.filter_cons_of_pos (by simpa [hsel] using hn), hfil _ h1, hfil _ h2, List.nil_append] at hs2
    cases hs2 with
    | cons hx hnil =>
      cases hnil
      obtain ⟨s, e1, e2, e3, -⟩ := hfol
      rw [show (newScanner rest).input.length = rest.length from rfl] at e1
      rw [e1]
      have hu : Unpacked [(name, true)] r := ⟨[], [], by rw [hn]; rfl, by simp⟩
      have := hx.blocks hu b hb
      rw [← e3, hbn] at this
      simp only [this]
  · intro h
    rw [hfil _ h] at hs2
    cases hs2
    have e : scan C [(name, true)] (rest.length + 1) (newScanner rest) = .done := hfol
    rw [e]

/-- **C168** (part): histograms with different names, saved by the service to a stream when a job stops, are those that a job gets when it
books these names from the stream. Missing: names given twice, names that are not in the file; see the
counterexamples. -/
theorem C168_saved_partial (C : Codec) (M : MetaCodec) (options : BitVec 32) (os : List (Bytes × V))
    (hgood : C.Good options) (hnd : (os.map (·.1)).Nodup) (hmeta : ∀ o ∈ os, o.1 ≠ metaRecord)
    (henc : ∀ o ∈ os, ∃ d, enc o.2 = some d ∧ dec d = some o.2)
    (hfit : ∀ o ∈ os, (recOf enc options o).Fits C) (hm : (metaRec C M options (os.map (recOf enc options))).Fits C) :
    (write enc options [] os).2 = true ∧
    ∀ o ∈ os, book dec C (saved enc C M options os) o.1 = .filled o.2 := by
  have hw := write_ok options [] os hnd (by simp) (fun o ho => (henc o ho).imp fun _ h => h.1)
  refine ⟨by rw [hw], ?_⟩
  intro o ho
  have hs : saved enc C M options os = mkFile C M options (os.map (recOf enc options)) := by
    unfold saved mkFile; rw [hw]
  rw [hs]
  obtain ⟨d, h1, h2⟩ := henc o ho
  obtain ⟨pre, post, rfl⟩ := List.append_of_mem ho
  have hb := (book_file (dec := dec) C M options ((pre ++ o :: post).map (recOf enc options)) hgood
    (by intro r hr; obtain ⟨x, -, rfl⟩ := List.mem_map.1 hr; rfl)
    (by intro r hr; obtain ⟨x, hx, rfl⟩ := List.mem_map.1 hr; exact hfit x hx) hm o.1 (hmeta o ho)).1
    (recOf enc options o) ⟨0, o.1, d⟩ (pre.map (recOf enc options)) (post.map (recOf enc options)) (by simp)
    (by
      intro x hx hc
      obtain ⟨y, hy, rfl⟩ := List.mem_map.1 hx
      rw [List.map_append, List.nodup_append] at hnd
      exact hnd.2.2 _ (List.mem_map.2 ⟨y, hy, rfl⟩) _ (by simp) hc)
    (by
      intro x hx hc
      obtain ⟨y, hy, rfl⟩ := List.mem_map.1 hx
      rw [List.map_append, List.map_cons, List.nodup_append, List.nodup_cons] at hnd
      exact hnd.2.1.1 (List.mem_map.2 ⟨y, hy, hc⟩))
    rfl (by simp [recOf, h1]) rfl
  rw [hb]
  simp [onBlock, h2]

/-- **C168** fails for names that are not in the file: whatever was saved, booking another name gives an empty histogram and no
error. -/
theorem C168_absent_counterexample (C : Codec) (M : MetaCodec) (options : BitVec 32) (os : List (Bytes × V))
    (hgood : C.Good options) (hnd : (os.map (·.1)).Nodup)
    (henc : ∀ o ∈ os, ∃ d, enc o.2 = some d)
    (hfit : ∀ o ∈ os, (recOf enc options o).Fits C) (hm : (metaRec C M options (os.map (recOf enc options))).Fits C)
    (name : Bytes) (hn : ∀ o ∈ os, o.1 ≠ name) (hmeta : name ≠ metaRecord) :
    book dec C (saved enc C M options os) name = .empty := by
  have hw := write_ok options [] os hnd (by simp) henc
  have hs : saved enc C M options os = mkFile C M options (os.map (recOf enc options)) := by
    unfold saved mkFile; rw [hw]
  rw [hs]
  refine (book_file C M options _ hgood (by intro r hr; obtain ⟨x, -, rfl⟩ := List.mem_map.1 hr; rfl)
    (by intro r hr; obtain ⟨x, hx, rfl⟩ := List.mem_map.1 hr; exact hfit x hx) hm name hmeta).2 ?_
  intro r hr
  obtain ⟨x, hx, rfl⟩ := List.mem_map.1 hr
  exact hn x hx

/-- **C168** fails if a name is used twice in a stream, for instance for a histogram and a profile: nothing from the second one on is
saved, so that the histograms after it come back empty; the job that saved them gets an error. -/
theorem C168_twice_counterexample (C : Codec) (M : MetaCodec) (options : BitVec 32) (pre post : List (Bytes × V))
    (o : Bytes × V) (hgood : C.Good options) (hnd : (pre.map (·.1)).Nodup) (ho : o.1 ∈ pre.map (·.1))
    (henc : ∀ x ∈ pre, ∃ d, enc x.2 = some d)
    (hfit : ∀ x ∈ pre, (recOf enc options x).Fits C) (hm : (metaRec C M options (pre.map (recOf enc options))).Fits C)
    (x : Bytes × V) (_hx : x ∈ post) (hn : ∀ y ∈ pre, y.1 ≠ x.1) (hmeta : x.1 ≠ metaRecord) :
    (write enc options [] (pre ++ o :: post)).2 = false ∧
    book dec C (saved enc C M options (pre ++ o :: post)) x.1 = .empty := by
  have hw := write_dup options [] pre post o hnd (by simp) henc (.inr ho)
  refine ⟨by rw [hw], ?_⟩
  have hs : saved enc C M options (pre ++ o :: post) = mkFile C M options (pre.map (recOf enc options)) := by
    unfold saved mkFile; rw [hw]
  rw [hs]
  refine (book_file C M options _ hgood (by intro r hr; obtain ⟨x, -, rfl⟩ := List.mem_map.1 hr; rfl)
    (by intro r hr; obtain ⟨x, hx, rfl⟩ := List.mem_map.1 hr; exact hfit x hx) hm x.1 hmeta).2 ?_
  intro r hr
  obtain ⟨y, hy, rfl⟩ := List.mem_map.1 hr
  exact hn y hy

/-! ## Examples -/

-- Two histograms saved and booked again, one that is not there, and a name given twice.
example : (book some plain (saved some plain noMeta opts0 [([97], [1, 2]), ([98], [3])]) [97],
    book some plain (saved some plain noMeta opts0 [([97], [1, 2]), ([98], [3])]) [98],
    book some plain (saved some plain noMeta opts0 [([97], [1, 2]), ([98], [3])]) [99]) =
    ((Booked.filled [1, 2], .filled [3], .empty) : Booked Bytes × Booked Bytes × Booked Bytes) := by
  decide +kernel

example : (book some plain (saved some plain noMeta opts0 [([97], [1, 2]), ([97], [5]), ([98], [3])]) [97],
    book some plain (saved some plain noMeta opts0 [([97], [1, 2]), ([97], [5]), ([98], [3])]) [98]) =
    ((Booked.filled [1, 2], .empty) : Booked Bytes × Booked Bytes) := by
  decide +kernel

example (o : Bytes × Bytes) (ho : o ∈ [(([97], [1, 2]) : Bytes × Bytes), ([98], [3])]) :
    (recOf some opts0 o).Fits plain ∧ o.1 ≠ metaRecord := by
  simp only [List.mem_cons, List.not_mem_nil, or_false] at ho
  rcases ho with rfl | rfl <;>
    exact ⟨⟨by decide, by simp only [recOf, List.mem_singleton, forall_eq]; exact ⟨by decide, by decide, by decide⟩, by decide,
      by decide +kernel, by decide +kernel⟩, by decide⟩

end Verif.Fwk.Hstream
