import Verif.HepMC.Ends

/-!
# HepMC: examples and counterexamples

Numbers are printed in decimal and names are lists of letters and blanks.
-/

namespace Verif.HepMC.Examples

/-- Names: letters `a` to `z` are 0 to 25, the blank is 26. -/
abbrev Nm := List (Fin 27)

/-- A character of a name. -/
def chEnc (i : Fin 27) : UInt8 := if i = 26 then 32 else UInt8.ofNat (97 + i.val)

/-- The inverse. -/
def chDec (b : UInt8) : Option (Fin 27) :=
  if b = 32 then some 26 else if h : 97 ≤ b.toNat ∧ b.toNat < 123 then some ⟨b.toNat - 97, by omega⟩ else none

theorem chDec_chEnc : ∀ i, chDec (chEnc i) = some i := by decide +kernel

theorem chEnc_clean : ∀ i, chEnc i ≠ 34 ∧ chEnc i ≠ 10 ∧ chEnc i ≠ 13 := by decide +kernel

/-- Quote a name. -/
def quote (n : Nm) : List UInt8 := 34 :: (n.map chEnc ++ [34])

/-- Remove the quotes. -/
def unquote (bs : List UInt8) : Option Nm :=
  if bs.length < 2 ∨ bs.head? ≠ some 34 ∨ bs.getLast? ≠ some 34 then none else bs.tail.dropLast.mapM chDec

/-- Numbers in decimal. -/
def cfg : Fmt Int Int Nm := ⟨intEnc, parseInt, intEnc, parseInt, quote, unquote, 0, []⟩

theorem lawful : cfg.Lawful := by
  refine ⟨parseInt_enc, parseInt_enc, ?_, ?_, ?_, ?_⟩
  · intro n
    show unquote (quote n) = some n
    unfold unquote quote
    rw [if_neg]
    · simp only [List.tail_cons, List.dropLast_concat]
      induction n with
      | nil => rfl
      | cons i n ih => simp [chDec_chEnc, ih]
    · simp [List.getLast?_cons]
  · intro x b hb
    have := (clean_int x)
    exact ⟨fun h => this.1 (h ▸ hb), fun h => this.2.1 (h ▸ hb), fun h => this.2.2 (h ▸ hb)⟩
  · intro x b hb
    have := (clean_int x)
    exact ⟨fun h => this.1 (h ▸ hb), fun h => this.2.1 (h ▸ hb), fun h => this.2.2 (h ▸ hb)⟩
  · intro n b hb
    replace hb : b ∈ 34 :: (n.map chEnc ++ [34]) := hb
    simp only [List.mem_cons, List.mem_append, List.mem_map, List.not_mem_nil, or_false] at hb
    rcases hb with rfl | ⟨i, _, rfl⟩ | rfl
    · decide
    · exact (chEnc_clean i).2
    · decide

/-- Two beams meet in a vertex, a particle comes out and decays into two. -/
def exP : Nat → Part Int
  | 0 => ⟨⟨1, 2212, 0, 0, 7000, 7000, 1, 3, 0, 0, []⟩, none, some 0⟩
  | 1 => ⟨⟨2, 2212, 0, 0, -7000, 7000, 1, 3, 0, 0, []⟩, none, some 0⟩
  | 2 => ⟨⟨3, 23, 1, 2, 3, 91, 91, 3, 0, 0, [(2, 501), (1, 502)]⟩, some 0, some 1⟩
  | 3 => ⟨⟨4, 13, 1, 0, 3, 40, 0, 1, 0, 0, []⟩, some 1, none⟩
  | 4 => ⟨⟨5, -13, 0, 2, 0, 51, 0, 1, 0, 0, []⟩, some 1, none⟩
  | _ => ⟨⟨0, 0, 0, 0, 0, 0, 0, 0, 0, 0, []⟩, none, none⟩

/-- The two vertices. -/
def exV : Nat → Vtx Int
  | 0 => ⟨⟨-1, 7, 0, 0, 0, 0, [2, 3]⟩, [0, 1], [2], some 0⟩
  | 1 => ⟨⟨-2, 8, 0, 0, 5, 5, []⟩, [2], [3, 4], some 0⟩
  | _ => ⟨⟨0, 0, 0, 0, 0, 0, []⟩, [], [], none⟩

/-- The event. -/
def exE : Evt Int Int Nm :=
  { zeroEvt cfg with
    number := 42, sigId := 20, scale := 91, sig := some 0, beam1 := some 0, beam2 := some 1, weights := some [1, 10],
    wmap := [([1, 2], 1), ([0], 0)], rnd := [12, 34], vertices := some [(-1, 0), (-2, 1)],
    particles := some [(3, 2), (1, 0), (2, 1), (4, 3), (5, 4)], cross := some ⟨12, 1⟩, mu := .gev }

/-- The heap. -/
def exH : Heap Int Int Nm := ⟨2, 5, exV, exP, fun _ => exE⟩

theorem ex_verts : evVerts exE = [0, 1] := rfl
theorem ex_parts : evParts exE = [2, 0, 1, 3, 4] := rfl

theorem ex_sound : Sound exH exE := by
  have hm : mlist exE.vertices = [(-1, 0), (-2, 1)] := rfl
  have hp : mlist exE.particles = [(3, 2), (1, 0), (2, 1), (4, 3), (5, 4)] := rfl
  constructor
  · rw [hm]; intro b v h; simp at h; rcases h with ⟨rfl, rfl⟩ | ⟨rfl, rfl⟩ <;> rfl
  · decide
  · rw [ex_verts]; decide
  · rw [hp]; intro b v h; simp at h
    rcases h with ⟨rfl, rfl⟩ | ⟨rfl, rfl⟩ | ⟨rfl, rfl⟩ | ⟨rfl, rfl⟩ | ⟨rfl, rfl⟩ <;> rfl
  · decide
  · rw [ex_parts]; decide
  · rw [ex_verts, ex_parts]
    intro v hv p
    simp only [List.mem_cons, List.not_mem_nil, or_false] at hv
    constructor
    · intro h
      rcases hv with rfl | rfl <;> simp [exH, exV] at h
      · rcases h with rfl | rfl <;> exact ⟨by simp, rfl⟩
      · subst h; exact ⟨by simp, rfl⟩
    · rintro ⟨h1, h2⟩
      simp only [List.mem_cons, List.not_mem_nil, or_false] at h1
      rcases hv with rfl | rfl <;> rcases h1 with rfl | rfl | rfl | rfl | rfl <;> simp_all [exH, exV, exP]
  · rw [ex_verts, ex_parts]
    intro v hv p
    simp only [List.mem_cons, List.not_mem_nil, or_false] at hv
    constructor
    · intro h
      rcases hv with rfl | rfl <;> simp [exH, exV] at h
      · subst h; exact ⟨by simp, rfl⟩
      · rcases h with rfl | rfl <;> exact ⟨by simp, rfl⟩
    · rintro ⟨h1, h2⟩
      simp only [List.mem_cons, List.not_mem_nil, or_false] at h1
      rcases hv with rfl | rfl <;> rcases h1 with rfl | rfl | rfl | rfl | rfl <;> simp_all [exH, exV, exP]
  · rw [ex_verts]; decide
  · rw [ex_verts]; decide
  · rw [ex_verts, ex_parts]
    intro p hp v hv
    simp only [List.mem_cons, List.not_mem_nil, or_false] at hp
    rcases hp with rfl | rfl | rfl | rfl | rfl <;> simp_all [exH, exP] <;> omega
  · rw [ex_verts, ex_parts]
    intro p hp v hv
    simp only [List.mem_cons, List.not_mem_nil, or_false] at hp
    rcases hp with rfl | rfl | rfl | rfl | rfl <;> simp_all [exH, exP] <;> omega

theorem ex_writable : Writable cfg exH exE where
  toSound := ex_sound
  nonempty := by rw [ex_verts]; simp
  attached := by rw [ex_parts]; decide
  sig_in := by rintro v ⟨⟩; rw [ex_verts]; simp
  beam1_in := by rintro v ⟨⟩; rw [ex_parts]; exact ⟨by simp, by simp [exH, exP]⟩
  beam2_in := by rintro v ⟨⟩; rw [ex_parts]; exact ⟨by simp, by simp [exH, exP]⟩
  flow_nodup := by rw [ex_parts]; decide
  names_nodup := by decide
  names_all := by decide
  blanks := by decide

/-- The event of a fresh variable. -/
def emptyHeap : Heap Int Int Nm := ⟨0, 0, fun _ => exV 9, fun _ => exP 9, fun _ => zeroEvt cfg⟩

theorem ex_short : ShortLines (encodeAll cfg false [(exH, exE), (exH, { exE with number := 43 })]) := by
  unfold ShortLines
  decide +kernel

/-- Two events written and read. -/
example : ∃ d h', decodeAll cfg (newDecoder (encodeAll cfg false [(exH, exE), (exH, { exE with number := 43 })])) emptyHeap
    [(0, id), (1, List.reverse)] = .ok (d, h') ∧ Sound h' (h'.e 0) ∧ Sound h' (h'.e 1) ∧ (h'.e 0).number = 42 ∧
    (h'.e 1).number = 43 := by
  obtain ⟨d, h', e1, _, _, _, e2⟩ := C83_events_read_back_partial lawful [(exH, exE), (exH, { exE with number := 43 })] (by simp)
    (by
      intro q hq
      simp only [List.mem_cons, List.not_mem_nil, or_false] at hq
      rcases hq with rfl | rfl
      · exact ex_writable
      · exact ⟨⟨ex_sound.vkey, ex_sound.vnodup, ex_sound.vne0, ex_sound.pkey, ex_sound.pnodup, ex_sound.pne0, ex_sound.in_iff,
          ex_sound.out_iff, ex_sound.in_nodup, ex_sound.out_nodup, ex_sound.fin_reg, ex_sound.prod_reg⟩,
          ex_writable.nonempty, ex_writable.attached, ex_writable.sig_in, ex_writable.beam1_in, ex_writable.beam2_in,
          ex_writable.flow_nodup, ex_writable.names_nodup, ex_writable.names_all, ex_writable.blanks⟩)
    ex_short emptyHeap [(0, id), (1, List.reverse)] rfl (by decide)
    (by
      intro q hq l
      simp only [List.mem_cons, List.not_mem_nil, or_false] at hq
      rcases hq with rfl | rfl
      · exact List.Perm.refl _
      · exact List.reverse_perm l) (fun _ _ => rfl)
  obtain ⟨s0, φ0, ψ0, g0, _⟩ := e2 0 _ _ rfl rfl
  obtain ⟨s1, φ1, ψ1, g1, _⟩ := e2 1 _ _ rfl rfl
  exact ⟨d, h', e1, s0, s1, g0.values.number, g1.values.number⟩

/-- Copying the file of one event, the map visited backwards. -/
example : ∃ bs s, copyEvents cfg 0 [List.reverse, id] (newDecoder (encodeAll cfg false [(exH, exE)])) emptyHeap false =
    .ok (1, bs, s) ∧ bs ++ closeEnc s = encodeAll cfg false [(exH, exE)] := by
  refine C85_copy_same_file_partial lawful [(exH, exE)] (by simp) ?_ ?_ (by simp) ?_ emptyHeap 0 rfl [List.reverse, id] ?_ (by decide)
  · intro q hq
    simp only [List.mem_cons, List.not_mem_nil, or_false] at hq
    subst hq
    exact ex_writable
  · intro q hq
    simp only [List.mem_cons, List.not_mem_nil, or_false] at hq
    subst hq
    constructor <;> (rw [ex_verts]; decide)
  · unfold ShortLines; decide +kernel
  · intro o ho l
    simp only [List.mem_cons, List.not_mem_nil, or_false] at ho
    rcases ho with rfl | rfl
    · exact List.reverse_perm l
    · exact List.Perm.refl _

/-- The hypotheses of `C85_reused_event` are met by the decoder after the header of a file. -/
example : ∃ d' h' φ ψ, decode cfg List.reverse ⟨(evtLines cfg exH exE).map joinSp, false, false, true, .genEvent, 0, 0, 0⟩
    emptyHeap 0 = .ok (d', h') ∧ SameGraph φ ψ exH exE h' (h'.e 0) := by
  obtain ⟨d', h', φ, ψ, e, _, g, _⟩ := C85_reused_event lawful ex_writable (ord := List.reverse) List.reverse_perm
    ⟨(evtLines cfg exH exE).map joinSp, false, false, true, .genEvent, 0, 0, 0⟩ rfl rfl [] (by simp) emptyHeap 0
  exact ⟨d', h', φ, ψ, e, g⟩

/-- The same event with its maps visited in another order. -/
example : encode cfg false exH { exE with vertices := some [(-2, 1), (-1, 0)], wmap := [([0], 0), ([1, 2], 1)] } =
    encode cfg false exH exE :=
  C83_bytes_independent_of_map_order cfg ⟨rfl, fun _ => rfl, fun _ => List.Perm.refl _,
    (by
      intro i
      match i with
      | 0 | 1 | 2 | 3 | 4 => decide
      | _ + 5 => exact List.nodup_nil),
    rfl, by decide, by decide⟩ ex_sound (by decide) false

/-- An event with 70000 random states, whose first line is too long. -/
example (es : List (Heap Int Int Nm × Evt Int Int Nm)) (h : Heap Int Int Nm) (k : Nat) :
    decode cfg id (newDecoder (encodeAll cfg false ((exH, { exE with rnd := List.replicate 70000 1 }) :: es))) h k = .err := by
  refine C83_long_line_refused lawful _ _ es ?_ id h k
  have hlen : ∀ (ws : List (List UInt8)) (w : List UInt8), ws.length ≤ (joinSp (w :: ws)).length := by
    intro ws
    induction ws with
    | nil => intro w; simp
    | cons a ws ih =>
      intro w
      have := ih a
      show _ ≤ (w ++ 32 :: joinSp (a :: ws)).length
      simp only [List.length_append, List.length_cons]
      omega
  have : 70000 ≤ ((evtWords cfg exH { exE with rnd := List.replicate 70000 1 }).tail).length := by
    unfold evtWords
    simp only [List.cons_append, List.tail_cons, List.length_append, List.length_cons, List.length_map, List.length_replicate]
    omega
  have h2 := hlen (evtWords cfg exH { exE with rnd := List.replicate 70000 1 }).tail (str "E")
  have h3 : str "E" :: (evtWords cfg exH { exE with rnd := List.replicate 70000 1 }).tail =
      evtWords cfg exH { exE with rnd := List.replicate 70000 1 } := rfl
  rw [h3] at h2
  unfold maxLine
  omega

/-- A decoder on arbitrary bytes. -/
example : decodeAll cfg (newDecoder [10, 69, 32]) emptyHeap [(0, id), (0, id), (0, id)] ≠ .hang :=
  C86_read_until_error_returns cfg _ _ _

example : decode cfg id (newDecoder [10, 69, 32]) emptyHeap 0 ≠ .hang := (C86_decode_returns_partial cfg id _ rfl _ _).1

/-- A decoder at the end of a listing. -/
example : ∃ d1 d2, decode cfg id ⟨[joinSp [endGenEvent]], false, false, true, .genEvent, 0, 0, 0⟩ emptyHeap 0 = .eof d1 ∧
    decode cfg id d1 emptyHeap 0 = .eof d2 ∧ decode cfg id d2 emptyHeap 0 = .hang :=
  C86_decode_after_end_counterexample cfg id _ rfl rfl rfl rfl rfl emptyHeap 0

example : ∀ q, decode cfg id ⟨[joinSp [str "E", str "1"]], false, false, true, .ascii, 0, 0, 0⟩ emptyHeap 0 ≠ .ok q :=
  C86_ascii_never_read cfg id _ rfl rfl emptyHeap 0

end Verif.HepMC.Examples

namespace Verif.HepMC

open Examples

/-- What is of interest in an outcome. -/
def R.see {α β : Type} (f : α → β) : R α → Option β
  | .ok a => some (f a)
  | _ => none

/-- An event without vertices is written but cannot be read: the last line of the file is taken
for heavy-ion data, and when another event follows the event is silently replaced by it. -/
theorem C83_no_vertex_counterexample :
    decode cfg id (newDecoder (encodeAll cfg false [(exH, zeroEvt cfg)])) emptyHeap 0 = .err ∧
    R.see (fun q => (q.2.e 0).number) (decode cfg id (newDecoder (encodeAll cfg false
      [(exH, { zeroEvt cfg with number := 41 }), (exH, exE)])) emptyHeap 0) = some 42 := by
  constructor
  · have : (match decode cfg id (newDecoder (encodeAll cfg false [(exH, zeroEvt cfg)])) emptyHeap 0 with
        | .err => true
        | _ => false) = true := by decide +kernel
    revert this
    cases decode cfg id (newDecoder (encodeAll cfg false [(exH, zeroEvt cfg)])) emptyHeap 0 <;> simp
  · decide +kernel

/-- A weight whose name contains a blank makes the event unreadable. -/
theorem C83_name_with_blank_counterexample :
    R.see (fun _ => ()) (decode cfg id (newDecoder (encodeAll cfg false
      [(exH, { exE with weights := some [1], wmap := [([0, 26, 1], 0)] })])) emptyHeap 0) = none := by decide +kernel

/-- Weights without names get one name, and one index. -/
theorem C83_unnamed_weights_counterexample :
    R.see (fun q => (q.2.e 0).wmap) (decode cfg id (newDecoder (encodeAll cfg false
      [(exH, { exE with weights := some [1, 10], wmap := [] })])) emptyHeap 0) = some [([], 1)] := by decide +kernel

/-- A beam that ends in no vertex is lost. -/
theorem C83_beam_counterexample :
    R.see (fun q => ((q.2.e 0).beam1, (q.2.e 0).beam2)) (decode cfg id (newDecoder (encodeAll cfg false
      [(exH, { exE with beam2 := some 4 })])) emptyHeap 0) = some (some 0, none) := by decide +kernel

/-- A particle that touches no vertex is lost. -/
theorem C83_lone_particle_counterexample :
    R.see (fun q => (evParts (q.2.e 0)).length) (decode cfg id (newDecoder (encodeAll cfg false
      [(exH, { exE with particles := some ((6, 7) :: mlist exE.particles) })])) emptyHeap 0) = some 5 := by decide +kernel

/-- Copying a file of two events, the second without cross section: the copy gives it the cross
section of the first. -/
theorem C85_stale_counterexample :
    R.see (fun r => r.2.1 ++ closeEnc r.2.2) (copyEvents cfg 0 [id, id, id] (newDecoder (encodeAll cfg false
      [(exH, exE), (exH, { exE with number := 43, cross := none })])) emptyHeap false) =
      some (encodeAll cfg false [(exH, exE), (exH, { exE with number := 43, cross := some ⟨12, 1⟩ })]) ∧
    encodeAll cfg false [(exH, exE), (exH, { exE with number := 43, cross := some ⟨12, 1⟩ })] ≠
      encodeAll cfg false [(exH, exE), (exH, { exE with number := 43, cross := none })] := by
  constructor <;> decide +kernel

end Verif.HepMC
