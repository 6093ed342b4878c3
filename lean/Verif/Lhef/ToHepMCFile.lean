import Verif.Lhef.ToHepMCProps
import Mathlib.Analysis.Real.Sqrt
import Mathlib.Algebra.Order.BigOperators.Group.List

/-!
# From LHEF files to HepMC files: files (C140) and cross sections (C141)
-/

namespace Verif.Lhef2HepMC

open Verif.HepMC
open Verif.Lhef (Run V5 Decoder Notation)

variable {F G N : Type}

/-! ## Specification -/

/-- The mean of the weights so far and its error, `IDWTUP` being 4 or -4. -/
def running (ar : Ar F) (ws : List F) : CrossSection F :=
  let n := ar.ofNat ws.length
  let m := ar.div (ws.foldl ar.add (ar.ofNat 0)) n
  let v := ar.div (ar.sub (ar.div ((ws.map fun w => ar.mul w w).foldl ar.add (ar.ofNat 0)) n) (ar.mul m m)) n
  ⟨m, ar.sqrt (if ar.neg v then ar.ofNat 0 else v)⟩

/-- The cross section the event after the weights `ws` (its own included) should have. -/
def XsecIs (ar : Ar F) (r : Run F) (ws : List F) (x : CrossSection F) : Prop :=
  ((r.idwtup.toInt = 3 ∨ r.idwtup.toInt = -3) ∧ r.xsecup[0]? = some x.value ∧ r.xsecup[1]? = some x.error) ∨
  ((r.idwtup.toInt = 4 ∨ r.idwtup.toInt = -4) ∧ x = running ar ws)

/-- The runs the program can convert. -/
def Handled (r : Run F) : Prop :=
  ((r.idwtup.toInt = 3 ∨ r.idwtup.toInt = -3) ∧ 2 ≤ r.xsecup.length) ∨ (r.idwtup.toInt = 4 ∨ r.idwtup.toInt = -4)

/-! ## Files -/

/-- The sums over the weights so far. -/
def accOf (ar : Ar F) (ws : List F) : Acc F :=
  ⟨ws.foldl ar.add (ar.ofNat 0), (ws.map fun w => ar.mul w w).foldl ar.add (ar.ofNat 0), ws.length⟩

theorem accOf_count (ar : Ar F) (ws : List F) (w : F) : (accOf ar ws).count ar w = accOf ar (ws ++ [w]) := by
  simp [accOf, Acc.count, List.foldl_append]

theorem cross_ok (ar : Ar F) {r : Run F} (hr : Handled r) {ws : List F} {s : Acc F}
    (hs : (r.idwtup.toInt = 4 ∨ r.idwtup.toInt = -4) → s = accOf ar ws) (w : F) :
    ∃ x s', cross ar r s w = .ok (x, s') ∧ XsecIs ar r (ws ++ [w]) x ∧
      ((r.idwtup.toInt = 4 ∨ r.idwtup.toInt = -4) → s' = accOf ar (ws ++ [w])) := by
  rcases hr with ⟨h3, hl⟩ | h4
  · have hn : r.idwtup.toInt.natAbs = 3 := by omega
    match hx : r.xsecup, hl with
    | x :: y :: l, _ =>
      refine ⟨⟨x, y⟩, s, ?_, Or.inl ⟨h3, ?_, ?_⟩, ?_⟩
      · simp [cross, hn, hx]
      · simp [hx]
      · simp [hx]
      · omega
  · have hn : r.idwtup.toInt.natAbs = 4 := by omega
    refine ⟨running ar (ws ++ [w]), accOf ar (ws ++ [w]), ?_, Or.inr ⟨h4, rfl⟩, fun _ => rfl⟩
    simp only [cross, hn, hs h4, accOf_count]
    rfl

theorem find_lt (n : Lhef.Str) : ∀ (l l' : List Lhef.Tok), Lhef.find n l = some l' → l'.length < l.length
  | [], _, h => by simp [Lhef.find] at h
  | t :: l, l', h => by
    cases t with
    | start m as =>
      simp only [Lhef.find] at h
      split at h
      · cases h; simp
      · have := find_lt n l l' h
        simp only [List.length_cons]
        omega
    | stop m => have := find_lt n l l' h; simp only [List.length_cons]; omega
    | char s => have := find_lt n l l' h; simp only [List.length_cons]; omega
    | comment => have := find_lt n l l' h; simp only [List.length_cons]; omega

theorem seek_lt (n : Lhef.Str) : ∀ (l l' : List Lhef.Tok), Lhef.seek n l = some l' → l'.length < l.length
  | [], _, h => by simp [Lhef.seek] at h
  | t :: l, l', h => by
    cases t with
    | stop m =>
      simp only [Lhef.seek] at h
      split at h
      · cases h; simp
      · have := seek_lt n l l' h
        simp only [List.length_cons]
        omega
    | start m as => have := seek_lt n l l' h; simp only [List.length_cons]; omega
    | char s => have := seek_lt n l l' h; simp only [List.length_cons]; omega
    | comment => have := seek_lt n l l' h; simp only [List.length_cons]; omega

/-- Every event takes tokens. -/
theorem decode_lt {no : Notation F} {d d' : Decoder F} {e : Lhef.Event F} (h : d.decode no = (.ok e, d')) :
    d'.toks.length < d.toks.length ∧ d'.run = d.run := by
  simp only [Decoder.decode] at h
  split at h
  · cases hf : d.fin <;> simp [hf, Lhef.atEnd] at h
  · cases hf : d.fin <;> simp [hf, Lhef.atEnd] at h
  · rename_i s l hfind
    have h1 := find_lt _ _ _ hfind
    split at h
    · split at h
      · simp at h
      · rename_i l' hseek
        have h2 := seek_lt _ _ _ hseek
        simp only [Prod.mk.injEq] at h
        rw [← h.2]
        simp only [List.length_cons] at h1
        exact ⟨by simp only; omega, rfl⟩
    · rename_i o ho
      simp only [Prod.mk.injEq] at h
      exact absurd h.1 (ho e)
  · simp at h

/-- The events a decoder gives before the end of the file. -/
def Gives (no : Notation F) (d : Decoder F) (es : List (Lhef.Event F)) : Prop :=
  (d.decodeAll no (es.length + 1)).1 = es.map .ok ++ [.eof]

theorem gives_cons {no : Notation F} {d : Decoder F} {e : Lhef.Event F} {es : List (Lhef.Event F)} (h : Gives no d (e :: es)) :
    d.decode no = (.ok e, (d.decode no).2) ∧ Gives no (d.decode no).2 es := by
  simp only [Gives, List.length_cons, Decoder.decodeAll, List.map_cons, List.cons_append, List.cons.injEq] at h
  exact ⟨Prod.ext h.1 rfl, by simpa [Gives, Decoder.decodeAll] using h.2⟩

theorem gives_nil {no : Notation F} {d : Decoder F} (h : Gives no d []) : d.decode no = (.eof, (d.decode no).2) := by
  simp only [Gives, List.length_nil, Decoder.decodeAll, List.map_nil, List.nil_append, List.cons.injEq] at h
  exact Prod.ext h.1 rfl

theorem gives_len {no : Notation F} : ∀ {es : List (Lhef.Event F)} {d : Decoder F}, Gives no d es → es.length ≤ d.toks.length
  | [], _, _ => by simp
  | e :: es, d, h => by
    obtain ⟨h1, h2⟩ := gives_cons h
    have := (decode_lt h1).1
    have := gives_len h2
    simp only [List.length_cons]
    omega

theorem loop_eq (no : Notation F) (c : Fmt F G N) {n0 : N} (hq : (32 : UInt8) ∉ c.q n0) (ar : Ar F) (keep : Bool) {r : Run F}
    (hr : Handled r) : ∀ (es : List (Lhef.Event F)) (d : Decoder F) (k ievt : Nat) (s : Acc F) (seen : Bool) (ws : List F),
      d.run = r → Gives no d es → es.length < k → ((r.idwtup.toInt = 4 ∨ r.idwtup.toInt = -4) → s = accOf ar ws) →
      ∃ l : List (Heap F G N), l.length = es.length ∧
        loop no c n0 ar keep k d ievt s seen = .ok (encodeAll c seen (l.map fun h => (h, h.e 0))) ∧
        ∀ (i : Nat) h e, l[i]? = some h → es[i]? = some e → Writable c h (h.e 0) ∧
          ∃ x, XsecIs ar r (ws ++ (es.take (i + 1)).map Lhef.Event.xwgtup) x ∧ Is c.zero n0 keep r (ievt + i) e x h 0 := by
  intro es
  induction es with
  | nil =>
    intro d k ievt s seen ws hd hg hk hs
    obtain ⟨k, rfl⟩ : ∃ j, k = j + 1 := ⟨k - 1, by simp at hk; omega⟩
    refine ⟨[], rfl, ?_, by simp⟩
    simp only [loop]
    rw [gives_nil hg]
    rfl
  | cons e es ih =>
    intro d k ievt s seen ws hd hg hk hs
    obtain ⟨k, rfl⟩ : ∃ j, k = j + 1 := ⟨k - 1, by simp at hk; omega⟩
    obtain ⟨h1, h2⟩ := gives_cons hg
    have hrun : ((d.decode no).2).run = r := by rw [(decode_lt h1).2, hd]
    obtain ⟨-, l1, l2, -, -, l3, -⟩ := Lhef.C125_lengths h1
    obtain ⟨x, s', hx, hxs, hs'⟩ := cross_ok ar hr hs e.xwgtup
    obtain ⟨h, hc, hw, hi⟩ := C140_convert c hq ar keep r ievt s s' e ⟨l1, l2, l3⟩ x hx
    obtain ⟨l, hl, hloop, hall⟩ := ih (d.decode no).2 k (ievt + 1) s' (encode c seen h (h.e 0)).1 (ws ++ [e.xwgtup]) hrun h2
      (by simp at hk; omega) hs'
    refine ⟨h :: l, by simp [hl], ?_, ?_⟩
    · simp only [loop]
      rw [h1]
      simp only [hrun, hc, hloop]
      rfl
    · intro i g f hg hf
      cases i with
      | zero =>
        simp only [List.getElem?_cons_zero, Option.some.injEq] at hg hf
        subst hg hf
        exact ⟨hw, x, by simpa using hxs, hi⟩
      | succ i =>
        simp only [List.getElem?_cons_succ] at hg hf
        obtain ⟨q1, y, q2, q3⟩ := hall i g f hg hf
        refine ⟨q1, y, ?_, ?_⟩
        · simpa using q2
        · rwa [Nat.add_right_comm, Nat.add_assoc] at q3

/-- **C140.** A Les Houches file with events and a cross section is converted, and a decoder reading the output finds
the events in order, each with the number of its place, its weight, the cross section, its beams and its
particles, and then the end of the file.

Missing: `IDWTUP` other than 3, -3, 4, -4, and 3 or -3 with one process only (see below); lines of 64 kB. -/
theorem C140_file_partial [DecidableEq N] (no : Notation F) {c : Fmt F G N} (hc : c.Lawful) {n0 : N} (hq : (32 : UInt8) ∉ c.q n0)
    (ar : Ar F) (keep : Bool) {input : List Lhef.Tok × Lhef.Fin} {d : Decoder F} (hd : Lhef.newDecoder no input = .ok d)
    {es : List (Lhef.Event F)} (hg : Gives no d es) (hne : es ≠ []) (hr : Handled d.run) :
    ∃ bs, run no c n0 ar keep input = .ok bs ∧ (ShortLines bs →
      ∀ (hb : Heap F G N) (ks : List (Nat × (List (Int × Int) → List (Int × Int)))), ks.length = es.length →
        (ks.map Prod.fst).Nodup → (∀ q ∈ ks, ∀ l, (q.2 l).Perm l) → (∀ q ∈ ks, hb.e q.1 = zeroEvt c) →
        ∃ d' h', decodeAll c (newDecoder bs) hb ks = .ok (d', h') ∧ (∀ ord k, ∃ d'', decode c ord d' h' k = .eof d'') ∧
          ∀ (i : Nat) e kk, es[i]? = some e → ks[i]? = some kk → Sound h' (h'.e kk.1) ∧
            ∃ x, XsecIs ar d.run ((es.take (i + 1)).map Lhef.Event.xwgtup) x ∧
              Is c.zero n0 keep d.run i e x h' kk.1) := by
  obtain ⟨l, hl, hloop, hall⟩ := loop_eq no c hq ar keep hr es d (d.toks.length + 1) 0 (acc0 ar) false [] rfl hg
    (by have := gives_len hg; omega) (fun _ => rfl)
  refine ⟨_, by simp only [run, hd]; exact hloop, ?_⟩
  intro hshort hb ks hlen hnd hord hz
  have hw : ∀ q ∈ l.map (fun h => (h, h.e 0)), Writable c q.1 q.2 := by
    intro q hqm
    obtain ⟨h, hh, rfl⟩ := List.mem_map.mp hqm
    obtain ⟨i, hi⟩ := List.mem_iff_getElem?.mp hh
    have hlt := (List.getElem?_eq_some_iff.mp hi).1
    exact (hall i h _ hi (List.getElem?_eq_getElem (by omega))).1
  have hne' : l.map (fun h => (h, h.e 0)) ≠ [] := by
    intro hnil
    apply hne
    have : l = [] := List.map_eq_nil_iff.mp hnil
    rw [this] at hl
    exact List.eq_nil_of_length_eq_zero hl.symm
  obtain ⟨d', h', e1, e2, -, -, e3⟩ := C83_events_read_back_partial hc _ hne' hw hshort hb ks (by simp [hl, hlen]) hnd hord hz
  refine ⟨d', h', e1, e2, ?_⟩
  intro i e kk hi hk
  have hlt := (List.getElem?_eq_some_iff.mp hi).1
  have hli : l[i]? = some l[i] := List.getElem?_eq_getElem (by omega)
  obtain ⟨q1, φ, ψ, q2, -, -, q3⟩ := e3 i (l[i], l[i].e 0) kk (by simp [hli]) hk
  obtain ⟨w, x, x1, x2⟩ := hall i _ _ hli hi
  refine ⟨q1, x, by simpa using x1, ?_⟩
  have := x2.same w.toSound q2 q3
  simpa using this

/-- **C140.** From one encoder to the other: the events a program writes with an LHEF encoder and closes, converted by
`lhef2hepmc`, are found in the HepMC file, with the digits an LHEF file keeps. -/
theorem C140_written_partial [DecidableEq N] {no : Notation F} {r6 r10 r0 : F → F} {fin : F → Prop} (g : Lhef.Good no r6 r10 r0 fin)
    {r : Run F} (hrf : r.Fits) {hdr : Lhef.Str} (hh : Lhef.Markup hdr) {es : List (Lhef.Event F)} (hne : es ≠ [])
    (he : ∀ e ∈ es, e.Fits fin) {c : Fmt F G N} (hc : c.Lawful) {n0 : N} (hq : (32 : UInt8) ∉ c.q n0)
    (ar : Ar F) (keep : Bool) (hr : Handled (r.shown r6)) :
    ∃ w bs, (Lhef.newEncoder r hdr).encodeAll no es = some w ∧ run no c n0 ar keep (Lhef.xml w.close) = .ok bs ∧ (ShortLines bs →
      ∀ (hb : Heap F G N) (ks : List (Nat × (List (Int × Int) → List (Int × Int)))), ks.length = es.length →
        (ks.map Prod.fst).Nodup → (∀ q ∈ ks, ∀ l, (q.2 l).Perm l) → (∀ q ∈ ks, hb.e q.1 = zeroEvt c) →
        ∃ d' h', decodeAll c (newDecoder bs) hb ks = .ok (d', h') ∧ (∀ ord k, ∃ d'', decode c ord d' h' k = .eof d'') ∧
          ∀ (i : Nat) e kk, es[i]? = some e → ks[i]? = some kk → Sound h' (h'.e kk.1) ∧
            ∃ x, XsecIs ar (r.shown r6) ((es.take (i + 1)).map fun e => (e.shown r6 r10 r0).xwgtup) x ∧
              Is c.zero n0 keep (r.shown r6) i (e.shown r6 r10 r0) x h' kk.1) := by
  obtain ⟨w, d, w1, w2, -, w3, w4⟩ := Lhef.C124_round_trip_partial g hrf hh hne he
  have hg : Gives no d (es.map fun e => e.shown r6 r10 r0) := by
    have := w4 1
    simp only [Gives, List.length_map, this, List.map_map]
    rfl
  obtain ⟨bs, b1, b2⟩ := C140_file_partial no hc hq ar keep w2 hg (by simpa using hne) (by rw [w3]; exact hr)
  refine ⟨w, bs, w1, b1, ?_⟩
  intro hs hb ks h1 h2 h3 h4
  obtain ⟨d', h', q1, q2, q3⟩ := b2 hs hb ks (by simpa using h1) h2 h3 h4
  refine ⟨d', h', q1, q2, ?_⟩
  intro i e kk hi hk
  obtain ⟨z1, x, z2, z3⟩ := q3 i (e.shown r6 r10 r0) kk (by simp [hi]) hk
  rw [w3] at z2 z3
  refine ⟨z1, x, ?_, z3⟩
  rwa [← List.map_take, List.map_map] at z2

/-- **C140.** A file without events gives an empty output: not a HepMC file. -/
theorem C140_no_events_counterexample (no : Notation F) (c : Fmt F G N) (n0 : N) (ar : Ar F) (keep : Bool)
    {input : List Lhef.Tok × Lhef.Fin} {d : Decoder F} (hd : Lhef.newDecoder no input = .ok d) (hg : Gives no d []) :
    run no c n0 ar keep input = .ok [] := by
  simp only [run, hd, loop]
  rw [gives_nil hg]
  rfl

/-- **C140.** Runs with other weighting strategies (1, 2, -1, -2, ...) are refused at their first event. -/
theorem C140_other_weights_refused (no : Notation F) (c : Fmt F G N) (n0 : N) (ar : Ar F) (keep : Bool)
    {input : List Lhef.Tok × Lhef.Fin} {d : Decoder F} (hd : Lhef.newDecoder no input = .ok d) {e : Lhef.Event F}
    {es : List (Lhef.Event F)} (hg : Gives no d (e :: es))
    (h3 : d.run.idwtup.toInt ≠ 3 ∧ d.run.idwtup.toInt ≠ -3 ∧ d.run.idwtup.toInt ≠ 4 ∧ d.run.idwtup.toInt ≠ -4) :
    run no c n0 ar keep input = .fatal := by
  obtain ⟨h1, -⟩ := gives_cons hg
  have hrun := (decode_lt h1).2
  have n3 : d.run.idwtup.toInt.natAbs ≠ 3 := by omega
  have n4 : d.run.idwtup.toInt.natAbs ≠ 4 := by omega
  simp only [run, hd, loop]
  rw [h1]
  simp only [convert, cross, hrun, n3, n4, if_false]

/-- **C140.** With `IDWTUP` 3 (events of weight one) and the usual single process the program panics at the first
event, instead of writing the cross section of the process and its error. -/
theorem C140_one_process_panics_counterexample (no : Notation F) (c : Fmt F G N) (n0 : N) (ar : Ar F) (keep : Bool)
    {input : List Lhef.Tok × Lhef.Fin} {d : Decoder F} (hd : Lhef.newDecoder no input = .ok d) {e : Lhef.Event F}
    {es : List (Lhef.Event F)} (hg : Gives no d (e :: es)) (h3 : d.run.idwtup.toInt = 3) (h1 : d.run.xsecup.length = 1) :
    run no c n0 ar keep input = .panic := by
  obtain ⟨h2, -⟩ := gives_cons hg
  have hrun := (decode_lt h2).2
  obtain ⟨x, hx⟩ := List.length_eq_one_iff.mp h1
  simp only [run, hd, loop]
  rw [h2]
  simp only [convert, cross, hrun, h3, hx]
  rfl

/-- **C140.** The scale, the couplings, the process, mothers, colours, lifetimes and spins of an event are not
carried over: what is written does not depend on them. -/
theorem C140_losses_counterexample (c : Fmt F G N) (n0 : N) (ar : Ar F) (keep : Bool) (r : Run F) (ievt : Nat) (s : Acc F)
    (e : Lhef.Event F) (idprup : BitVec 32) (scalup aqedup aqcdup : F) (mothup icolup : List (BitVec 32 × BitVec 32))
    (vtimup spinup : List F) :
    convert c n0 ar keep r ievt s { e with idprup, scalup, aqedup, aqcdup, mothup, icolup, vtimup, spinup } =
      convert c n0 ar keep r ievt s e := by
  have ht : ∀ i x, turn c keep { e with idprup, scalup, aqedup, aqcdup, mothup, icolup, vtimup, spinup } i x = turn c keep e i x :=
    fun _ _ => rfl
  have hts : ∀ k i x, turns c keep { e with idprup, scalup, aqedup, aqcdup, mothup, icolup, vtimup, spinup } i k x =
      turns c keep e i k x := by
    intro k
    induction k with
    | zero => intro i x; rfl
    | succ k ih =>
      intro i x
      simp only [turns, ht]
      congr 1
      funext y
      exact ih _ _
  simp only [convert, graph, hts]

/-! ## The cross section (C141) -/

/-- Exact arithmetic. -/
noncomputable def realAr : Ar ℝ where
  add := (· + ·)
  sub := (· - ·)
  mul := (· * ·)
  div := (· / ·)
  ofNat n := n
  neg x := @decide (x < 0) (Classical.dec _)
  sqrt := Real.sqrt

theorem foldl_sum : ∀ (l : List ℝ) (a : ℝ), l.foldl (· + ·) a = a + l.sum
  | [], a => by simp
  | x :: l, a => by rw [List.foldl_cons, foldl_sum l, List.sum_cons]; ring

/-- Squared distances from a number, summed. -/
theorem sum_sq_dev (ws : List ℝ) (m : ℝ) :
    (ws.map fun w => (w - m) ^ 2).sum = (ws.map fun w => w * w).sum - 2 * m * ws.sum + ws.length * m ^ 2 := by
  induction ws with
  | nil => simp
  | cons w ws ih =>
    simp only [List.map_cons, List.sum_cons, ih, List.length_cons]
    push_cast
    ring

/-- The mean of some numbers. -/
noncomputable def meanOf (ws : List ℝ) : ℝ := ws.sum / (ws.length : ℝ)

/-- The mean of their squared distances from it. -/
noncomputable def variance (ws : List ℝ) : ℝ := (ws.map fun w => (w - meanOf ws) ^ 2).sum / (ws.length : ℝ)

/-- **C141.** In exact arithmetic the cross section of an event, `IDWTUP` being 4 or -4, is the mean of the weights of
the events up to it, and the square of its error is their variance divided by their number: the guard against
negative squares is not needed. -/
theorem C141_running_mean {ws : List ℝ} (hne : ws ≠ []) :
    (running realAr ws).value = meanOf ws ∧ (running realAr ws).error ^ 2 = variance ws / (ws.length : ℝ) ∧
    0 ≤ (running realAr ws).error := by
  have hlen : (ws.length : ℝ) ≠ 0 := by
    have : ws.length ≠ 0 := by simpa using hne
    exact_mod_cast this
  have hpos : (0 : ℝ) ≤ (ws.length : ℝ) := Nat.cast_nonneg _
  have hval : (running realAr ws).value = meanOf ws := by
    simp [running, realAr, foldl_sum, meanOf]
  have hdev : 0 ≤ variance ws / (ws.length : ℝ) := by
    refine div_nonneg (div_nonneg ?_ hpos) hpos
    apply List.sum_nonneg
    intro x hx
    obtain ⟨w, -, rfl⟩ := List.mem_map.mp hx
    exact sq_nonneg _
  have hv : ((ws.map fun w => w * w).sum / (ws.length : ℝ) - ws.sum / (ws.length : ℝ) * (ws.sum / (ws.length : ℝ))) / (ws.length : ℝ) =
      variance ws / (ws.length : ℝ) := by
    rw [variance, sum_sq_dev, meanOf]
    field_simp
    ring
  have herr : (running realAr ws).error = Real.sqrt (variance ws / (ws.length : ℝ)) := by
    simp only [running, realAr, foldl_sum, Nat.cast_zero, zero_add]
    rw [hv]
    have h2 : ¬ (variance ws / (ws.length : ℝ) < 0) := not_lt.mpr hdev
    rw [if_neg (by simpa using h2)]
  refine ⟨hval, ?_, ?_⟩
  · rw [herr, Real.sq_sqrt hdev]
  · rw [herr]; exact Real.sqrt_nonneg _

/-- **C141.** With `IDWTUP` 3 and several processes the error written is the cross section of the second process: the
errors of the run are not looked at. -/
theorem C141_error_counterexample (ar : Ar F) {r : Run F} (h3 : r.idwtup.toInt = 3) {x y : F} {l : List F}
    (hx : r.xsecup = x :: y :: l) (s : Acc F) (w : F) (errs : List F) :
    cross ar { r with xerrup := errs } s w = .ok (⟨x, y⟩, s) := by
  simp [cross, h3, hx]

/-- **C140.** Both beams fly in the same direction: with positive energies both have a positive component along the
beam line, and in exact arithmetic their momenta do not cancel, whatever the energies. -/
theorem C140_beams_counterexample {n0 : N} {keep : Bool} {r : Run ℝ} {ievt : Nat} {e : Lhef.Event ℝ} {x : CrossSection ℝ}
    {h : Heap ℝ G N} {k : Nat} (hi : Is 0 n0 keep r ievt e x h k) (h1 : 0 < r.ebmup.1) (h2 : 0 < r.ebmup.2) :
    ∃ a b, (h.e k).beam1 = some a ∧ (h.e k).beam2 = some b ∧ 0 < (h.p a).data.pz ∧ 0 < (h.p b).data.pz ∧
      (h.p a).data.pz + (h.p b).data.pz = r.ebmup.1 + r.ebmup.2 := by
  obtain ⟨v, a, b, -, -, g3, g4, -, g6, g7, -, -⟩ := hi.graph
  exact ⟨a, b, g3, g4, by rw [g6]; exact h1, by rw [g7]; exact h2, by rw [g6, g7]⟩

/-! ## Examples -/

namespace Ex

open Verif.HepMC.Examples (Nm quote unquote)

/-- Halves printed as integers, -1 for NaN. -/
def fmt : Fmt (Option Nat) Int Nm where
  fF
    | none => intEnc (-1)
    | some n => intEnc n
  pF bs := (parseInt bs).map fun i => if i = -1 then none else some i.toNat
  fG := intEnc
  pG := parseInt
  q := quote
  uq := unquote
  zero := some 0
  noName := []

theorem lawful : fmt.Lawful := by
  have h := Verif.HepMC.Examples.lawful
  refine ⟨?_, h.G_rt, h.q_rt, ?_, h.G_clean, h.q_clean⟩
  · intro x
    cases x with
    | none => simp only [fmt]; rw [parseInt_enc]; rfl
    | some n =>
      simp only [fmt]
      rw [parseInt_enc]
      have : ¬ ((n : Int) = -1) := by omega
      simp [this]
  · intro x
    cases x with
    | none => exact h.F_clean (-1)
    | some n => exact h.F_clean n

/-- Some arithmetic. -/
def ar : Ar (Option Nat) where
  add a b := a.bind fun x => b.map (x + ·)
  sub a b := a.bind fun x => b.map (x - ·)
  mul a b := a.bind fun x => b.map (x * ·)
  div a b := a.bind fun x => b.map (x / ·)
  ofNat n := some n
  neg _ := false
  sqrt a := a

open Verif.Lhef in
/-- Two events written, converted and read. -/
example : ∃ w bs, (newEncoder aRun aHeader).encodeAll halves [anEvent, anEvent] = some w ∧
    run halves fmt [0] ar false (xml w.close) = .ok bs ∧ (ShortLines bs →
      ∀ (hb : Heap (Option Nat) Int Nm) (ks : List (Nat × (List (Int × Int) → List (Int × Int)))), ks.length = 2 →
        (ks.map Prod.fst).Nodup → (∀ q ∈ ks, ∀ l, (q.2 l).Perm l) → (∀ q ∈ ks, hb.e q.1 = zeroEvt fmt) →
        ∃ d' h', decodeAll fmt (HepMC.newDecoder bs) hb ks = .ok (d', h') ∧ (∀ ord k, ∃ d'', decode fmt ord d' h' k = .eof d'') ∧
          ∀ (i : Nat) e kk, [anEvent, anEvent][i]? = some e → ks[i]? = some kk → Sound h' (h'.e kk.1) ∧
            ∃ x, XsecIs ar (aRun.shown id) (([anEvent, anEvent].take (i + 1)).map fun e => (e.shown id id halves0).xwgtup) x ∧
              Is (some 0) [0] false (aRun.shown id) i (e.shown id id halves0) x h' kk.1) :=
  C140_written_partial halves_good aRun_fits aHeader_markup (by simp)
    (by intro e he; simp at he; rw [he]; exact anEvent_fits) lawful (by decide +kernel) ar false
    (Or.inl ⟨Or.inl (by decide +kernel), by decide +kernel⟩)

open Verif.Lhef in
/-- What is kept of the event: the second particle. -/
example : wanted (some 0) false anEvent = [⟨4, -2, some 3, none, some 5, some 7, some 9, 1, some 0, some 0, []⟩] := by
  decide +kernel

open Verif.Lhef in
/-- One event. -/
example : ∃ h, convert fmt [0] ar false aRun 0 (acc0 ar) anEvent = .ok (h, acc0 ar) ∧ Writable fmt h (h.e 0) ∧
    Is (some 0) [0] false aRun 0 anEvent ⟨some 10, some 1⟩ h 0 :=
  C140_convert fmt (by decide +kernel) ar false aRun 0 (acc0 ar) (acc0 ar) anEvent
    ⟨by decide +kernel, by decide +kernel, by decide +kernel⟩ ⟨some 10, some 1⟩ (by rfl)

/-- A file with one event of no particles, given the weighting strategy and the processes. -/
def input (w : Char) (n : Char) (procs : Lhef.Str) : List Lhef.Tok × Lhef.Fin :=
  ([.start Lhef.nRoot [([], Lhef.v1)], .start Lhef.nInit [],
    .char (['\n', '1', ' ', '2', ' ', '3', ' ', '3', ' ', '0', ' ', '0', ' ', '7', ' ', '7', ' ', w, ' ', n, '\n'] ++ procs),
    .stop Lhef.nInit, .start Lhef.nEvent [],
    .char ['\n', '0', ' ', '1', ' ', '2', ' ', '3', ' ', '4', ' ', '5', '\n'], .stop Lhef.nEvent], .eof)

/-- The line of a process. -/
def proc : Lhef.Str := ['5', ' ', '1', ' ', '9', ' ', '8', '1', '\n']

/-- How the program stopped, and the length of its output. -/
def kind : Res (List UInt8) → Nat × Nat
  | .ok l => (0, l.length)
  | .fatal => (1, 0)
  | .panic => (2, 0)

example : kind (run Lhef.halves fmt [0] ar false (input '3' '1' proc)) = (2, 0) := by decide +kernel
example : kind (run Lhef.halves fmt [0] ar false (input '2' '1' proc)) = (1, 0) := by decide +kernel
example : (kind (run Lhef.halves fmt [0] ar false (input '3' '2' (proc ++ proc)))).1 = 0 := by decide +kernel
example : (kind (run Lhef.halves fmt [0] ar false (input '4' '1' proc))).1 = 0 := by decide +kernel
example : kind (run Lhef.halves fmt [0] ar false ((input '4' '1' proc).1.take 4, .eof)) = (0, 0) := by decide +kernel

example : (running realAr [1, 3]).value = 2 ∧ (running realAr [1, 3]).error ^ 2 = 1 / 2 := by
  obtain ⟨h1, h2, -⟩ := C141_running_mean (ws := [1, 3]) (by simp)
  rw [h1, h2]
  constructor <;> norm_num [meanOf, variance]

end Ex

end Verif.Lhef2HepMC
