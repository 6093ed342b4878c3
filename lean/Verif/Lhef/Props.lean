/-
C124: an LHEF file written by an Encoder and closed is read back: the run, the events in order,
then `io.EOF`.
-/
import Verif.Lhef.Model

namespace Verif.Lhef

open Verif.Text Verif.Strconv Verif.Fscanf

/-! ### Specification -/

/-- A sign and digits. -/
def IntForm (s : Str) : Prop :=
  ∃ sg ds, s = sg ++ ds ∧ (sg = [] ∨ sg = ['-'] ∨ sg = ['+']) ∧ ds ≠ [] ∧ ∀ c ∈ ds, c.isDigit = true

/-- What is assumed of the notations: `r6`, `r10` and `r0` are the numbers printed with 6 and 10 digits
after the point and with none; `fin` are the numbers that are neither infinite nor NaN. -/
structure Good {F : Type} (no : Notation F) (r6 r10 r0 : F → F) (fin : F → Prop) : Prop where
  word6 : ∀ x, FloatWord (no.fmt6 x)
  word10 : ∀ x, FloatWord (no.fmt10 x)
  parse6 : ∀ x, no.parse (no.fmt6 x) = some (r6 x)
  parse10 : ∀ x, no.parse (no.fmt10 x) = some (r10 x)
  int0 : ∀ x, fin x → IntForm (no.fmt0 x)
  parse0 : ∀ x, fin x → no.parse (no.fmt0 x ++ ['.']) = some (r0 x)

section
variable {F : Type}

/-- The run as it is in the file: numbers with six digits after the point, `NPRUP` subprocesses. -/
def Run.shown (r6 : F → F) (r : Run F) : Run F :=
  { r with
    ebmup := (r6 r.ebmup.1, r6 r.ebmup.2)
    xsecup := (r.xsecup.take r.nprup.toInt.toNat).map r6
    xerrup := (r.xerrup.take r.nprup.toInt.toNat).map r6
    xmaxup := (r.xmaxup.take r.nprup.toInt.toNat).map r6
    lprup := r.lprup.take r.nprup.toInt.toNat
    neve := 0 }

/-- The event as it is in the file: the momenta with ten digits after the point, lifetimes and spins rounded to
integers, `NUP` particles. -/
def Event.shown (r6 r10 r0 : F → F) (e : Event F) : Event F :=
  { e with
    xwgtup := r6 e.xwgtup, scalup := r6 e.scalup, aqedup := r6 e.aqedup, aqcdup := r6 e.aqcdup
    idup := e.idup.take e.nup.toInt.toNat
    istup := e.istup.take e.nup.toInt.toNat
    mothup := e.mothup.take e.nup.toInt.toNat
    icolup := e.icolup.take e.nup.toInt.toNat
    pup := (e.pup.take e.nup.toInt.toNat).map fun p => (r10 p.1, r10 p.2.1, r10 p.2.2.1, r10 p.2.2.2.1, r10 p.2.2.2.2)
    vtimup := (e.vtimup.take e.nup.toInt.toNat).map r0
    spinup := (e.spinup.take e.nup.toInt.toNat).map r0
    sub := 0, nreal := 0, ncounter := 0 }

/-- A run of the first version of the format, with all the slices as long as `NPRUP` tells. -/
def Run.Fits (r : Run F) : Prop :=
  r.neve ≤ 0 ∧ 0 ≤ r.nprup.toInt ∧ r.nprup.toInt ≤ r.xsecup.length ∧ r.nprup.toInt ≤ r.xerrup.length ∧
    r.nprup.toInt ≤ r.xmaxup.length ∧ r.nprup.toInt ≤ r.lprup.length

/-- An event that is no group, with all the slices as long as `NUP` tells and with finite lifetimes and spins. -/
def Event.Fits (fin : F → Prop) (e : Event F) : Prop :=
  e.sub = 0 ∧ 0 ≤ e.nup.toInt ∧ e.nup.toInt ≤ e.idup.length ∧ e.nup.toInt ≤ e.istup.length ∧
    e.nup.toInt ≤ e.mothup.length ∧ e.nup.toInt ≤ e.icolup.length ∧ e.nup.toInt ≤ e.pup.length ∧
    e.nup.toInt ≤ e.vtimup.length ∧ e.nup.toInt ≤ e.spinup.length ∧
    (∀ x ∈ e.vtimup, fin x) ∧ (∀ x ∈ e.spinup, fin x)

end

/-- Headers that are text and well-formed elements, none with the name `init`. -/
inductive Markup : Str → Prop
  | nil : Markup []
  | char {c : Char} {s : Str} (h : c ≠ '<' ∧ c ≠ '&' ∧ c ≠ '>') (hs : Markup s) : Markup (c :: s)
  | elem {n a b : Str} (hn : n ≠ [] ∧ n ≠ ['i', 'n', 'i', 't'] ∧ ∀ c ∈ n, nameChar c = true)
      (ha : Markup a) (hb : Markup b) : Markup ('<' :: n ++ '>' :: (a ++ '<' :: '/' :: n ++ '>' :: b))

/-! ### Lines -/

section
variable {F : Type} {no : Notation F} {r6 r10 r0 : F → F} {fin : F → Prop}

theorem i64_toInt (x : BitVec 64) : i64 x.toInt = x := by simp [i64]
theorem i32_toInt (x : BitVec 32) : i32 x.toInt = x := by simp [i32]

theorem word0 (g : Good no r6 r10 r0 fin) {x : F} (hx : fin x) :
    padL 1 (no.fmt0 x) ++ ['.'] = no.fmt0 x ++ ['.'] ∧ FloatWord (no.fmt0 x ++ ['.']) := by
  obtain ⟨sg, ds, e, h1, h2, h3⟩ := g.int0 x hx
  constructor
  · have : 1 ≤ (no.fmt0 x).length := by
      rw [e]
      cases ds with
      | nil => exact absurd rfl h2
      | cons c ds => simp; omega
    simp [padL, Nat.sub_eq_zero_of_le this]
  · refine .inl ⟨sg, ds, ['.'], [], by simp [e], h1, ⟨h2, h3⟩, .inr ⟨[], rfl, by simp⟩, .inl rfl⟩

theorem scan_run (g : Good no r6 r10 r0 fin) (r : Run F) (s : Str) :
    scanInto no.parse runFmt toRun ('\n' :: runLine no r ++ s) =
      some (⟨r.idbmup, (r6 r.ebmup.1, r6 r.ebmup.2), r.pdfgup, r.pdfsup, r.idwtup, r.nprup, [], [], [], [], 0⟩, s) := by
  have h := scanf_line (parse := no.parse) (l := [((7, fmtI r.idbmup.1), .int 64, .int r.idbmup.1.toInt),
    ((7, fmtI r.idbmup.2), .int 64, .int r.idbmup.2.toInt), ((13, no.fmt6 r.ebmup.1), .flt, .flt (r6 r.ebmup.1)),
    ((13, no.fmt6 r.ebmup.2), .flt, .flt (r6 r.ebmup.2)), ((5, fmtI r.pdfgup.1), .int 32, .int r.pdfgup.1.toInt),
    ((5, fmtI r.pdfgup.2), .int 32, .int r.pdfgup.2.toInt), ((5, fmtI r.pdfsup.1), .int 32, .int r.pdfsup.1.toInt),
    ((5, fmtI r.pdfsup.2), .int 32, .int r.pdfsup.2.toInt), ((5, fmtI r.idwtup), .int 32, .int r.idwtup.toInt),
    ((5, fmtI r.nprup), .int 32, .int r.nprup.toInt)]) (by simp)
    (by
      intro x hx
      simp only [List.mem_cons, List.not_mem_nil, or_false] at hx
      rcases hx with rfl | rfl | rfl | rfl | rfl | rfl | rfl | rfl | rfl | rfl
      all_goals first | exact reads_int _ | exact reads_flt (g.word6 _) (g.parse6 _))
    (by simp) s
  have hb : blank '\n' = false := by decide
  have e := Eq.trans (a := scanf no.parse runFmt ('\n' :: runLine no r ++ s)) (by
    simp [runFmt, scanf, matchNL, hb, runLine]) h
  simp only [scanInto, e, Option.bind_some, toRun, List.map_cons, List.map_nil, i64_toInt, i32_toInt, Option.map_some]

theorem scan_process (g : Good no r6 r10 r0 fin) (p : Process F) (s : Str) :
    scanInto no.parse processFmt toProcess (processLine no p ++ s) =
      some (⟨r6 p.xsec, r6 p.xerr, r6 p.xmax, p.lpr⟩, s) := by
  have h := scanf_line (parse := no.parse) (l := [((13, no.fmt6 p.xsec), .flt, .flt (r6 p.xsec)),
    ((13, no.fmt6 p.xerr), .flt, .flt (r6 p.xerr)), ((13, no.fmt6 p.xmax), .flt, .flt (r6 p.xmax)),
    ((5, fmtI p.lpr), .int 32, .int p.lpr.toInt)]) (by simp)
    (by
      intro x hx
      simp only [List.mem_cons, List.not_mem_nil, or_false] at hx
      rcases hx with rfl | rfl | rfl | rfl
      all_goals first | exact reads_int _ | exact reads_flt (g.word6 _) (g.parse6 _))
    (by simp) s
  have e := Eq.trans (a := scanf no.parse processFmt (processLine no p ++ s)) (by
    simp [processFmt, processLine]) h
  simp only [scanInto, e, Option.bind_some, toProcess, List.map_cons, List.map_nil, i32_toInt, Option.map_some]

theorem scan_event (g : Good no r6 r10 r0 fin) (x : Event F) (s : Str) :
    scanInto no.parse eventFmt toEvent ('\n' :: eventLine no x ++ s) =
      some (⟨x.nup, x.idprup, r6 x.xwgtup, r6 x.scalup, r6 x.aqedup, r6 x.aqcdup, [], [], [], [], [], [], [], 0, 0, 0⟩,
        s) := by
  have h := scanf_line (parse := no.parse) (l := [((5, fmtI x.nup), .int 32, .int x.nup.toInt),
    ((5, fmtI x.idprup), .int 32, .int x.idprup.toInt), ((13, no.fmt6 x.xwgtup), .flt, .flt (r6 x.xwgtup)),
    ((13, no.fmt6 x.scalup), .flt, .flt (r6 x.scalup)), ((13, no.fmt6 x.aqedup), .flt, .flt (r6 x.aqedup)),
    ((13, no.fmt6 x.aqcdup), .flt, .flt (r6 x.aqcdup))]) (by simp)
    (by
      intro x hx
      simp only [List.mem_cons, List.not_mem_nil, or_false] at hx
      rcases hx with rfl | rfl | rfl | rfl | rfl | rfl
      all_goals first | exact reads_int _ | exact reads_flt (g.word6 _) (g.parse6 _))
    (by simp) s
  have hb : blank '\n' = false := by decide
  have e := Eq.trans (a := scanf no.parse eventFmt ('\n' :: eventLine no x ++ s)) (by
    simp [eventFmt, scanf, matchNL, hb, eventLine]) h
  simp only [scanInto, e, Option.bind_some, toEvent, List.map_cons, List.map_nil, i32_toInt, Option.map_some]

/-- A particle as it is in the file. -/
def Particle.shown (r10 r0 : F → F) (p : Particle F) : Particle F :=
  { p with p := (r10 p.p.1, r10 p.p.2.1, r10 p.p.2.2.1, r10 p.p.2.2.2.1, r10 p.p.2.2.2.2), vtim := r0 p.vtim, spin := r0 p.spin }

theorem scan_particle (g : Good no r6 r10 r0 fin) (p : Particle F) (h1 : fin p.vtim) (h2 : fin p.spin) (s : Str) :
    scanInto no.parse particleFmt toParticle (particleLine no p ++ s) = some (p.shown r10 r0, s) := by
  have h := scanf_line (parse := no.parse) (l := [((7, fmtI p.id), .int 64, .int p.id.toInt),
    ((4, fmtI p.ist), .int 32, .int p.ist.toInt), ((4, fmtI p.moth.1), .int 32, .int p.moth.1.toInt),
    ((4, fmtI p.moth.2), .int 32, .int p.moth.2.toInt), ((4, fmtI p.icol.1), .int 32, .int p.icol.1.toInt),
    ((4, fmtI p.icol.2), .int 32, .int p.icol.2.toInt), ((17, no.fmt10 p.p.1), .flt, .flt (r10 p.p.1)),
    ((17, no.fmt10 p.p.2.1), .flt, .flt (r10 p.p.2.1)), ((17, no.fmt10 p.p.2.2.1), .flt, .flt (r10 p.p.2.2.1)),
    ((17, no.fmt10 p.p.2.2.2.1), .flt, .flt (r10 p.p.2.2.2.1)),
    ((17, no.fmt10 p.p.2.2.2.2), .flt, .flt (r10 p.p.2.2.2.2)),
    ((0, no.fmt0 p.vtim ++ ['.']), .flt, .flt (r0 p.vtim)), ((0, no.fmt0 p.spin ++ ['.']), .flt, .flt (r0 p.spin))])
    (by simp)
    (by
      intro x hx
      simp only [List.mem_cons, List.not_mem_nil, or_false] at hx
      rcases hx with rfl | rfl | rfl | rfl | rfl | rfl | rfl | rfl | rfl | rfl | rfl | rfl | rfl
      all_goals first
        | exact reads_int _
        | exact reads_flt (g.word10 _) (g.parse10 _)
        | exact reads_flt (word0 g h1).2 (g.parse0 _ h1)
        | exact reads_flt (word0 g h2).2 (g.parse0 _ h2))
    (by simp) s
  have e := Eq.trans (a := scanf no.parse particleFmt (particleLine no p ++ s)) (by
    simp only [particleFmt, particleLine, (word0 g h1).1, (word0 g h2).1]
    simp) h
  simp only [scanInto, e, Option.bind_some, toParticle, List.map_cons, List.map_nil, i32_toInt, i64_toInt,
    Option.map_some, Particle.shown]

/-- The loop of the writer against the loop of the reader. -/
theorem scan_loop {α : Type} {get : Nat → Option α} {text : α → Str} {scan : Str → Option (α × Str)} {sh : α → α}
    {P : α → Prop} (hs : ∀ x s, P x → scan (text x ++ s) = some (sh x, s)) :
    ∀ (n i : Nat) (xs : List α), (∀ j : Nat, j < n → get (i + j) = xs[j]?) → n = xs.length → (∀ x ∈ xs, P x) →
    ∃ t, loop get text i n = some t ∧ t = xs.flatMap text ∧ ∀ r, scanMany scan n (t ++ r) = some (xs.map sh, r) := by
  intro n
  induction n with
  | zero =>
    intro i xs _ hn _
    have : xs = [] := List.length_eq_zero_iff.mp hn.symm
    subst this
    exact ⟨[], rfl, rfl, fun r => rfl⟩
  | succ n ih =>
    intro i xs hg hn hp
    cases xs with
    | nil => simp at hn
    | cons x xs =>
      obtain ⟨t, h1, h2, h3⟩ := ih (i + 1) xs (by
        intro j hj
        have := hg (j + 1) (by omega)
        simp at this
        rw [← this]
        congr 1
        omega) (by simpa using hn) (fun y hy => hp y (by simp [hy]))
      have h0 := hg 0 (by omega)
      simp only [Nat.add_zero, List.getElem?_cons_zero] at h0
      refine ⟨text x ++ t, ?_, ?_, ?_⟩
      · simp [loop, h0, h1]
      · simp [h2]
      · intro r
        simp [scanMany, List.append_assoc, hs x _ (hp x (by simp)), h3]

theorem collect {α : Type} (get : Nat → Option α) : ∀ n : Nat, (∀ j : Nat, j < n → (get j).isSome = true) →
    ∃ xs : List α, n = xs.length ∧ ∀ j : Nat, j < n → get j = xs[j]? := by
  intro n
  induction n with
  | zero => intro _; exact ⟨[], rfl, by intro j hj; omega⟩
  | succ n ih =>
    intro h
    obtain ⟨xs, h1, h2⟩ := ih fun j hj => h j (by omega)
    obtain ⟨x, hx⟩ := Option.isSome_iff_exists.mp (h n (by omega))
    refine ⟨xs ++ [x], by simp [h1], ?_⟩
    intro j hj
    by_cases e : j = n
    · subst e
      rw [hx, List.getElem?_append_right (by omega)]
      simp [h1]
    · rw [h2 j (by omega), List.getElem?_append_left (by omega)]

theorem map_take {α β : Type} {xs : List α} {l : List β} {n : Nat} {f : α → β} (hn : n = xs.length)
    (h : ∀ (j : Nat) (x : α), xs[j]? = some x → l[j]? = some (f x)) : xs.map f = l.take n := by
  apply List.ext_getElem?
  intro j
  by_cases hj : j < n
  · obtain ⟨x, hx⟩ : ∃ x, xs[j]? = some x := ⟨xs[j], List.getElem?_eq_getElem (by omega)⟩
    rw [List.getElem?_map, hx, List.getElem?_take, if_pos hj, h j x hx]
    rfl
  · rw [List.getElem?_eq_none (by simp; omega), List.getElem?_take, if_neg hj]

theorem Run.at_eq {r : Run F} {i : Nat} {p : Process F} (h : r.at i = some p) :
    r.xsecup[i]? = some p.xsec ∧ r.xerrup[i]? = some p.xerr ∧ r.xmaxup[i]? = some p.xmax ∧ r.lprup[i]? = some p.lpr := by
  simp only [Run.at] at h
  split at h
  · rename_i a b c d h1 h2 h3 h4
    cases h
    exact ⟨h1, h2, h3, h4⟩
  · cases h

theorem Run.at_some {r : Run F} {i : Nat} (h1 : i < r.xsecup.length) (h2 : i < r.xerrup.length)
    (h3 : i < r.xmaxup.length) (h4 : i < r.lprup.length) : (r.at i).isSome = true := by
  simp [Run.at, List.getElem?_eq_getElem h1, List.getElem?_eq_getElem h2, List.getElem?_eq_getElem h3,
    List.getElem?_eq_getElem h4]

theorem Event.at_eq {e : Event F} {i : Nat} {p : Particle F} (h : e.at i = some p) :
    e.idup[i]? = some p.id ∧ e.istup[i]? = some p.ist ∧ e.mothup[i]? = some p.moth ∧ e.icolup[i]? = some p.icol ∧
      e.pup[i]? = some p.p ∧ e.vtimup[i]? = some p.vtim ∧ e.spinup[i]? = some p.spin := by
  simp only [Event.at] at h
  split at h
  · rename_i h1 h2 h3 h4 h5 h6 h7
    cases h
    exact ⟨h1, h2, h3, h4, h5, h6, h7⟩
  · cases h

/-- The text in `init` is read as the run. -/
theorem readRun_text (g : Good no r6 r10 r0 fin) {r : Run F} (hr : r.Fits) :
    ∃ ps : List (Process F), loop r.at (processLine no) 0 (turns r.nprup) = some (ps.flatMap (processLine no)) ∧
      ∀ s, readRun no ('\n' :: runLine no r ++ (ps.flatMap (processLine no) ++ s)) = some (r.shown r6) := by
  obtain ⟨h0, hn, h1, h2, h3, h4⟩ := hr
  have ht : turns r.nprup = r.nprup.toInt.toNat := rfl
  obtain ⟨ps, hl, hp⟩ := collect r.at (turns r.nprup) fun j hj => by
    rw [ht] at hj
    exact Run.at_some (by omega) (by omega) (by omega) (by omega)
  obtain ⟨t, e1, e2, e3⟩ := scan_loop (get := r.at) (text := processLine no)
    (scan := scanInto no.parse processFmt toProcess) (sh := fun p => ⟨r6 p.xsec, r6 p.xerr, r6 p.xmax, p.lpr⟩)
    (P := fun _ => True) (fun x s _ => scan_process g x s) (turns r.nprup) 0 ps
    (by simpa using hp) hl (by simp)
  subst e2
  refine ⟨ps, e1, fun s => ?_⟩
  have hat : ∀ (j : Nat) (x : Process F), ps[j]? = some x → r.at j = some x := by
    intro j x hx
    have : j < turns r.nprup := by
      rw [hl]
      exact (List.getElem?_eq_some_iff.mp hx).1
    rw [hp j this, hx]
  have m1 : ps.map (·.xsec) = r.xsecup.take (turns r.nprup) := map_take hl fun j x hx => (Run.at_eq (hat j x hx)).1
  have m2 : ps.map (·.xerr) = r.xerrup.take (turns r.nprup) := map_take hl fun j x hx => (Run.at_eq (hat j x hx)).2.1
  have m3 : ps.map (·.xmax) = r.xmaxup.take (turns r.nprup) := map_take hl fun j x hx => (Run.at_eq (hat j x hx)).2.2.1
  have m4 : ps.map (·.lpr) = r.lprup.take (turns r.nprup) := map_take hl fun j x hx => (Run.at_eq (hat j x hx)).2.2.2
  have hneg : ¬ r.nprup.toInt < 0 := by omega
  simp only [readRun, scan_run g r, Option.bind_some, if_neg hneg, e3 s, Option.map_some]
  simp only [Run.shown, ← ht, ← m1, ← m2, ← m3, ← m4, List.map_map]
  rfl

/-- The text in `event` is read as the event, whatever follows the particles. -/
theorem readEvent_text (g : Good no r6 r10 r0 fin) {e : Event F} (he : e.Fits fin) :
    ∃ ps : List (Particle F), loop e.at (particleLine no) 0 (turns e.nup) = some (ps.flatMap (particleLine no)) ∧
      (∀ p ∈ ps, fin p.vtim ∧ fin p.spin) ∧
      ∀ s, readEvent no ('\n' :: eventLine no e ++ (ps.flatMap (particleLine no) ++ s)) = .ok (e.shown r6 r10 r0) := by
  obtain ⟨hs, hn, h1, h2, h3, h4, h5, h6, h7, h8, h9⟩ := he
  have ht : turns e.nup = e.nup.toInt.toNat := rfl
  obtain ⟨ps, hl, hp⟩ := collect e.at (turns e.nup) fun j hj => by
    rw [ht] at hj
    simp [Event.at, List.getElem?_eq_getElem (show j < e.idup.length by omega),
      List.getElem?_eq_getElem (show j < e.istup.length by omega),
      List.getElem?_eq_getElem (show j < e.mothup.length by omega),
      List.getElem?_eq_getElem (show j < e.icolup.length by omega),
      List.getElem?_eq_getElem (show j < e.pup.length by omega),
      List.getElem?_eq_getElem (show j < e.vtimup.length by omega),
      List.getElem?_eq_getElem (show j < e.spinup.length by omega)]
  have hat : ∀ (j : Nat) (x : Particle F), ps[j]? = some x → e.at j = some x := by
    intro j x hx
    have : j < turns e.nup := by
      rw [hl]
      exact (List.getElem?_eq_some_iff.mp hx).1
    rw [hp j this, hx]
  have hfin : ∀ p ∈ ps, fin p.vtim ∧ fin p.spin := by
    intro p hp
    obtain ⟨j, hj⟩ := List.mem_iff_getElem?.mp hp
    have := Event.at_eq (hat j p hj)
    exact ⟨h8 _ (List.mem_of_getElem? this.2.2.2.2.2.1), h9 _ (List.mem_of_getElem? this.2.2.2.2.2.2)⟩
  obtain ⟨t, e1, e2, e3⟩ := scan_loop (get := e.at) (text := particleLine no)
    (scan := scanInto no.parse particleFmt toParticle) (sh := fun p => p.shown r10 r0)
    (P := fun p => fin p.vtim ∧ fin p.spin) (fun x s hx => scan_particle g x hx.1 hx.2 s) (turns e.nup) 0 ps
    (by simpa using hp) hl hfin
  subst e2
  refine ⟨ps, e1, hfin, fun s => ?_⟩
  have m1 : ps.map (·.id) = e.idup.take (turns e.nup) := map_take hl fun j x hx => (Event.at_eq (hat j x hx)).1
  have m2 : ps.map (·.ist) = e.istup.take (turns e.nup) := map_take hl fun j x hx => (Event.at_eq (hat j x hx)).2.1
  have m3 : ps.map (·.moth) = e.mothup.take (turns e.nup) := map_take hl fun j x hx => (Event.at_eq (hat j x hx)).2.2.1
  have m4 : ps.map (·.icol) = e.icolup.take (turns e.nup) :=
    map_take hl fun j x hx => (Event.at_eq (hat j x hx)).2.2.2.1
  have m5 : ps.map (·.p) = e.pup.take (turns e.nup) := map_take hl fun j x hx => (Event.at_eq (hat j x hx)).2.2.2.2.1
  have m6 : ps.map (·.vtim) = e.vtimup.take (turns e.nup) :=
    map_take hl fun j x hx => (Event.at_eq (hat j x hx)).2.2.2.2.2.1
  have m7 : ps.map (·.spin) = e.spinup.take (turns e.nup) :=
    map_take hl fun j x hx => (Event.at_eq (hat j x hx)).2.2.2.2.2.2
  have hneg : ¬ e.nup.toInt < 0 := by omega
  simp only [readEvent, scan_event g e, if_neg hneg, e3 s]
  simp only [Event.shown, ← ht, ← m1, ← m2, ← m3, ← m4, ← m5, ← m6, ← m7, List.map_map]
  rfl

end

end Verif.Lhef
