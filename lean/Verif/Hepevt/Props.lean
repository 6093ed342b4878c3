/-
C120: HEPEVT events written one after another are read one after another.
-/
import Verif.Hepevt.Model
import Mathlib.Tactic.Linarith
import Mathlib.Data.List.Basic

namespace Verif.Hepevt

open Verif.Text Verif.Strconv

/-! ### The specification -/

/-- The particles of an event. -/
def Event.particles {F : Type} (e : Event F) (l : List (Particle F)) : Prop :=
  e.isthep = l.map (·.ist) ∧ e.idhep = l.map (·.id) ∧ e.jmohep = l.map (·.mo) ∧ e.jdahep = l.map (·.da) ∧
    e.phep = l.map (·.p) ∧ e.vhep = l.map (·.v)

/-- A particle with its numbers rounded. -/
def Particle.rounded {F : Type} (rnd : F → F) (x : Particle F) : Particle F :=
  { x with
    p := (rnd x.p.1, rnd x.p.2.1, rnd x.p.2.2.1, rnd x.p.2.2.2.1, rnd x.p.2.2.2.2)
    v := (rnd x.v.1, rnd x.v.2.1, rnd x.v.2.2.1, rnd x.v.2.2.2) }

/-- An event which starts with the given particles, the slices being possibly longer. -/
def Event.begins {F : Type} (e : Event F) (l : List (Particle F)) : Prop :=
  l.map (·.ist) <+: e.isthep ∧ l.map (·.id) <+: e.idhep ∧ l.map (·.mo) <+: e.jmohep ∧ l.map (·.da) <+: e.jdahep ∧
    l.map (·.p) <+: e.phep ∧ l.map (·.v) <+: e.vhep

/-- All slices have one length. -/
def Event.even {F : Type} (e : Event F) (n : Nat) : Prop :=
  e.isthep.length = n ∧ e.idhep.length = n ∧ e.jmohep.length = n ∧ e.jdahep.length = n ∧ e.phep.length = n ∧
    e.vhep.length = n

/-- A notation of numbers which is read back up to rounding: words without white space. -/
structure Good {F : Type} (no : Notation F) (rnd : F → F) : Prop where
  parse : ∀ x, no.parse (no.fmt x) = some (rnd x)
  word : ∀ x, no.fmt x ≠ [] ∧ ' ' ∉ no.fmt x ∧ '\n' ∉ no.fmt x

/-! ### Lines -/

theorem digit_ne {c : Char} (h : c.isDigit = true) : c ≠ ' ' ∧ c ≠ '\n' := by
  constructor <;> rintro rfl <;> simp [Char.isDigit] at h

theorem fmtInt_word (x : BitVec 64) : fmtInt x ≠ [] ∧ ' ' ∉ fmtInt x ∧ '\n' ∉ fmtInt x := by
  refine ⟨formatInt_ne_nil _, ?_, ?_⟩
  · intro h
    rcases formatInt_chars h with h | h
    · exact (digit_ne h).1 rfl
    · cases h
  · intro h
    rcases formatInt_chars h with h | h
    · exact (digit_ne h).2 rfl
    · cases h

theorem scanInt_fmtInt (x : BitVec 64) : scanInt (fmtInt x) = some x := by
  have h1 := BitVec.le_toInt x
  have h2 := BitVec.toInt_lt (x := x)
  simp only [scanInt, fmtInt]
  rw [parseInt_format (by norm_num at h1 ⊢; exact h1) (by norm_num at h2 ⊢; exact h2)]
  simp

theorem words_join {l : List (List Char)} (hn : l ≠ []) (h : ∀ t ∈ l, t ≠ [] ∧ ' ' ∉ t ∧ '\n' ∉ t) :
    words (joinC ' ' l) = l := by
  unfold words
  rw [splitC_joinC hn fun t ht => (h t ht).2.1]
  apply List.filter_eq_self.mpr
  intro t ht
  simp [(h t ht).1]

theorem join_noNL {l : List (List Char)} (h : ∀ t ∈ l, t ≠ [] ∧ ' ' ∉ t ∧ '\n' ∉ t) : '\n' ∉ joinC ' ' l := by
  induction l with
  | nil => simp [joinC]
  | cons t l ih =>
    cases l with
    | nil => simp only [joinC]; exact (h t List.mem_cons_self).2.2
    | cons u l =>
      simp only [joinC, List.mem_append, List.mem_cons, not_or]
      exact ⟨(h t List.mem_cons_self).2.2, by decide, ih fun t ht => h t (List.mem_cons_of_mem _ ht)⟩

theorem line_append {a b : List Char} (h : '\n' ∉ a) : line (a ++ '\n' :: b) = (a, b) := by
  have h1 : (a ++ '\n' :: b).takeWhile (· ≠ '\n') = a := by
    rw [List.takeWhile_append_of_pos (fun c hc => by simp; rintro rfl; exact h hc)]
    simp
  have h2 : (a ++ '\n' :: b).dropWhile (· ≠ '\n') = '\n' :: b := by
    rw [List.dropWhile_append_of_pos (fun c hc => by simp; rintro rfl; exact h hc)]
    simp
  simp only [line, h1, h2, List.drop_one, List.tail_cons]

section
variable {F : Type} {no : Notation F} {rnd : F → F}

theorem particle_fields (hg : Good no rnd) (x : Particle F) :
    ∀ t ∈ [fmtInt x.ist, fmtInt x.id,
      fmtInt (x.mo.1 + 1), fmtInt (x.mo.2 + 1), fmtInt (x.da.1 + 1), fmtInt (x.da.2 + 1),
      no.fmt x.p.1, no.fmt x.p.2.1, no.fmt x.p.2.2.1, no.fmt x.p.2.2.2.1, no.fmt x.p.2.2.2.2,
      no.fmt x.v.1, no.fmt x.v.2.1, no.fmt x.v.2.2.1, no.fmt x.v.2.2.2], t ≠ [] ∧ ' ' ∉ t ∧ '\n' ∉ t := by
  intro t ht
  simp only [List.mem_cons, List.not_mem_nil, or_false] at ht
  rcases ht with rfl | rfl | rfl | rfl | rfl | rfl | rfl | rfl | rfl | rfl | rfl | rfl | rfl | rfl | rfl
  all_goals first
    | exact fmtInt_word _
    | exact hg.word _

/-- One line comes back. -/
theorem line_particle (hg : Good no rnd) (x : Particle F) (rest : List Char) :
    scanParticle no (line (particleLine no x ++ rest)).1 = some (x.rounded rnd) ∧
      (line (particleLine no x ++ rest)).2 = rest := by
  have hw := particle_fields hg x
  simp only [particleLine, List.append_assoc, List.singleton_append]
  rw [line_append (join_noNL hw)]
  refine ⟨?_, rfl⟩
  simp only [scanParticle, words_join (by simp) hw, scanPair, scan4, scanInt_fmtInt, hg.parse, Particle.rounded,
    BitVec.add_sub_cancel]

theorem line_header (a b : BitVec 64) (rest : List Char) :
    scanHeader (line (joinC ' ' [fmtInt a, fmtInt b] ++ '\n' :: rest)).1 = some (a, b) ∧
      (line (joinC ' ' [fmtInt a, fmtInt b] ++ '\n' :: rest)).2 = rest := by
  have hw : ∀ t ∈ [fmtInt a, fmtInt b], t ≠ [] ∧ ' ' ∉ t ∧ '\n' ∉ t := by
    intro t ht
    simp only [List.mem_cons, List.not_mem_nil, or_false] at ht
    rcases ht with rfl | rfl
    · exact fmtInt_word _
    · exact fmtInt_word _
  rw [line_append (join_noNL hw)]
  exact ⟨by simp only [scanHeader, words_join (by simp) hw, scanInt_fmtInt], rfl⟩

theorem get_prefix {α : Type} {l m : List α} (h : l <+: m) {i : Nat} {x : α} (hi : l[i]? = some x) : m[i]? = some x := by
  obtain ⟨t, rfl⟩ := h
  have := (List.getElem?_eq_some_iff.mp hi).1
  rw [List.getElem?_append_left this, hi]

theorem at_begins {e : Event F} {l : List (Particle F)} (h : e.begins l) {i : Nat} {x : Particle F}
    (hx : l[i]? = some x) : e.at i = some x := by
  obtain ⟨h1, h2, h3, h4, h5, h6⟩ := h
  have m : ∀ {β : Type} (f : Particle F → β), (l.map f)[i]? = some (f x) := fun f => by simp [hx]
  simp only [Event.at, get_prefix h1 (m _), get_prefix h2 (m _), get_prefix h3 (m _), get_prefix h4 (m _),
    get_prefix h5 (m _), get_prefix h6 (m _)]

theorem encodeFrom_eq {e : Event F} {l : List (Particle F)} (h : e.begins l) (k : Nat) (hk : k ≤ l.length) :
    encodeFrom no e (l.length - k) k = some ((l.drop (l.length - k)).flatMap (particleLine no)) := by
  induction k with
  | zero => simp [encodeFrom]
  | succ k ih =>
    have hlt : l.length - (k + 1) < l.length := by omega
    have hx := List.getElem?_eq_getElem hlt
    have e1 : l.length - (k + 1) + 1 = l.length - k := by omega
    simp only [encodeFrom, at_begins h hx, e1, ih (by omega), Option.map_some]
    rw [List.drop_eq_getElem_cons hlt, e1]
    simp

/-- The text of an event. -/
theorem encode_eq {e : Event F} {l : List (Particle F)} (h : e.begins l) (hn : e.nhep.toInt = l.length) :
    encode no e = some (joinC ' ' [fmtInt e.nevhep, fmtInt e.nhep] ++ '\n' :: l.flatMap (particleLine no)) := by
  have ht : turns e.nhep = l.length := by simp [turns, hn]
  have := encodeFrom_eq (no := no) h l.length (Nat.le_refl _)
  simp only [Nat.sub_self, List.drop_zero] at this
  simp only [encode, ht, this, Option.map_some]

theorem set_take {α : Type} {m : List α} {i : Nat} (hi : i < m.length) (a : α) :
    (m.set i a).take (i + 1) = m.take i ++ [a] := by
  rw [List.take_add_one, List.take_set_of_le (Nat.le_refl i)]
  simp [hi]

theorem decodeFrom_eq (hg : Good no rnd) (rest : List Char) (l : List (Particle F)) :
    ∀ (e : Event F) (i : Nat) (done : List (Particle F)), e.even (i + l.length) →
      done.length = i → (e.isthep.take i = done.map (·.ist) ∧ e.idhep.take i = done.map (·.id) ∧
        e.jmohep.take i = done.map (·.mo) ∧ e.jdahep.take i = done.map (·.da) ∧ e.phep.take i = done.map (·.p) ∧
        e.vhep.take i = done.map (·.v)) →
      ∃ e', decodeFrom no e (l.flatMap (particleLine no) ++ rest) i l.length = .ok (e', rest) ∧
        e'.particles (done ++ l.map (Particle.rounded rnd)) ∧ e'.nevhep = e.nevhep ∧ e'.nhep = e.nhep := by
  induction l with
  | nil =>
    intro e i done he hi hd
    refine ⟨e, rfl, ?_, rfl, rfl⟩
    simp only [Event.even, List.length_nil, Nat.add_zero] at he
    obtain ⟨a1, a2, a3, a4, a5, a6⟩ := he
    obtain ⟨d1, d2, d3, d4, d5, d6⟩ := hd
    simp only [Event.particles, List.map_nil, List.append_nil]
    rw [List.take_of_length_le (by omega)] at d1 d2 d3 d4 d5 d6
    exact ⟨d1, d2, d3, d4, d5, d6⟩
  | cons x l ih =>
    intro e i done he hi hd
    simp only [Event.even, List.length_cons] at he
    obtain ⟨a1, a2, a3, a4, a5, a6⟩ := he
    obtain ⟨d1, d2, d3, d4, d5, d6⟩ := hd
    obtain ⟨r1, r2⟩ := line_particle hg x (l.flatMap (particleLine no) ++ rest)
    have l1 : i < e.isthep.length := by omega
    have l2 : i < e.idhep.length := by omega
    have l3 : i < e.jmohep.length := by omega
    have l4 : i < e.jdahep.length := by omega
    have l5 : i < e.phep.length := by omega
    have l6 : i < e.vhep.length := by omega
    have hat : ∃ y, e.at i = some y := by
      simp only [Event.at, List.getElem?_eq_getElem l1, List.getElem?_eq_getElem l2, List.getElem?_eq_getElem l3,
        List.getElem?_eq_getElem l4, List.getElem?_eq_getElem l5, List.getElem?_eq_getElem l6]
      exact ⟨_, rfl⟩
    obtain ⟨y, hy⟩ := hat
    simp only [List.flatMap_cons, List.append_assoc, List.length_cons, decodeFrom, hy, r1, r2, Event.put]
    rw [if_pos ⟨l1, l2, l3, l4, l5, l6⟩]
    obtain ⟨e', h1, h2, h3, h4⟩ := ih { e with
        isthep := e.isthep.set i (x.rounded rnd).ist, idhep := e.idhep.set i (x.rounded rnd).id
        jmohep := e.jmohep.set i (x.rounded rnd).mo, jdahep := e.jdahep.set i (x.rounded rnd).da
        phep := e.phep.set i (x.rounded rnd).p, vhep := e.vhep.set i (x.rounded rnd).v } (i + 1) (done ++ [x.rounded rnd])
      (by simp only [Event.even, List.length_set]; omega) (by simp [hi])
      (by
        simp only [set_take l1, set_take l2, set_take l3, set_take l4, set_take l5, set_take l6,
          List.map_append, List.map_cons, List.map_nil, d1, d2, d3, d4, d5, d6, and_self])
    refine ⟨e', h1, ?_, h3, h4⟩
    simpa using h2

theorem resize_even (zero : F) {e : Event F} {k n : Nat} (h : e.even k) (hn : e.nhep.toInt = n) :
    ∃ e', resize zero e = some e' ∧ e'.even n ∧ e'.nevhep = e.nevhep ∧ e'.nhep = e.nhep := by
  obtain ⟨a1, a2, a3, a4, a5, a6⟩ := h
  by_cases hk : k > n
  · refine ⟨⟨e.nevhep, e.nhep, e.isthep.take n, e.idhep.take n, e.jmohep.take n, e.jdahep.take n, e.phep.take n,
      e.vhep.take n⟩, ?_, ?_, rfl, rfl⟩
    · simp only [resize]
      rw [if_pos (by omega), if_neg (by omega), hn]
      simp only [Int.toNat_natCast, upto, a1, a2, a3, a4, a5, a6, (by omega : n ≤ k), if_true]
    · simp only [Event.even, List.length_take]; omega
  · simp only [resize]
    rw [if_neg (by omega)]
    simp only [hn, Int.toNat_natCast]
    refine ⟨_, rfl, ?_, rfl, rfl⟩
    simp only [Event.even, grow, List.length_append, List.length_replicate]
    omega

/-- **C120.** An event written by `Encode` is read back by `Decode` into any event whose slices have one length,
whatever it held before: the numbers of the event, exactly its particles in order, with the
indices of mothers and daughters unchanged and the floating-point numbers rounded by
the notation; the input goes on behind the event. -/
theorem C120_round_trip (hg : Good no rnd) (zero : F) {e old : Event F} {l : List (Particle F)} (h : e.begins l)
    (hn : e.nhep.toInt = l.length) {k : Nat} (ho : old.even k) (rest : List Char) :
    ∃ t e', encode no e = some t ∧ decode no zero old (t ++ rest) = .ok (e', rest) ∧
      e'.nevhep = e.nevhep ∧ e'.nhep = e.nhep ∧ e'.particles (l.map (Particle.rounded rnd)) := by
  obtain ⟨q1, q2⟩ := line_header e.nevhep e.nhep (l.flatMap (particleLine no) ++ rest)
  have ho' : Event.even { old with nevhep := e.nevhep, nhep := e.nhep } k := ho
  obtain ⟨e₁, r1, r2, r3, r4⟩ := resize_even zero ho' hn
  have ht : turns e.nhep = l.length := by simp [turns, hn]
  obtain ⟨e', d1, d2, d3, d4⟩ := decodeFrom_eq hg rest l e₁ 0 [] (by simpa using r2) rfl (by simp)
  refine ⟨_, e', encode_eq h hn, ?_, by rw [d3, r3], by rw [d4, r4], by simpa using d2⟩
  simp only [decode, List.append_assoc, List.cons_append, q1, q2, r1, ht, d1]

/-- Reading events one after another into the same variable. -/
def decodeAll (no : Notation F) (zero : F) : Event F → List Char → Nat → Option (List (Event F))
  | _, _, 0 => some []
  | old, s, n + 1 =>
    match decode no zero old s with
    | .ok (e, rest) => (decodeAll no zero e rest n).map (e :: ·)
    | _ => none

/-- Writing events one after another. -/
def encodeAll (no : Notation F) : List (Event F) → Option (List Char)
  | [] => some []
  | e :: es =>
    match encode no e, encodeAll no es with
    | some a, some b => some (a ++ b)
    | _, _ => none

/-- What is read for an event. -/
def Event.same (rnd : F → F) (e e' : Event F) : Prop :=
  e'.nevhep = e.nevhep ∧ e'.nhep = e.nhep ∧
    ∃ l, e.begins l ∧ (l.length : Int) = e.nhep.toInt ∧ e'.particles (l.map (Particle.rounded rnd))

/-- **C120.** All events of a file, read one after another into one variable, are the events
written; then the input is at its end and the next `Decode` returns an error. -/
theorem C120_sequence (hg : Good no rnd) (zero : F) (es : List (Event F))
    (hes : ∀ e ∈ es, ∃ l, e.begins l ∧ (l.length : Int) = e.nhep.toInt) {old : Event F} {k : Nat} (ho : old.even k) :
    ∃ t es', encodeAll no es = some t ∧ decodeAll no zero old t es.length = some es' ∧
      List.Forall₂ (Event.same rnd) es es' ∧ decodeAll no zero old t (es.length + 1) = none := by
  induction es generalizing old k with
  | nil =>
    refine ⟨[], [], rfl, rfl, .nil, ?_⟩
    simp [decodeAll, decode, line, scanHeader, words, splitC]
  | cons e es ih =>
    obtain ⟨l, hb, hl⟩ := hes e List.mem_cons_self
    obtain ⟨t, e', h1, h2, h3, h4, h5⟩ := C120_round_trip hg zero hb hl.symm ho []
    have he' : e'.even l.length := by
      obtain ⟨p1, p2, p3, p4, p5, p6⟩ := h5
      simp [Event.even, p1, p2, p3, p4, p5, p6]
    obtain ⟨t', es', g1, g2, g3, g4⟩ := ih (fun e he => hes e (List.mem_cons_of_mem _ he)) he'
    obtain ⟨t'', e'', k1, k2, k3, k4, k5⟩ := C120_round_trip hg zero hb hl.symm ho t'
    rw [h1] at k1
    cases k1
    have ee : e'' = e' := by
      obtain ⟨p1, p2, p3, p4, p5, p6⟩ := h5
      obtain ⟨q1, q2, q3, q4, q5, q6⟩ := k5
      cases e'; cases e''
      simp_all
    subst ee
    refine ⟨t ++ t', e'' :: es', by simp only [encodeAll, h1, g1], ?_, .cons ⟨h3, h4, l, hb, hl, h5⟩ g3, ?_⟩
    · simp only [List.length_cons, decodeAll, k2, g2, Option.map_some]
    · simp only [List.length_cons, decodeAll, k2]
      simp only [decodeAll] at g4
      rw [g4]; rfl

end

/-! ### What fails -/

/-- Numbers are natural numbers here. -/
def exNo : Notation Nat := ⟨fun n => fmtInt (BitVec.ofNat 64 n), fun s => (scanInt s).map BitVec.toNat⟩

/-- **C120, what fails.** A negative number of particles in the text makes `Decode` panic. -/
theorem C120_negative_counterexample :
    decode exNo 0 ⟨0, 0, [], [], [], [], [], []⟩ ['1', ' ', '-', '1', '\n'] = .panic := by rfl

/-- **C120, what fails.** `Encode` of an event with fewer particles than it tells panics, after having written. -/
theorem C120_short_counterexample : encode exNo (⟨1, 1, [], [], [], [], [], []⟩ : Event Nat) = none := by rfl

/-- **C120, what fails.** Decoding into an event whose slices have different lengths panics: only the
length of the status codes is looked at. -/
theorem C120_uneven_counterexample :
    decode exNo 0 ⟨0, 0, [5], [], [], [], [], []⟩ ['1', ' ', '1', '\n'] = .panic := by rfl

/-! ### Example -/

def exParticle : Particle Nat := ⟨1, 11, (-1, 0), (3, 4), (1, 2, 3, 4, 5), (6, 7, 8, 9)⟩

def exEvent : Event Nat :=
  ⟨42, 1, [1, 7], [11], [(-1, 0)], [(3, 4)], [(1, 2, 3, 4, 5)], [(6, 7, 8, 9)]⟩

theorem exNo_good : Good exNo (· % 2 ^ 64) where
  parse := fun x => by simp [exNo, scanInt_fmtInt]
  word := fun x => fmtInt_word _

example : ∃ t e', encode exNo exEvent = some t ∧
    decode exNo 0 ⟨0, 0, [2, 2], [2, 2], [(2, 2), (2, 2)], [(2, 2), (2, 2)], [(0, 0, 0, 0, 0), (0, 0, 0, 0, 0)],
      [(0, 0, 0, 0), (0, 0, 0, 0)]⟩ (t ++ ['x']) = .ok (e', ['x']) ∧
    e'.nevhep = exEvent.nevhep ∧ e'.nhep = exEvent.nhep ∧
      e'.particles ([exParticle].map (Particle.rounded (· % 2 ^ 64))) :=
  C120_round_trip exNo_good 0 (e := exEvent) (l := [exParticle]) (k := 2)
    (by simp [Event.begins, exParticle, exEvent]) rfl (by simp [Event.even]) ['x']

end Verif.Hepevt
