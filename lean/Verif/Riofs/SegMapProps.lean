import Verif.Riofs.SegMap

/-!
# The map of the segments of a file (C187)
-/

namespace Verif.Riofs.SegMap

/-! ## Specification -/

structure Seg where
  free : Bool
  size : Int

def Seg.header (s : Seg) : Int := if s.free then -s.size else s.size

/-- The file has these segments one after the other from a position to another one, each with its header. -/
def Tiled (hdr : Int → Read) : Int → List Seg → Int → Prop
  | pos, [], e => pos = e
  | pos, s :: ss, e => 0 < s.size ∧ s.size < 2147483648 ∧ hdr pos = .val s.header ∧ Tiled hdr (pos + s.size) ss e

/-- The lines for segments from a position on. -/
def lines : Int → List Seg → List Item
  | pos, [] => [.fin pos]
  | pos, s :: ss => (if s.free then Item.gap pos (-s.size) else Item.key pos s.size) :: lines (pos + s.size) ss

/-- The numbers read are of 32 bits, and not the smallest of them. -/
def Sane (hdr : Int → Read) : Prop := ∀ p n, hdr p = .val n → -2147483648 < n ∧ n < 2147483648

/-! ## Proofs -/

theorem tiled_le {hdr : Int → Read} (ss : List Seg) : ∀ {pos e : Int}, Tiled hdr pos ss e → pos ≤ e := by
  induction ss with
  | nil => intro pos e h; exact Int.le_of_eq h
  | cons s ss ih => intro pos e h; have := ih h.2.2.2; have := h.1; omega

theorem walk_val {hdr : Int → Read} {end' pos n : Int} (fuel : Nat) (hp : pos < end') (h : hdr pos = .val n) (hn : n ≠ 0)
    (hm : -2147483648 < n) : walk hdr end' (fuel + 1) pos
      = before (if n < 0 then .gap pos n else .key pos n) (walk hdr end' fuel (pos + if n < 0 then -n else n)) := by
  rw [walk, if_neg (by omega), h]
  simp only [if_neg hn]
  split
  · have : neg32 n = -n := if_neg (by omega)
    rw [this]
  · rfl

/-- **C187** (tiled): of a file made of segments, records and gaps, one after the other, the map has all of them, in their order, each once
and where it is, and then the end of the file; and there is no error. -/
theorem C187_tiled (hdr : Int → Read) (begin' end' : Int) (ss : List Seg) (h : Tiled hdr begin' ss end') (fuel : Nat)
    (hf : ss.length < fuel) : walk hdr end' fuel begin' = some (lines begin' ss, true) := by
  induction ss generalizing begin' fuel with
  | nil =>
    obtain ⟨fuel, rfl⟩ : ∃ f, fuel = f + 1 := ⟨fuel - 1, by omega⟩
    rw [walk, if_pos (Int.le_of_eq h.symm)]
    rfl
  | cons s ss ih =>
    obtain ⟨fuel, rfl⟩ : ∃ f, fuel = f + 1 := ⟨fuel - 1, by omega⟩
    obtain ⟨h1, h2, h3, h4⟩ := h
    have hle := tiled_le ss h4
    rw [List.length_cons] at hf
    have hi := ih _ h4 fuel (by omega)
    unfold Seg.header at h3
    cases hfree : s.free with
    | true =>
      rw [hfree, if_pos rfl] at h3
      rw [walk_val fuel (by omega) h3 (by omega) (by omega), if_pos (by omega), if_pos (by omega), Int.neg_neg, hi]
      simp only [before, lines, hfree, if_true]
    | false =>
      rw [hfree, if_neg (by decide)] at h3
      rw [walk_val fuel (by omega) h3 (by omega) (by omega), if_neg (by omega), if_neg (by omega), hi]
      simp only [before, lines, hfree, Bool.false_eq_true, if_false]

/-- **C187** (sound): whatever is in the file, if there is no error then what the map shows are segments one after the other from the
beginning, with their headers, up to the end of the file or beyond it. -/
theorem C187_sound (hdr : Int → Read) (hs : Sane hdr) (end' : Int) (fuel : Nat) (begin' : Int) (is : List Item)
    (h : walk hdr end' fuel begin' = some (is, true)) : ∃ ss e, end' ≤ e ∧ Tiled hdr begin' ss e ∧ is = lines begin' ss := by
  induction fuel generalizing begin' is with
  | zero => cases h
  | succ fuel ih =>
    by_cases hp : end' ≤ begin'
    · rw [walk, if_pos hp] at h
      cases h
      exact ⟨[], begin', hp, rfl, rfl⟩
    · cases hr : hdr begin' with
      | fail => rw [walk, if_neg hp, hr] at h; cases h
      | short => rw [walk, if_neg hp, hr] at h; cases h
      | val n =>
        by_cases hn : n = 0
        · rw [walk, if_neg hp, hr] at h
          simp only [if_pos hn] at h
          cases h
        · have hb := hs _ _ hr
          rw [walk_val fuel (by omega) hr hn hb.1] at h
          cases hw : walk hdr end' fuel (begin' + if n < 0 then -n else n) with
          | none => rw [hw] at h; cases h
          | some r =>
            obtain ⟨l, b⟩ := r
            rw [hw] at h
            simp only [before, Option.some.injEq, Prod.mk.injEq] at h
            obtain ⟨hl, rfl⟩ := h
            obtain ⟨ss, e, he, ht, rfl⟩ := ih _ _ hw
            by_cases hneg : n < 0
            · rw [if_pos hneg] at ht hl
              rw [if_pos hneg] at hl
              exact ⟨⟨true, -n⟩ :: ss, e, he, ⟨by simp only; omega, by simp only; omega, by simp [Seg.header, hr], ht⟩,
                by rw [← hl]; simp [lines]⟩
            · rw [if_neg hneg] at ht hl
              rw [if_neg hneg] at hl
              exact ⟨⟨false, n⟩ :: ss, e, he, ⟨by simp only; omega, by simp only; omega, by simp [Seg.header, hr], ht⟩,
                by rw [← hl]; simp [lines]⟩

/-- **C187** (ends): the walk ends, after at most as many turns as there are bytes. -/
theorem C187_ends (hdr : Int → Read) (hs : Sane hdr) (begin' end' : Int) (fuel : Nat) (hf : (end' - begin').toNat < fuel) :
    walk hdr end' fuel begin' ≠ none := by
  induction fuel generalizing begin' with
  | zero => omega
  | succ fuel ih =>
    by_cases hp : end' ≤ begin'
    · rw [walk, if_pos hp]; exact fun h => by cases h
    · cases hr : hdr begin' with
      | fail => rw [walk, if_neg hp, hr]; exact fun h => by cases h
      | short => rw [walk, if_neg hp, hr]; exact fun h => by cases h
      | val n =>
        by_cases hn : n = 0
        · rw [walk, if_neg hp, hr]
          simp only [if_pos hn]
          exact fun h => by cases h
        · rw [walk_val fuel (by omega) hr hn (hs _ _ hr).1]
          have := ih (begin' + if n < 0 then -n else n) (by split <;> omega)
          intro h
          cases hw : walk hdr end' fuel (begin' + if n < 0 then -n else n) with
          | none => exact this hw
          | some r => rw [hw] at h; cases h

/-- **C187** (marked): the walk goes from the beginning of a free segment marked by the file to its end, if it has no more than
2000000000 bytes. -/
theorem C187_marked (hdr : Int → Read) (end' pos free : Int) (fuel : Nat) (hp : pos < end') (h0 : 0 < free) (hf : free ≤ 2000000000)
    (h : hdr pos = .val (gapHeader free)) :
    walk hdr end' (fuel + 1) pos = before (.gap pos (-free)) (walk hdr end' fuel (pos + free)) := by
  have e : gapHeader free = -free := by unfold gapHeader; omega
  rw [e] at h
  rw [walk_val fuel hp h (by omega) (by omega), if_pos (by omega), if_pos (by omega), Int.neg_neg]

/-! ## Counterexamples and example -/

/-- From a longer one it goes to somewhere within it, where no record begins. -/
theorem C187_long_gap_counterexample (hdr : Int → Read) (end' pos free : Int) (fuel : Nat) (hp : pos < end') (hf : 2000000000 < free)
    (h : hdr pos = .val (gapHeader free)) :
    walk hdr end' (fuel + 1) pos = before (.gap pos (-2000000000)) (walk hdr end' fuel (pos + 2000000000)) ∧
      pos + 2000000000 < pos + free := by
  have e : gapHeader free = -2000000000 := by unfold gapHeader; omega
  rw [e] at h
  exact ⟨walk_val fuel hp h (by omega) (by omega), by omega⟩

/-- A record that goes beyond the end of the file is not noticed. -/
theorem C187_beyond_counterexample : walk (fun _ => .val 50) 120 2 100 = some ([.key 100 50, .fin 150], true) := by decide

/-- A file in which the walk goes back, and never ends. -/
def loopy (p : Int) : Read := if p = 2147483748 then .val (-2147483648) else if p = 100 then .val 2147483647 else .val 1

theorem C187_loop_counterexample (fuel : Nat) : walk loopy 2147483749 fuel 2147483748 = none := by
  have key : ∀ fuel, walk loopy 2147483749 fuel 2147483748 = none ∧ walk loopy 2147483749 fuel 100 = none ∧
      walk loopy 2147483749 fuel 2147483747 = none := by
    intro fuel
    induction fuel with
    | zero => exact ⟨rfl, rfl, rfl⟩
    | succ fuel ih =>
      refine ⟨?_, ?_, ?_⟩
      · rw [walk]
        simp only [loopy]
        simp [neg32, ih.2.1, before]
      · rw [walk]
        simp only [loopy]
        simp [ih.2.2, before]
      · rw [walk]
        simp only [loopy]
        simp [ih.1, before]
  exact (key fuel).1

/-- A record, a gap and a record. -/
def exHdr (p : Int) : Read := if p = 100 then .val 60 else if p = 160 then .val (-40) else .val 100

example : Tiled exHdr 100 [⟨false, 60⟩, ⟨true, 40⟩, ⟨false, 100⟩] 300 := by
  unfold Tiled Tiled Tiled Tiled; decide

example : walk exHdr 300 201 100 = some ([.key 100 60, .gap 160 (-40), .key 200 100, .fin 300], true) := by decide +kernel

end Verif.Riofs.SegMap
