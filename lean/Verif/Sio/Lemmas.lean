import Verif.Sio.Model

/-!
# Lemmas on `sio` streams
-/

namespace Verif.Sio

theorem align4_eq {n : Nat} (h : n < 2 ^ 31) : align4 n = n + (4 - n % 4) % 4 := by
  unfold align4; exact Nat.mod_eq_of_lt (by omega)

theorem le_align4 {n : Nat} (h : n < 2 ^ 31) : n ≤ align4 n := by rw [align4_eq h]; omega

theorem align4_of_mod {n : Nat} (h : n < 2 ^ 31) (hm : n % 4 = 0) : align4 n = n := by rw [align4_eq h]; omega

@[simp] theorem length_pad (n : Nat) : (pad n).length = align4 n - n := by simp [pad]

/-- The four bytes of a number below two gigabytes. -/
theorem beEnc_four {n : Nat} (h : n < 2 ^ 31) : ∃ a b c d : UInt8, beEnc 4 n = [a, b, c, d] ∧ a < 0x80 := by
  refine ⟨_, _, _, _, rfl, ?_⟩
  rw [UInt8.lt_iff_toNat_lt]
  rw [UInt8.toNat_ofNat']
  have : n / 256 ^ 3 < 128 := by
    rw [Nat.div_lt_iff_lt_mul (by decide)]; omega
  show n / 256 ^ 3 % 256 < 128
  omega

theorem index_length {p : Bytes} {n : Nat} (h : index p = some n) : n + 4 ≤ p.length := by
  induction p generalizing n with
  | nil => cases h
  | cons b t ih =>
    unfold index at h
    split at h
    · next hp =>
      cases h
      have := (List.isPrefixOf_iff_prefix.1 hp).length_le
      simpa [blkMarker] using this
    · obtain ⟨m, hm, rfl⟩ := Option.map_eq_some_iff.1 h
      have := ih hm
      simp only [List.length_cons]; omega

/-- No marker is found where there is none. -/
theorem index_none {p : Bytes} (h : ¬ blkMarker <:+: p) : index p = none := by
  induction p with
  | nil => rfl
  | cons b t ih =>
    unfold index
    rw [if_neg, ih]
    · rfl
    · exact fun h' => h (h'.trans ⟨[b], [], by simp⟩)
    · exact fun h' => h (List.isPrefixOf_iff_prefix.1 h').isInfix

/-- The marker found after bytes that do not contain it is that of the next block. -/
theorem index_header {p : Bytes} (h : ¬ blkMarker <:+: p) {n : Nat} (hn : n < 2 ^ 31) (rest : Bytes) :
    index (p ++ (beEnc 4 n ++ (blkMarker ++ rest))) = some (p.length + 4) := by
  obtain ⟨a, b, c, d, he, ha⟩ := beEnc_four hn
  rw [he]
  have ha1 : a ≠ 0xde := by rintro rfl; revert ha; decide
  have ha2 : a ≠ 0xad := by rintro rfl; revert ha; decide
  have ha3 : a ≠ 0xbe := by rintro rfl; revert ha; decide
  have ha4 : a ≠ 0xef := by rintro rfl; revert ha; decide
  induction p with
  | nil =>
    simp [index, blkMarker, List.isPrefixOf, Ne.symm ha1]
  | cons x t ih =>
    have ht : ¬ blkMarker <:+: t := fun h' => h (h'.trans ⟨[x], [], by simp⟩)
    have hx : ¬ blkMarker.isPrefixOf (x :: t ++ ([a, b, c, d] ++ (blkMarker ++ rest))) = true := by
      intro hp
      match t, h with
      | [], _ => simp [blkMarker, List.isPrefixOf, Ne.symm ha2] at hp
      | [y], _ => simp [blkMarker, List.isPrefixOf, Ne.symm ha3] at hp
      | [y, z], _ => simp [blkMarker, List.isPrefixOf, Ne.symm ha4] at hp
      | y :: z :: w :: u, h =>
        simp [blkMarker, List.isPrefixOf] at hp
        obtain ⟨rfl, rfl, rfl, rfl⟩ := hp
        exact h ⟨[], u, rfl⟩
    rw [List.cons_append, index, if_neg (by simpa using hx), ih ht]
    simp

/-- A block that fits the 32-bit lengths of the format, with room to spare. -/
structure Blk.Fits (b : Blk) : Prop where
  version : b.version < 2 ^ 32
  size : b.name.length + b.data.length + 32 ≤ 2 ^ 31

theorem Blk.Fits.name {b : Blk} (h : b.Fits) : b.name.length < 2 ^ 31 := by have := h.size; omega

theorem Blk.Fits.len {b : Blk} (h : b.Fits) : 8 + 8 + align4 b.name.length + b.data.length < 2 ^ 31 := by
  have := h.size; rw [align4_eq h.name]; omega

theorem length_encBlk {b : Blk} (h : b.Fits) :
    (encBlk b).length = 8 + 8 + align4 b.name.length + b.data.length := by
  have := le_align4 h.name
  unfold encBlk
  simp only [List.length_append, length_beEnc, length_pad]
  have : blkMarker.length = 4 := rfl
  omega

theorem resync_none {p : Bytes} (h : ¬ blkMarker <:+: p) : resync p = some [] := by
  unfold resync
  split
  · rw [index_none h]
  · rfl

/-- Looking for the next block finds it. -/
theorem resync_blocks {p : Bytes} (h : ¬ blkMarker <:+: p) {bs : List Blk} (hb : ∀ b ∈ bs, b.Fits) :
    resync (p ++ encBlks bs) = some (encBlks bs) := by
  cases bs with
  | nil => rw [encBlks, List.append_nil]; exact resync_none h
  | cons b bs =>
    have hf := hb b (List.mem_cons_self ..)
    unfold resync
    have hi : index (p ++ encBlks (b :: bs)) = some (p.length + 4) := by
      rw [encBlks, encBlk]
      simp only [List.append_assoc]
      exact index_header h hf.len _
    rw [hi]
    have hl : (p ++ encBlks (b :: bs)).length > 0 := by
      rw [encBlks, List.length_append, List.length_append, length_encBlk hf]; omega
    rw [if_pos hl]
    simp only []
    rw [if_pos (by omega), if_neg (by omega), Nat.add_sub_cancel, List.drop_left]

theorem nil_no_marker : ¬ blkMarker <:+: ([] : Bytes) := by decide

theorem resync_next {bs : List Blk} (hb : ∀ b ∈ bs, b.Fits) : resync (encBlks bs) = some (encBlks bs) := by
  have := resync_blocks nil_no_marker hb
  simpa using this

/-- Reading a padded name. -/
theorem read_padded {bs : Bytes} (h : bs.length < 2 ^ 31) (rest : Bytes) :
    readFull (align4 bs.length) (bs ++ (pad bs.length ++ rest)) = .ok (bs ++ pad bs.length) rest := by
  rw [← List.append_assoc]
  apply readFull_append
  have := le_align4 h
  rw [List.length_append, length_pad]; omega

/-- One turn of the loop on a block. -/
theorem readLoop_enc {σ : Type} (um : Blocks σ) (fin : List (Bytes × Nat) → σ → Option σ) (fuel : Nat)
    (seen : List (Bytes × Nat)) (st : σ) {b : Blk} (hb : b.Fits) (rest : Bytes) :
    readLoop um fin (fuel + 1) seen st (encBlk b ++ rest) =
      match um b.name with
      | some f =>
        match f st b.version (b.data ++ rest) with
        | some (st', s6) =>
          if ((encBlk b ++ rest).length : Int) - s6.length ≠ (encBlk b).length then .fail st' else
          match resync s6 with
          | none => .panic
          | some s7 => readLoop um fin fuel (seen ++ [(b.name, b.version)]) st' s7
        | none => .fail st
      | none =>
        match resync (b.data ++ rest) with
        | none => .panic
        | some s7 => readLoop um fin fuel seen st s7 := by
  have hl : (encBlk b ++ rest).length > 0 := by
    rw [List.length_append, length_encBlk hb]; omega
  rw [readLoop, if_pos hl]
  have hlen := length_encBlk hb
  generalize hL : (encBlk b ++ rest).length = L
  unfold encBlk
  simp only [List.append_assoc]
  rw [readFull_append _ (length_beEnc ..)]
  simp only []
  rw [readFull_append _ (show blkMarker.length = 4 from rfl)]
  simp only [ne_eq, not_true_eq_false, if_false]
  rw [readFull_append _ (length_beEnc ..)]
  simp only []
  rw [readFull_append _ (length_beEnc ..)]
  simp only []
  rw [beDec_beEnc_of_lt (show b.name.length < 256 ^ 4 from Nat.lt_trans hb.name (by decide)),
    beDec_beEnc_of_lt (show b.version < 256 ^ 4 from hb.version),
    beDec_beEnc_of_lt (show _ < 256 ^ 4 from Nat.lt_trans hb.len (by decide)), read_padded hb.name]
  simp only [List.take_left]
  rw [if_neg (by have := le_align4 hb.name; omega)]
  have hl' : (beEnc 4 (8 + 8 + align4 b.name.length + b.data.length) ++
      (blkMarker ++ (beEnc 4 b.version ++ (beEnc 4 b.name.length ++ (b.name ++ (pad b.name.length ++ b.data)))))).length
      = 8 + 8 + align4 b.name.length + b.data.length := hlen
  rw [hl']
  cases um b.name with
  | none => cases resync (b.data ++ rest) <;> rfl
  | some f =>
    simp only []
    rcases f st b.version (b.data ++ rest) with _ | ⟨st', s6⟩
    · rfl
    · simp only []
      cases resync s6 <;> rfl

end Verif.Sio
