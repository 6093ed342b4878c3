import Verif.Rio.Model

/-!
# Lemmas on `rio` streams
-/

namespace Verif.Rio

theorem le_rioAlign (n : Nat) : n ≤ rioAlign n := by unfold rioAlign; omega

theorem rioAlign_lt (n : Nat) : rioAlign n < n + 4 := by unfold rioAlign; omega

theorem rioAlign_mod (n : Nat) : rioAlign n % 4 = 0 := by unfold rioAlign; omega

theorem rioAlign_of_mod {n : Nat} (h : n % 4 = 0) : rioAlign n = n := by unfold rioAlign; omega

@[simp] theorem length_padding (n : Nat) : (padding n).length = rioAlign n - n := by simp [padding]

/-- A block that fits the 32-bit lengths of the format. -/
structure Blk.Fits (b : Blk) : Prop where
  version : b.version < 2 ^ 32
  name : b.name.length < 2 ^ 32
  data : b.data.length < 2 ^ 32

theorem length_encHeader (len : Nat) (frame : Bytes) (h : frame.length = 4) : (encHeader len frame).length = 8 := by
  simp [encHeader, h]

theorem readHeader_enc (len : Nat) (frame rest : Bytes) (hl : len < 2 ^ 32) (hf : frame.length = 4) :
    readHeader (encHeader len frame ++ rest) = .ok (len, frame) rest := by
  unfold readHeader encHeader
  rw [List.append_assoc, readFull_append _ (length_leEnc ..), Res.bind_ok, readFull_append _ hf]
  simp only [Res.wrap_ok, Res.bind_ok]
  rw [leDec_leEnc_of_lt (by simpa using hl)]

/-- Reading a padded byte string. -/
theorem read_padded (bs rest : Bytes) :
    readFull (rioAlign bs.length) (bs ++ (padding bs.length ++ rest)) = .ok (bs ++ padding bs.length) rest := by
  rw [← List.append_assoc]
  apply readFull_append
  have := le_rioAlign bs.length
  rw [List.length_append, length_padding]; omega

theorem readBlk_enc (b : Blk) (hb : b.Fits) (rest : Bytes) : readBlk (encBlk b ++ rest) = .ok b rest := by
  unfold readBlk encBlk
  simp only [List.append_assoc]
  rw [readHeader_enc _ _ _ hb.data rfl]
  simp only [Res.bind_ok, ne_eq, not_true_eq_false, if_false]
  rw [readFull_append _ (length_leEnc ..)]
  simp only [Res.bind_ok, Res.wrap_ok]
  rw [readFull_append _ (length_leEnc ..)]
  simp only [Res.bind_ok, Res.wrap_ok]
  rw [leDec_leEnc_of_lt (by simpa using hb.name), read_padded]
  simp only [Res.bind_ok, Res.wrap_ok]
  rw [read_padded]
  simp only [Res.bind_ok, Res.wrap_ok]
  rw [leDec_leEnc_of_lt (by simpa using hb.version), List.take_left, List.take_left]

theorem length_encBlk (b : Blk) :
    (encBlk b).length = 16 + rioAlign b.name.length + rioAlign b.data.length := by
  have h1 := le_rioAlign b.name.length
  have h2 := le_rioAlign b.data.length
  unfold encBlk
  simp only [List.length_append, length_encHeader _ _ (show blkFrame.length = 4 from rfl), length_leEnc, length_padding]
  omega

theorem length_encBlks_mod (bs : List Blk) : (encBlks bs).length % 4 = 0 := by
  induction bs with
  | nil => rfl
  | cons b bs ih =>
    have h1 := rioAlign_mod b.name.length
    have h2 := rioAlign_mod b.data.length
    rw [encBlks, List.length_append, length_encBlk]
    omega

theorem readRaw_enc (options : BitVec 32) (clen xlen : Nat) (name rest : Bytes)
    (hc : clen < 2 ^ 32) (hx : xlen < 2 ^ 32) (hn : name.length < 2 ^ 32) :
    readRaw (leEnc 4 options.toNat ++ (leEnc 4 clen ++ (leEnc 4 xlen ++
      (leEnc 4 name.length ++ (name ++ (padding name.length ++ rest)))))) = .ok ⟨options, clen, xlen, name⟩ rest := by
  unfold readRaw
  rw [readFull_append _ (length_leEnc ..)]
  simp only [Res.bind_ok, Res.wrap_ok]
  rw [readFull_append _ (length_leEnc ..)]
  simp only [Res.bind_ok, Res.wrap_ok]
  rw [readFull_append _ (length_leEnc ..)]
  simp only [Res.bind_ok, Res.wrap_ok]
  rw [readFull_append _ (length_leEnc ..)]
  simp only [Res.bind_ok, Res.wrap_ok]
  rw [leDec_leEnc_of_lt (by simpa using hn), read_padded]
  simp only [Res.bind_ok, Res.wrap_ok]
  rw [leDec_leEnc_of_lt (by simpa using options.isLt), leDec_leEnc_of_lt (by simpa using hc),
    leDec_leEnc_of_lt (by simpa using hx), List.take_left, BitVec.ofNat_toNat, BitVec.setWidth_eq]

theorem blkLoop_enc (bs : List Blk) (hb : ∀ b ∈ bs, b.Fits) (fuel : Nat) (hf : (encBlks bs).length < fuel)
    (bl : List Blk) : blkLoop fuel (encBlks bs).length (encBlks bs) bl = some (bs.foldl setBlock bl) := by
  induction bs generalizing fuel bl with
  | nil =>
    match fuel, hf with
    | fuel + 1, _ => simp [blkLoop, encBlks]
  | cons b bs ih =>
    match fuel, hf with
    | fuel + 1, hf =>
      have h16 := length_encBlk b
      rw [encBlks, List.length_append] at hf
      unfold blkLoop
      rw [if_neg (by rw [encBlks, List.length_append]; omega)]
      rw [encBlks, readBlk_enc b (hb b (List.mem_cons_self ..))]
      simp only [List.length_append]
      rw [show (encBlk b).length + (encBlks bs).length - ((encBlk b).length + (encBlks bs).length - (encBlks bs).length)
        = (encBlks bs).length by omega]
      rw [ih (fun b' h => hb b' (List.mem_cons_of_mem _ h)) fuel (by omega)]
      rfl

/-! ## Names of blocks -/

theorem findBlock_cons (a : Blk) (l : List Blk) (name : Bytes) :
    findBlock (a :: l) name = if a.name = name then some a else findBlock l name := by
  unfold findBlock
  rw [List.find?_cons]
  by_cases h : a.name = name
  · rw [if_pos h]; simp [h]
  · rw [if_neg h]; simp [h]

theorem findBlock_setBlock (l : List Blk) (b : Blk) (name : Bytes) :
    findBlock (setBlock l b) name = if b.name = name then some b else findBlock l name := by
  induction l with
  | nil => rw [setBlock, findBlock_cons]
  | cons a l ih =>
    unfold setBlock
    by_cases h : a.name = b.name
    · rw [if_pos h, findBlock_cons, findBlock_cons, h]
      by_cases h2 : b.name = name
      · rw [if_pos h2, if_pos h2]
      · rw [if_neg h2, if_neg h2, if_neg h2]
    · rw [if_neg h, findBlock_cons, findBlock_cons, ih]
      by_cases h2 : a.name = name
      · rw [if_pos h2, if_pos h2, if_neg (by intro h3; exact h (h2.trans h3.symm))]
      · rw [if_neg h2, if_neg h2]

theorem findBlock_foldl (bs : List Blk) (l : List Blk) (name : Bytes) (hn : (bs.map (·.name)).Nodup) :
    findBlock (bs.foldl setBlock l) name = (findBlock bs name).or (findBlock l name) := by
  induction bs generalizing l with
  | nil => rfl
  | cons b bs ih =>
    rw [List.map_cons, List.nodup_cons] at hn
    rw [List.foldl_cons, ih _ hn.2, findBlock_setBlock, findBlock_cons]
    by_cases h : b.name = name
    · rw [if_pos h, if_pos h]
      have : findBlock bs name = none := by
        unfold findBlock
        rw [List.find?_eq_none]
        intro x hx hc
        apply hn.1
        rw [h, ← of_decide_eq_true hc]
        exact List.mem_map.2 ⟨x, hx, rfl⟩
      rw [this]; rfl
    · rw [if_neg h, if_neg h]

theorem findBlock_mem {bs : List Blk} (hn : (bs.map (·.name)).Nodup) {b : Blk} (hb : b ∈ bs) :
    findBlock bs b.name = some b := by
  induction bs with
  | nil => cases hb
  | cons a l ih =>
    rw [List.map_cons, List.nodup_cons] at hn
    rw [findBlock_cons]
    rcases List.mem_cons.1 hb with rfl | h
    · rw [if_pos rfl]
    · rw [if_neg, ih hn.2 h]
      intro hc
      exact hn.1 (hc ▸ List.mem_map.2 ⟨b, h, rfl⟩)

theorem foldl_setBlock_nil (bs : List Blk) (hn : (bs.map (·.name)).Nodup) : bs.foldl setBlock [] = bs := by
  have gen : ∀ (bs l : List Blk), ((l ++ bs).map (·.name)).Nodup → bs.foldl setBlock l = l ++ bs := by
    intro bs
    induction bs with
    | nil => intro l _; simp
    | cons b bs ih =>
      intro l h
      rw [List.foldl_cons]
      have e : setBlock l b = l ++ [b] := by
        have hl : ∀ a ∈ l, a.name ≠ b.name := by
          intro a ha hc
          rw [List.map_append, List.nodup_append] at h
          exact h.2.2 _ (List.mem_map.2 ⟨a, ha, rfl⟩) _ (List.mem_map.2 ⟨b, List.mem_cons_self .., rfl⟩) hc
        clear h ih
        induction l with
        | nil => rfl
        | cons a l ih =>
          unfold setBlock
          rw [if_neg (hl a (List.mem_cons_self ..)), ih (fun x hx => hl x (List.mem_cons_of_mem _ hx))]
          rfl
      rw [e, ih (l ++ [b]) (by simpa using h)]
      simp
  simpa using gen bs [] (by simpa using hn)

end Verif.Rio
