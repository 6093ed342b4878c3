import Verif.Sio.Lemmas

/-!
# Properties of `sio` streams: C34 and C36

A user's `UnmarshalSio` is described by what it makes of the state and of the bytes; the
hypothesis on it is that it takes exactly the bytes `MarshalSio` wrote for the block.
-/

namespace Verif.Sio

variable {σ : Type}

/-! ## Specification -/

/-- The blocks of these that are connected. -/
def connected (um : Blocks σ) (bs : List Blk) : List Blk := bs.filter fun b => (um b.name).isSome

/-- Reading a connected block acts on the state as `step` and takes the bytes of the block. -/
def Takes (um : Blocks σ) (step : Blk → σ → σ) (bs : List Blk) : Prop :=
  ∀ b ∈ bs, ∀ f, um b.name = some f → ∀ st rest, f st b.version (b.data ++ rest) = some (step b st, rest)

/-- The state after all connected blocks were read, each once and in order. -/
def after (um : Blocks σ) (step : Blk → σ → σ) (bs : List Blk) (st : σ) : σ :=
  (connected um bs).foldl (fun st b => step b st) st

/-- Names and versions of the connected blocks. -/
def labels (um : Blocks σ) (bs : List Blk) : List (Bytes × Nat) :=
  (connected um bs).map fun b => (b.name, b.version)

/-! ## Blocks -/

theorem readLoop_blocks (um : Blocks σ) (fin : List (Bytes × Nat) → σ → Option σ) (step : Blk → σ → σ)
    (bs : List Blk) (hb : ∀ b ∈ bs, b.Fits) (ht : Takes um step bs)
    (hm : ∀ b ∈ bs, um b.name = none → ¬ blkMarker <:+: b.data) (fuel : Nat) (hf : bs.length < fuel)
    (seen : List (Bytes × Nat)) (st st' : σ) (hfin : fin (seen ++ labels um bs) (after um step bs st) = some st') :
    readLoop um fin fuel seen st (encBlks bs) = .ok st' := by
  induction bs generalizing fuel seen st with
  | nil =>
    match fuel, hf with
    | fuel + 1, _ =>
      have : fin seen st = some st' := by simpa [labels, after, connected] using hfin
      rw [encBlks, readLoop]
      simp [this]
  | cons b bs ih =>
    have hb' : ∀ b ∈ bs, b.Fits := fun x h => hb x (List.mem_cons_of_mem _ h)
    have hfb := hb b (List.mem_cons_self ..)
    have iht := ih hb' (fun x h => ht x (List.mem_cons_of_mem _ h)) (fun x h => hm x (List.mem_cons_of_mem _ h))
    match fuel, hf with
    | fuel + 1, hf =>
      rw [List.length_cons] at hf
      rw [encBlks, readLoop_enc um fin fuel seen st hfb]
      cases hu : um b.name with
      | none =>
        simp only []
        rw [resync_blocks (hm b (List.mem_cons_self ..) hu) hb']
        simp only []
        have hc : connected um (b :: bs) = connected um bs := by simp [connected, hu]
        unfold labels after at hfin
        rw [hc] at hfin
        exact iht fuel (by omega) seen st hfin
      | some f =>
        simp only []
        rw [ht b (List.mem_cons_self ..) f hu]
        simp only []
        have hc : connected um (b :: bs) = b :: connected um bs := by simp [connected, hu]
        unfold labels after at hfin
        rw [hc, List.map_cons, List.foldl_cons] at hfin
        rw [if_neg (by rw [List.length_append]; push_cast; omega), resync_next hb']
        simp only []
        apply iht fuel (by omega)
        rw [List.append_assoc]
        exact hfin

theorem length_encBlks_ge (bs : List Blk) (hb : ∀ b ∈ bs, b.Fits) : bs.length ≤ (encBlks bs).length := by
  induction bs with
  | nil => simp [encBlks]
  | cons b bs ih =>
    have := ih fun x h => hb x (List.mem_cons_of_mem _ h)
    rw [encBlks, List.length_append, length_encBlk (hb b (List.mem_cons_self ..)), List.length_cons]
    omega

/-- **C36** (partial): reading a record acts on the state as reading each connected block once,
in order, followed by the relocation and linking for these blocks, whatever the other
blocks are, if their bytes do not contain the marker of blocks (see the counterexamples).
The bytes of connected blocks are not restricted. -/
theorem C36_blocks_partial (um : Blocks σ) (fin : List (Bytes × Nat) → σ → Option σ) (step : Blk → σ → σ)
    (bs : List Blk) (hb : ∀ b ∈ bs, b.Fits) (ht : Takes um step bs)
    (hm : ∀ b ∈ bs, um b.name = none → ¬ blkMarker <:+: b.data) (st st' : σ)
    (hfin : fin (labels um bs) (after um step bs st) = some st') :
    readBlocks um fin st (encBlks bs) = .ok st' := by
  have := length_encBlks_ge bs hb
  exact readLoop_blocks um fin step bs hb ht hm _ (by omega) [] st st' (by simpa using hfin)

/-! ## Records -/

/-- A lossless `zlib`, whose reader stops at the end of what its writer wrote. -/
def Codec.Good (C : Codec) : Prop := ∀ b n, n < 4 → C.dec (C.comp b ++ List.replicate n 0) = b

/-- A record that fits the 32-bit lengths of the format. -/
structure Rec.Fits (C : Codec) (r : Rec) : Prop where
  blocks : ∀ b ∈ r.blocks, b.Fits
  name : r.name.length + 64 ≤ 2 ^ 30
  plain : (encBlks r.blocks).length + 64 ≤ 2 ^ 30
  packed : (C.comp (encBlks r.blocks)).length + 64 ≤ 2 ^ 30

theorem content_small {C : Codec} {r : Rec} (hr : r.Fits C) : (content C r).length < 2 ^ 30 := by
  have h1 := hr.plain
  have h2 := hr.packed
  unfold content
  split
  · simp only [List.length_append, List.length_replicate]
    rw [align4_eq (by omega)]; omega
  · omega

/-- What reading a record header leads to. -/
theorem readRecord_enc (C : Codec) (cfg : Cfg σ) (fuel : Nat) (st : σ) {r : Rec} (hr : r.Fits C) (rest : Bytes) :
    readRecord C cfg (fuel + 1) st (encRec C r ++ rest) =
      if cfg.unpack r.name then
        unpackRecord C cfg r.name r.options (content C r).length (encBlks r.blocks).length st (content C r ++ rest)
      else readRecord C cfg fuel st ((content C r ++ rest).drop (align4 (content C r).length)) := by
  have hn : r.name.length < 2 ^ 31 := by have := hr.name; omega
  have hc := content_small hr
  have hp := hr.plain
  rw [readRecord]
  unfold encRec
  have e1 : beEnc 4 (8 + 16 + align4 r.name.length) ++ (recMarker ++ (beEnc 4 r.options.toNat ++
    (beEnc 4 (content C r).length ++ (beEnc 4 (encBlks r.blocks).length ++ (beEnc 4 r.name.length ++
      (r.name ++ (pad r.name.length ++ content C r))))))) ++ rest =
      (beEnc 4 (8 + 16 + align4 r.name.length) ++ recMarker) ++ ((beEnc 4 r.options.toNat ++
    (beEnc 4 (content C r).length ++ (beEnc 4 (encBlks r.blocks).length ++ beEnc 4 r.name.length))) ++
      (r.name ++ (pad r.name.length ++ (content C r ++ rest)))) := by
    simp only [List.append_assoc]
  rw [e1, readFull_append _ (by simp [recMarker])]
  simp only []
  rw [List.drop_left' (length_beEnc ..), if_neg (by simp), readFull_append _ (by simp)]
  simp only []
  rw [List.take_left' (length_beEnc ..), List.take_left' (length_beEnc ..), List.drop_left' (length_beEnc ..),
    List.take_left' (length_beEnc ..)]
  have e2 : (beEnc 4 r.options.toNat ++
      (beEnc 4 (content C r).length ++ (beEnc 4 (encBlks r.blocks).length ++ beEnc 4 r.name.length))).drop 8 =
      beEnc 4 (encBlks r.blocks).length ++ beEnc 4 r.name.length := by
    rw [← List.append_assoc, List.drop_left' (by simp)]
  have e3 : (beEnc 4 r.options.toNat ++
      (beEnc 4 (content C r).length ++ (beEnc 4 (encBlks r.blocks).length ++ beEnc 4 r.name.length))).drop 12 =
      beEnc 4 r.name.length := by
    rw [← List.append_assoc, ← List.append_assoc, List.drop_left' (by simp)]
  rw [e2, e3, List.take_left' (length_beEnc ..),
    beDec_beEnc_of_lt (show r.name.length < 256 ^ 4 from Nat.lt_trans hn (by decide)), read_padded hn]
  simp only [List.take_left]
  have ha := le_align4 hn
  rw [if_neg (by omega),
    beDec_beEnc_of_lt (show (content C r).length < 256 ^ 4 from Nat.lt_trans hc (by decide)),
    beDec_beEnc_of_lt (show (encBlks r.blocks).length < 256 ^ 4 from Nat.lt_of_lt_of_le (by omega : _ < 2 ^ 30) (by decide)),
    beDec_beEnc_of_lt (show r.options.toNat < 256 ^ 4 from r.options.isLt)]
  have e4 : BitVec.ofNat 32 r.options.toNat = r.options := by simp
  rw [e4]
  split
  · rfl
  · rw [if_neg]
    have h1 : align4 r.name.length < 2 ^ 30 := by
      have := hr.name; rw [align4_eq hn]; omega
    have h2 : align4 (content C r).length < 2 ^ 30 + 4 := by
      rw [align4_eq (by omega)]; omega
    rw [beDec_beEnc_of_lt (show _ < 256 ^ 4 by omega), Nat.mod_eq_of_lt (by omega)]
    omega

theorem unpackRecord_enc (C : Codec) (hC : C.Good) (cfg : Cfg σ) (st st' : σ) {r : Rec} (hr : r.Fits C) (rest : Bytes)
    (h : readBlocks (cfg.um r.name) cfg.fin st (encBlks r.blocks) = .ok st') :
    unpackRecord C cfg r.name r.options (content C r).length (encBlks r.blocks).length st (content C r ++ rest) =
      .got r.name r.options st' rest := by
  unfold unpackRecord
  rw [readFull_append _ rfl]
  simp only []
  by_cases hz : compress r.options = true
  · rw [if_pos hz]
    have hp := hr.packed
    have hcont : content C r = C.comp (encBlks r.blocks) ++
        List.replicate (align4 (C.comp (encBlks r.blocks)).length - (C.comp (encBlks r.blocks)).length) 0 := by
      unfold content; rw [if_pos hz]
    have h4 : align4 (C.comp (encBlks r.blocks)).length - (C.comp (encBlks r.blocks)).length < 4 := by
      rw [align4_eq (by omega)]; omega
    have hdec : C.dec (content C r) = encBlks r.blocks ++ [] := by rw [hcont, hC _ _ h4, List.append_nil]
    rw [hdec, readFull_append _ rfl]
    simp only []
    rw [h]
    have hal : align4 (content C r).length = (content C r).length := by
      have hs := content_small hr
      apply align4_of_mod (by omega)
      rw [hcont, List.length_append, List.length_replicate, align4_eq (by omega)]
      omega
    rw [hal, Nat.sub_self, List.drop_zero]
  · rw [if_neg hz]
    have hcont : content C r = encBlks r.blocks := by unfold content; rw [if_neg hz]
    rw [hcont, h]

theorem drop_content {C : Codec} {r : Rec} (hr : r.Fits C)
    (ha : compress r.options = false → (encBlks r.blocks).length % 4 = 0) (rest : Bytes) :
    (content C r ++ rest).drop (align4 (content C r).length) = rest := by
  have hs := content_small hr
  have : align4 (content C r).length = (content C r).length := by
    apply align4_of_mod (by omega)
    unfold content
    split
    · have hp := hr.packed
      simp only [List.length_append, List.length_replicate]
      rw [align4_eq (by omega)]; omega
    · next h => exact ha (by simpa using h)
  rw [this, List.drop_left]

/-- What reading a record does to the state. -/
structure RecOk (C : Codec) (cfg : Cfg σ) (step : Bytes → Blk → σ → σ) (link : List (Bytes × Nat) → σ → σ)
    (r : Rec) : Prop where
  fits : r.Fits C
  /-- the data of records that are skipped are compressed or a multiple of four bytes. -/
  aligned : cfg.unpack r.name = false → compress r.options = false → (encBlks r.blocks).length % 4 = 0
  takes : cfg.unpack r.name = true → Takes (cfg.um r.name) (step r.name) r.blocks
  marker : cfg.unpack r.name = true → ∀ b ∈ r.blocks, cfg.um r.name b.name = none → ¬ blkMarker <:+: b.data
  fin : ∀ l st, cfg.fin l st = some (link l st)

/-- The state after the record was unpacked. -/
def recStep (cfg : Cfg σ) (step : Bytes → Blk → σ → σ) (link : List (Bytes × Nat) → σ → σ) (st : σ) (r : Rec) : σ :=
  link (labels (cfg.um r.name) r.blocks) (after (cfg.um r.name) (step r.name) r.blocks st)

theorem length_encRec_pos (C : Codec) (r : Rec) : (encRec C r).length > 0 := by
  unfold encRec; rw [List.length_append, length_beEnc]; omega

/-- `ReadRecord` finds the next record to be unpacked, and leaves the stream behind it. -/
theorem readRecord_next (C : Codec) (hC : C.Good) (cfg : Cfg σ) (step : Bytes → Blk → σ → σ)
    (link : List (Bytes × Nat) → σ → σ) (rs : List Rec) (hr : ∀ r ∈ rs, RecOk C cfg step link r) (st : σ) (fuel : Nat)
    (hf : (encRecs C rs).length < fuel) :
    ((∀ r ∈ rs, cfg.unpack r.name = false) ∧ readRecord C cfg fuel st (encRecs C rs) = .eof st) ∨
    (∃ pre r post, rs = pre ++ r :: post ∧ (∀ r ∈ pre, cfg.unpack r.name = false) ∧ cfg.unpack r.name = true ∧
      readRecord C cfg fuel st (encRecs C rs) =
        .got r.name r.options (recStep cfg step link st r) (encRecs C post)) := by
  induction rs generalizing fuel with
  | nil =>
    match fuel, hf with
    | fuel + 1, _ => exact .inl ⟨by simp, by rw [encRecs, readRecord, readFull_nil (by decide)]⟩
  | cons r rs ih =>
    have hrr := hr r (List.mem_cons_self ..)
    match fuel, hf with
    | fuel + 1, hf =>
      rw [encRecs, List.length_append] at hf
      have hpos := length_encRec_pos C r
      rw [encRecs, readRecord_enc C cfg fuel st hrr.fits]
      by_cases hu : cfg.unpack r.name = true
      · right
        refine ⟨[], r, rs, rfl, by simp, hu, ?_⟩
        rw [if_pos hu]
        exact unpackRecord_enc C hC cfg st _ hrr.fits _
          (C36_blocks_partial _ _ (step r.name) _ hrr.fits.blocks (hrr.takes hu) (hrr.marker hu) st _ (hrr.fin _ _))
      · have hu' : cfg.unpack r.name = false := by simpa using hu
        rw [if_neg hu, drop_content hrr.fits (hrr.aligned hu')]
        rcases ih (fun x h => hr x (List.mem_cons_of_mem _ h)) fuel (by omega) with ⟨h1, h2⟩ | ⟨pre, q, post, h1, h2, h3, h4⟩
        · left
          refine ⟨?_, h2⟩
          intro x hx
          rcases List.mem_cons.1 hx with rfl | hx
          · exact hu'
          · exact h1 x hx
        · right
          refine ⟨r :: pre, q, post, by rw [h1]; rfl, ?_, h3, h4⟩
          intro x hx
          rcases List.mem_cons.1 hx with rfl | hx
          · exact hu'
          · exact h2 x hx

theorem length_encRecs_ge (C : Codec) (rs : List Rec) : rs.length ≤ (encRecs C rs).length := by
  induction rs with
  | nil => simp [encRecs]
  | cons r rs ih =>
    have := length_encRec_pos C r
    rw [encRecs, List.length_append, List.length_cons]; omega

/-- **C34** (partial): for any sequence of records written to a stream, and any choice of
records to unpack, calling `ReadRecord` until it fails returns exactly the chosen
records in order, with their options, each acting on the state as its connected blocks
say, and the failure is `io.EOF`.  Missing: records that are skipped and not compressed
must have a multiple of four bytes of data (see the counterexample), and blocks that are
skipped must not contain the marker of blocks (C36). -/
theorem C34_read_partial (C : Codec) (hC : C.Good) (cfg : Cfg σ) (step : Bytes → Blk → σ → σ)
    (link : List (Bytes × Nat) → σ → σ) (rs : List Rec) (hr : ∀ r ∈ rs, RecOk C cfg step link r) (st : σ) (fuel : Nat)
    (hf : rs.length < fuel) :
    readAll C cfg fuel st (encRecs C rs) =
      some ((rs.filter fun r => cfg.unpack r.name).map (fun r => (r.name, r.options)),
        (rs.filter fun r => cfg.unpack r.name).foldl (recStep cfg step link) st, true) := by
  induction fuel generalizing rs st with
  | zero => omega
  | succ fuel ih =>
    rw [readAll]
    rcases readRecord_next C hC cfg step link rs hr st ((encRecs C rs).length + 1) (by omega) with
      ⟨h1, h2⟩ | ⟨pre, r, post, h1, h2, h3, h4⟩
    · rw [h2]
      simp only []
      have : rs.filter (fun r => cfg.unpack r.name) = [] := by
        rw [List.filter_eq_nil_iff]
        intro x hx; simp [h1 x hx]
      rw [this]; rfl
    · rw [h4]
      simp only []
      rw [ih post (fun x h => hr x (by rw [h1]; simp [h])) _ (by rw [h1] at hf; simp at hf; omega)]
      have : rs.filter (fun r => cfg.unpack r.name) = r :: post.filter (fun r => cfg.unpack r.name) := by
        rw [h1, List.filter_append, List.filter_eq_nil_iff.2 (by intro x hx; simp [h2 x hx]),
          List.filter_cons, if_pos h3, List.nil_append]
      rw [this]
      simp

/-! ## A small configuration -/

/-- A stand-in for `zlib`: an end mark after the bytes. -/
def toy : Codec := ⟨fun b => b ++ [1], fun s => ((s.reverse.dropWhile (· = 0)).drop 1).reverse⟩

theorem toy_good : toy.Good := by
  intro b n _
  have : ∀ n : Nat, (List.replicate n (0 : UInt8) ++ 1 :: b.reverse).dropWhile (fun x => decide (x = 0)) = 1 :: b.reverse := by
    intro n
    induction n with
    | zero => simp
    | succ n ih => rw [List.replicate_succ, List.cons_append, List.dropWhile_cons_of_pos (by simp), ih]
  simp [toy, this]

/-- Blocks named `x` hold two bytes, which are remembered; no other block is connected. -/
def exBlocks : Blocks (List Bytes) := fun name =>
  if name = [120] then some fun st _ s =>
    match readFull 2 s with
    | .ok bs s => some (st ++ [bs], s)
    | _ => none
  else none

/-- Records named `a` are unpacked. -/
def exCfg : Cfg (List Bytes) := ⟨fun n => n = [97], fun _ => exBlocks, fun _ st => some st⟩

/-- A block `x` of two bytes and a block `y` of others. -/
def exRec (options : BitVec 32) (name x y : Bytes) : Rec := ⟨options, name, [⟨1, [121], y⟩, ⟨1, [120], x⟩]⟩

theorem exTakes (bs : List Blk) (h : ∀ b ∈ bs, b.name = [120] → b.data.length = 2) :
    Takes exBlocks (fun b st => st ++ [b.data]) bs := by
  intro b hb f hf st rest
  unfold exBlocks at hf
  by_cases hn : b.name = [120]
  · rw [if_pos hn] at hf
    cases hf
    simp only []
    rw [readFull_append _ (h b hb hn)]
  · rw [if_neg hn] at hf; cases hf

/-! ## Where the properties fail -/

/-- **C36**, counterexample: a block that is not connected and contains the marker of blocks.
With the marker first, the connected block after it is lost without an error. -/
theorem C36_lost_block_counterexample :
    readBlocks exBlocks (fun _ st => some st) [] (encBlks (exRec 0 [97] [7, 8] blkMarker).blocks) = .ok [] ∧
    readBlocks exBlocks (fun _ st => some st) [] (encBlks (exRec 0 [97] [7, 8] [1, 2, 3, 4]).blocks) = .ok [[7, 8]] := by
  constructor <;> rfl

/-- **C36**, counterexample: with the marker after one byte, `ReadRecord` panics. -/
theorem C36_panic_counterexample :
    readBlocks exBlocks (fun _ st => some st) [] (encBlks (exRec 0 [97] [7, 8] (0 :: blkMarker)).blocks) = .panic := by
  rfl

/-- **C36**, counterexample: the bytes of a block that is not connected are taken for a block. -/
theorem C36_forged_block_counterexample :
    readBlocks exBlocks (fun _ st => some st) []
      (encBlks (exRec 0 [97] [7, 8] (encBlk ⟨1, [120], [5, 6]⟩)).blocks) = .ok [[5, 6], [7, 8]] := by
  rfl

/-- **C34**, counterexample: a record of two unaligned bytes that is skipped; the record after it,
which is to be unpacked, is not found and an error is reported. -/
theorem C34_unaligned_counterexample :
    readAll toy exCfg 3 [] (encRecs toy [exRec 0 [98] [7, 8] [], exRec 0 [97] [5, 6] []]) = some ([], [], false) ∧
    readAll toy exCfg 3 [] (encRecs toy [exRec 0 [98] [7, 8] [0, 0], exRec 0 [97] [5, 6] []]) =
      some ([([97], 0)], [[5, 6]], true) := by
  constructor <;> decide +kernel

/-! ## Examples -/

theorem exFits (options : BitVec 32) (name x y : Bytes) (hn : name.length ≤ 100) (hx : x.length ≤ 100) (hy : y.length ≤ 100) :
    (exRec options name x y).Fits toy := by
  have hb : ∀ b ∈ (exRec options name x y).blocks, b.Fits := by
    intro b hb
    simp only [exRec, List.mem_cons, List.not_mem_nil, or_false] at hb
    rcases hb with rfl | rfl
    · exact ⟨by show 1 < 2 ^ 32; decide, by simp only [List.length_cons, List.length_nil]; omega⟩
    · exact ⟨by show 1 < 2 ^ 32; decide, by simp only [List.length_cons, List.length_nil]; omega⟩
  have hl : (encBlks (exRec options name x y).blocks).length ≤ 300 := by
    simp only [exRec, encBlks, List.length_append, List.append_nil]
    rw [length_encBlk (hb _ (by simp [exRec])), length_encBlk (hb _ (by simp [exRec]))]
    simp [align4]
    omega
  exact ⟨hb, by simp only [exRec]; omega, by omega, by simp only [toy, List.length_append, List.length_cons, List.length_nil]; omega⟩

/-- A record whose second block is connected. -/
example : readBlocks exBlocks (fun _ st => some st) [] (encBlks (exRec 0 [97] [7, 8] [1, 2, 3]).blocks) = .ok [[7, 8]] :=
  C36_blocks_partial exBlocks _ (fun b st => st ++ [b.data]) _ (exFits 0 [97] [7, 8] [1, 2, 3] (by decide) (by decide) (by decide)).blocks
    (exTakes _ (by simp [exRec])) (by simp [exRec, exBlocks]; decide) [] _ rfl

/-- Three records: an unpacked one with unaligned data, a compressed one that is skipped, and
another one that is unpacked. -/
example : readAll toy exCfg 4 [] (encRecs toy
      [exRec 0 [97] [7, 8] [], exRec 1 [98] [1, 2] [3], exRec 1 [97] [5, 6] [1, 2, 3]]) =
      some ([([97], 0), ([97], 1)], [[7, 8], [5, 6]], true) :=
  C34_read_partial toy toy_good exCfg (fun _ b st => st ++ [b.data]) (fun _ st => st) _ (by
    intro r hr
    simp only [List.mem_cons, List.not_mem_nil, or_false] at hr
    rcases hr with rfl | rfl | rfl
    · exact ⟨exFits _ _ _ _ (by decide) (by decide) (by decide), by decide, fun _ => exTakes _ (by simp [exRec]),
        fun _ => by simp [exRec]; decide, fun _ _ => rfl⟩
    · exact ⟨exFits _ _ _ _ (by decide) (by decide) (by decide), by decide, fun _ => exTakes _ (by simp [exRec]),
        fun _ => by simp [exRec]; decide, fun _ _ => rfl⟩
    · exact ⟨exFits _ _ _ _ (by decide) (by decide) (by decide), by decide, fun _ => exTakes _ (by simp [exRec]),
        fun _ => by simp [exRec]; decide, fun _ _ => rfl⟩) [] 4 (by decide)

end Verif.Sio
