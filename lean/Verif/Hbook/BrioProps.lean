import Verif.Hbook.Brio

/-!
# Binary records of `hbook` come back, and truncated ones are not accepted
-/

namespace Verif.Hbook.Brio
open Verif.Hbook

/-- The reader reads exactly these bytes as this value, whatever follows them, and panics on
anything shorter. -/
def Reads {T : Type} (r : Rd T) (bs : List UInt8) (v : T) : Prop :=
  (∀ rest, r (bs ++ rest) = .ok (v, rest)) ∧ ∀ pre, pre <+: bs → pre ≠ bs → r pre = .panic

theorem Reads.pure {T : Type} (v : T) : Reads (Pure.pure v) [] v := by
  refine ⟨fun rest => rfl, fun pre h hn => ?_⟩
  exact absurd (List.prefix_nil.mp h) hn

theorem Reads.bind {T U : Type} {r : Rd T} {k : T → Rd U} {a b : List UInt8} {v : T} {w : U}
    (h1 : Reads r a v) (h2 : Reads (k v) b w) : Reads (r >>= k) (a ++ b) w := by
  refine ⟨fun rest => ?_, fun pre hp hn => ?_⟩
  · show Rd.next r k _ = _
    simp only [Rd.next, List.append_assoc, h1.1, h2.1]
  · show Rd.next r k _ = _
    obtain ⟨t, ht⟩ := hp
    rcases List.append_eq_append_iff.mp ht with ⟨x, hx, _⟩ | ⟨x, hx, hy⟩
    · by_cases hpa : pre = a
      · subst hpa
        have := h1.1 []
        rw [List.append_nil] at this
        simp only [Rd.next, this]
        apply h2.2 [] (List.nil_prefix)
        intro hb
        apply hn
        rw [← hb, List.append_nil]
      · simp only [Rd.next, h1.2 pre ⟨x, hx.symm⟩ hpa]
    · subst hx
      simp only [Rd.next, h1.1]
      apply h2.2 x ⟨t, hy.symm⟩
      intro hxb
      apply hn
      rw [hxb]

theorem Reads.last {T U : Type} {r : Rd T} {k : T → Rd U} {a : List UInt8} {v : T} {w : U}
    (h1 : Reads r a v) (h2 : Reads (k v) [] w) : Reads (r >>= k) a w := by
  simpa using h1.bind h2

theorem Reads.run_ok {T : Type} {r : Rd T} {bs : List UInt8} {v : T} (h : Reads r bs v)
    (rest : List UInt8) : r.run (bs ++ rest) = .ok v := by
  simp only [Rd.run, h.1]

theorem Reads.run_panic {T : Type} {r : Rd T} {bs : List UInt8} {v : T} (h : Reads r bs v)
    {pre : List UInt8} (hp : pre <+: bs) (hn : pre ≠ bs) : r.run pre = .panic := by
  simp only [Rd.run, h.2 pre hp hn]

theorem prefix_lt {a b : List UInt8} (hp : a <+: b) (hn : a ≠ b) : a.length < b.length := by
  rcases Nat.lt_or_ge a.length b.length with h | h
  · exact h
  · exact absurd (hp.eq_of_length (Nat.le_antisymm hp.length_le h)) hn

theorem reads_u64 {n : Nat} (h : n < 2 ^ 64) : Reads rU64 (wU64 n) n := by
  refine ⟨fun rest => ?_, fun pre hp hn => ?_⟩
  · have hl : (wU64 n).length = 8 := length_leEnc 8 n
    simp only [rU64]
    rw [if_neg (by simp [hl]), List.take_left' hl, List.drop_left' hl]
    simp only [wU64]
    rw [leDec_leEnc_of_lt (by simpa using h)]
  · have := prefix_lt hp hn
    simp only [wU64, length_leEnc] at this
    simp [rU64, this]

theorem toI64_of_nat {n : Nat} (h : n < 2 ^ 63) : toI64 n = n := by
  simp [toI64, h]

/-- The numbers an `int64` holds. -/
def Fits (n : Int) : Prop := -2 ^ 63 ≤ n ∧ n < 2 ^ 63

instance (n : Int) : Decidable (Fits n) := by unfold Fits; infer_instance

theorem reads_i64 {n : Int} (h : Fits n) : Reads rI64 (wI64 n) n := by
  obtain ⟨h1, h2⟩ := h
  have e : toI64 (n % 2 ^ 64).toNat = n := by
    simp only [toI64]
    split <;> omega
  have hm : (n % 2 ^ 64).toNat < 2 ^ 64 := by omega
  have key : ∀ m : Nat, m < 2 ^ 64 → Reads rI64 (wU64 m) (toI64 m) :=
    fun m hm => (reads_u64 hm).last (Reads.pure _)
  have := key _ hm
  rwa [e] at this

theorem reads_len {n : Nat} (h : n < 2 ^ 63) : Reads rI64 (wU64 n) (n : Int) := by
  have : Reads rI64 (wU64 n) (toI64 n) := (reads_u64 (by omega)).last (Reads.pure _)
  rwa [toI64_of_nat h] at this

theorem reads_cut {T : Type} {u : List UInt8 → Out T} {bs : List UInt8} {v : T}
    (hu : u bs = .ok v) : Reads (rCut u (bs.length : Int)) bs v := by
  refine ⟨fun rest => ?_, fun pre hp hn => ?_⟩
  · simp only [rCut]
    rw [if_neg (by simp)]
    simp [hu]
  · have := prefix_lt hp hn
    simp only [rCut]
    rw [if_pos (by right; simpa using this)]

theorem reads_sub {T : Type} {u : List UInt8 → Out T} {bs : List UInt8} {v : T}
    (hl : bs.length < 2 ^ 63) (hu : u bs = .ok v) : Reads (rSub u) (wSub bs) v :=
  (reads_len hl).bind (reads_cut hu)

theorem Reads.sub {T : Type} {r : Rd T} {bs : List UInt8} {v : T} (h : Reads r bs v)
    (hl : bs.length < 2 ^ 63) : Reads (rSub r.run) (wSub bs) v :=
  reads_sub hl (by have := h.run_ok []; rwa [List.append_nil] at this)

theorem length_wSub (bs : List UInt8) : (wSub bs).length = 8 + bs.length := by
  simp [wSub, wU64]

theorem reads_arr {T : Type} {r : Rd T} {w : T → List UInt8} {l : List T}
    (h : ∀ v ∈ l, Reads r (w v) v) (hl : (wArr w l).length < 2 ^ 63) :
    Reads (rArr r.run l.length) (wArr w l) l := by
  induction l with
  | nil => exact Reads.pure _
  | cons v l ih =>
    have e : wArr w (v :: l) = wSub (w v) ++ wArr w l := by simp [wArr]
    rw [e] at hl ⊢
    simp only [List.length_append, length_wSub] at hl
    refine Reads.bind ((h v (by simp)).sub (by omega)) ?_
    exact Reads.last (ih (fun x hx => h x (by simp [hx])) (by omega)) (Reads.pure _)

theorem reads_slice {T : Type} {r : Rd T} {w : T → List UInt8} {l : List T}
    (h : ∀ v ∈ l, Reads r (w v) v) (hl : (wSlice w l).length < 2 ^ 63) :
    Reads (rSlice r.run) (wSlice w l) l := by
  have hle : l.length ≤ (wArr w l).length := by
    clear h hl
    induction l with
    | nil => simp
    | cons v l ih =>
      have e : wArr w (v :: l) = wSub (w v) ++ wArr w l := by simp [wArr]
      rw [e]
      simp only [List.length_append, length_wSub, List.length_cons]
      omega
  simp only [wSlice, List.length_append] at hl
  refine Reads.bind (reads_len (by omega)) ?_
  have := reads_arr h (by omega)
  rw [rMake, if_neg (by omega)]
  simpa using this

/-! ## What the records can hold

The numbers of entries are `int64`s in the code and unbounded in the model.
-/

/-- The number of entries fits. -/
def Fits0 {F : Type} (d : Dist0D F) : Prop := Fits d.n
/-- The number of entries fits. -/
def Fits1 {F : Type} (d : Dist1D F) : Prop := Fits0 d.dist
/-- The numbers of entries fit. -/
def Fits2 {F : Type} (d : Dist2D F) : Prop := Fits1 d.x ∧ Fits1 d.y

/-- The numbers of entries of a histogram fit. -/
def FitsH1D {F : Type} (b : Binning1D F) : Prop :=
  (∀ x ∈ b.bins, Fits1 x.dist) ∧ Fits1 b.dist ∧ Fits1 b.under ∧ Fits1 b.over

/-- The numbers of entries of a profile fit. -/
def FitsP1D {F : Type} (b : BinningP1D F) : Prop :=
  (∀ x ∈ b.bins, Fits2 x.dist) ∧ Fits2 b.dist ∧ Fits2 b.under ∧ Fits2 b.over

/-- The numbers of entries of a two-dimensional histogram fit, and there are eight outflows. -/
def FitsH2D {F : Type} (b : Binning2DRec F) : Prop :=
  (∀ x ∈ b.bins, Fits2 x.dist) ∧ Fits2 b.dist ∧ (b.outflows.length = 8 ∧ ∀ d ∈ b.outflows, Fits2 d) ∧
  Fits b.nx ∧ Fits b.ny ∧ (∀ x ∈ b.xedges, Fits1 x.dist) ∧ ∀ x ∈ b.yedges, Fits1 x.dist

/-- The bits of a floating point number are 64 bits and determine it. -/
def Lossless {F A : Type} (c : Codec F A) : Prop :=
  ∀ x : F, c.bits x < 2 ^ 64 ∧ c.ofBits (c.bits x) = x

section
variable {F A : Type} {c : Codec F A}

theorem reads_f64 (hc : Lossless c) (x : F) : Reads (rF64 c) (wF64 c x) x := by
  have : Reads (rF64 c) (wF64 c x) (c.ofBits (c.bits x)) :=
    (reads_u64 (hc x).1).last (Reads.pure _)
  rwa [(hc x).2] at this

@[simp] theorem len_u64 (n : Nat) : (wU64 n).length = 8 := by simp [wU64]
@[simp] theorem len_f64 (x : F) : (wF64 c x).length = 8 := by simp [wF64]
@[simp] theorem len_i64 (n : Int) : (wI64 n).length = 8 := by simp [wI64]
@[simp] theorem len_range (r : Range F) : (wRange c r).length = 16 := by simp [wRange]
@[simp] theorem len_dist0D (d : Dist0D F) : (wDist0D c d).length = 24 := by simp [wDist0D]
@[simp] theorem len_dist1D (d : Dist1D F) : (wDist1D c d).length = 48 := by
  simp [wDist1D, length_wSub]
@[simp] theorem len_dist2D (d : Dist2D F) : (wDist2D c d).length = 120 := by
  simp [wDist2D, length_wSub]

theorem reads_range (hc : Lossless c) (r : Range F) : Reads (rRange c) (wRange c r) r :=
  (reads_f64 hc _).bind ((reads_f64 hc _).last (Reads.pure _))

theorem reads_dist0D (hc : Lossless c) {d : Dist0D F} (h : Fits0 d) :
    Reads (rDist0D c) (wDist0D c d) d :=
  (reads_i64 h).bind ((reads_f64 hc _).bind ((reads_f64 hc _).last (Reads.pure _)))

theorem reads_dist1D (hc : Lossless c) {d : Dist1D F} (h : Fits1 d) :
    Reads (rDist1D c) (wDist1D c d) d :=
  ((reads_dist0D hc h).sub (by simp)).bind
    ((reads_f64 hc _).bind ((reads_f64 hc _).last (Reads.pure _)))

theorem reads_dist2D (hc : Lossless c) {d : Dist2D F} (h : Fits2 d) :
    Reads (rDist2D c) (wDist2D c d) d :=
  ((reads_dist1D hc h.1).sub (by simp)).bind (((reads_dist1D hc h.2).sub (by simp)).bind
    ((reads_f64 hc _).last (Reads.pure _)))

theorem reads_bin1D (hc : Lossless c) {b : Bin1D F} (h : Fits1 b.dist) :
    Reads (rBin1D c) (wBin1D c b) b :=
  ((reads_range hc _).sub (by simp)).bind (((reads_dist1D hc h).sub (by simp)).last (Reads.pure _))

theorem reads_binP1D (hc : Lossless c) {b : BinP1D F} (h : Fits2 b.dist) :
    Reads (rBinP1D c) (wBinP1D c b) b :=
  ((reads_range hc _).sub (by simp)).bind (((reads_dist2D hc h).sub (by simp)).last (Reads.pure _))

theorem reads_bin2D (hc : Lossless c) {b : Bin2D F} (h : Fits2 b.dist) :
    Reads (rBin2D c) (wBin2D c b) b :=
  ((reads_range hc _).sub (by simp)).bind (((reads_range hc _).sub (by simp)).bind
    (((reads_dist2D hc h).sub (by simp)).last (Reads.pure _)))

theorem reads_point2D (hc : Lossless c) (p : Point2D F) : Reads (rPoint2D c) (wPoint2D c p) p :=
  (reads_f64 hc _).bind ((reads_f64 hc _).bind (((reads_range hc _).sub (by simp)).bind
    (((reads_range hc _).sub (by simp)).last (Reads.pure _))))

theorem reads_binning1D (hc : Lossless c) {b : Binning1D F} (h : FitsH1D b)
    (hl : (wBinning1D c b).length < 2 ^ 63) : Reads (rBinning1D c) (wBinning1D c b) b := by
  obtain ⟨hb, hd, hu, ho⟩ := h
  simp only [wBinning1D, List.length_append] at hl
  exact (reads_slice (w := wBin1D c) (fun v hv => reads_bin1D hc (hb v hv)) (by omega)).bind
    (((reads_dist1D hc hd).sub (by simp)).bind (((reads_dist1D hc hu).sub (by simp)).bind
    (((reads_dist1D hc ho).sub (by simp)).bind (((reads_range hc _).sub (by simp)).last
      (Reads.pure _)))))

theorem reads_binningP1D (hc : Lossless c) {b : BinningP1D F} (h : FitsP1D b)
    (hl : (wBinningP1D c b).length < 2 ^ 63) : Reads (rBinningP1D c) (wBinningP1D c b) b := by
  obtain ⟨hb, hd, hu, ho⟩ := h
  simp only [wBinningP1D, List.length_append] at hl
  exact (reads_slice (w := wBinP1D c) (fun v hv => reads_binP1D hc (hb v hv)) (by omega)).bind
    (((reads_dist2D hc hd).sub (by simp)).bind (((reads_dist2D hc hu).sub (by simp)).bind
    (((reads_dist2D hc ho).sub (by simp)).bind (((reads_range hc _).sub (by simp)).bind
      ((reads_f64 hc _).last (Reads.pure _))))))

theorem reads_binning2D (hc : Lossless c) {b : Binning2DRec F} (h : FitsH2D b)
    (hl : (wBinning2D c b).length < 2 ^ 63) : Reads (rBinning2D c) (wBinning2D c b) b := by
  obtain ⟨hb, hd, ⟨h8, ho⟩, hx, hy, hxe, hye⟩ := h
  simp only [wBinning2D, List.length_append] at hl
  have hout := reads_arr (r := rDist2D c) (w := wDist2D c) (l := b.outflows)
    (fun v hv => reads_dist2D hc (ho v hv)) (by omega)
  rw [h8] at hout
  exact (reads_slice (w := wBin2D c) (fun v hv => reads_bin2D hc (hb v hv)) (by omega)).bind
    (((reads_dist2D hc hd).sub (by simp)).bind (hout.bind
    (((reads_range hc _).sub (by simp)).bind (((reads_range hc _).sub (by simp)).bind
    ((reads_i64 hx).bind ((reads_i64 hy).bind
    ((reads_slice (w := wBin1D c) (fun v hv => reads_bin1D hc (hxe v hv)) (by omega)).bind
    ((reads_slice (w := wBin1D c) (fun v hv => reads_bin1D hc (hye v hv)) (by omega)).last
      (Reads.pure _)))))))))

theorem reads_ann {a : A} {bs : List UInt8} (hd : c.annDec bs = some a)
    (hl : bs.length < 2 ^ 63) : Reads (rSub (uAnn c)) (wSub bs) a :=
  reads_sub hl (by simp [uAnn, hd])

/-! ## The claims -/

/-- Bytes `bs` are a record of `v` for `UnmarshalBinary` function `u`: read back as `v`
whatever follows them, and no part of them cut short is taken for an object. -/
def RecordOf {T : Type} (u : List UInt8 → Out T) (bs : List UInt8) (v : T) : Prop :=
  (∀ rest, u (bs ++ rest) = .ok v) ∧ ∀ k, k < bs.length → u (bs.take k) = .panic

theorem Reads.record {T : Type} {r : Rd T} {bs : List UInt8} {v : T} (h : Reads r bs v) :
    RecordOf r.run bs v :=
  ⟨h.run_ok, fun k hk => h.run_panic (List.take_prefix k bs) (by
    intro e
    have := congrArg List.length e
    simp only [List.length_take] at this
    omega)⟩

/-- The codec gives the annotations back. -/
def AnnBack (c : Codec F A) (a : A) : Prop := ∀ bs, c.annEnc a = some bs → c.annDec bs = some a

/-- A histogram marshalled to bytes is unmarshalled as the same histogram, whatever the bytes
that follow; on data cut short the call does not return. -/
theorem C87_h1d (hc : Lossless c) (o : Obj (Binning1D F) A) (h : FitsH1D o.body)
    (ha : AnnBack c o.ann) (bs : List UInt8) (hm : marshalH1D c o = some bs)
    (hl : bs.length < 2 ^ 63) : RecordOf (unmarshalH1D c) bs o := by
  simp only [marshalH1D] at hm
  split at hm
  · cases hm
  · rename_i a hae
    cases hm
    simp only [List.length_append, length_wSub] at hl
    exact Reads.record (r := rH1D c) (((reads_binning1D hc h (by omega)).sub (by omega)).bind
      ((reads_ann (ha a hae) (by omega)).last (Reads.pure _)))

/-- The same for two-dimensional histograms. -/
theorem C87_h2d (hc : Lossless c) (o : Obj (Binning2DRec F) A) (h : FitsH2D o.body)
    (ha : AnnBack c o.ann) (bs : List UInt8) (hm : marshalH2D c o = some bs)
    (hl : bs.length < 2 ^ 63) : RecordOf (unmarshalH2D c) bs o := by
  simp only [marshalH2D] at hm
  split at hm
  · cases hm
  · rename_i a hae
    cases hm
    simp only [List.length_append, length_wSub] at hl
    exact Reads.record (r := rH2D c) (((reads_binning2D hc h (by omega)).sub (by omega)).bind
      ((reads_ann (ha a hae) (by omega)).last (Reads.pure _)))

/-- The same for profiles. -/
theorem C87_p1d (hc : Lossless c) (o : Obj (BinningP1D F) A) (h : FitsP1D o.body)
    (ha : AnnBack c o.ann) (bs : List UInt8) (hm : marshalP1D c o = some bs)
    (hl : bs.length < 2 ^ 63) : RecordOf (unmarshalP1D c) bs o := by
  simp only [marshalP1D] at hm
  split at hm
  · cases hm
  · rename_i a hae
    cases hm
    simp only [List.length_append, length_wSub] at hl
    exact Reads.record (r := rP1D c) (((reads_binningP1D hc h (by omega)).sub (by omega)).bind
      ((reads_ann (ha a hae) (by omega)).last (Reads.pure _)))

/-- The same for scatters. -/
theorem C87_s2d (hc : Lossless c) (o : Obj (List (Point2D F)) A)
    (ha : AnnBack c o.ann) (bs : List UInt8) (hm : marshalS2D c o = some bs)
    (hl : bs.length < 2 ^ 63) : RecordOf (unmarshalS2D c) bs o := by
  simp only [marshalS2D] at hm
  split at hm
  · cases hm
  · rename_i a hae
    cases hm
    simp only [List.length_append, length_wSub] at hl
    exact Reads.record (r := rS2D c) ((reads_slice (w := wPoint2D c) (fun v _ => reads_point2D hc v) (by omega)).bind
      ((reads_ann (ha a hae) (by omega)).last (Reads.pure _)))

/-- A histogram written to a stream is read back from it, leaving the reader right behind it;
a stream cut short gives an error. -/
theorem C87_h1d_stream (hc : Lossless c) (o : Obj (Binning1D F) A) (h : FitsH1D o.body)
    (ha : AnnBack c o.ann) (bs : List UInt8) (hm : rioMarshalH1D c o = some bs)
    (hl : bs.length < 2 ^ 63) :
    (∀ rest, rioUnmarshalH1D c (bs ++ rest) = .ok (o, rest)) ∧
    ∀ k, k < bs.length → rioUnmarshalH1D c (bs.take k) = .err := by
  simp only [rioMarshalH1D] at hm
  split at hm
  · cases hm
  · rename_i data hd
    cases hm
    simp only [List.length_append, len_u64] at hl
    have hr := C87_h1d hc o h ha data hd (by omega)
    have h8 : (wU64 data.length).length = 8 := len_u64 _
    have hdec : leDec (wU64 data.length) = data.length := by
      rw [wU64, leDec_leEnc_of_lt]
      have : (256 : Nat) ^ 8 = 2 ^ 64 := by decide
      omega
    have hI : toI64 data.length = data.length := toI64_of_nat (by omega)
    constructor
    · intro rest
      simp only [rioUnmarshalH1D]
      rw [if_neg (by simp), List.append_assoc, List.take_left' h8, List.drop_left' h8, hdec, hI,
        if_neg (by omega), if_neg (by simp)]
      have := hr.1 []
      rw [List.append_nil] at this
      simp [this]
    · intro k hk
      simp only [List.length_append, len_u64] at hk
      simp only [rioUnmarshalH1D]
      by_cases h1 : k < 8
      · rw [if_pos (by simp; omega)]
      · rw [if_neg (by simp; omega)]
        have e : (wU64 data.length ++ data).take k = wU64 data.length ++ data.take (k - 8) := by
          rw [List.take_append, h8, List.take_of_length_le (by rw [h8]; omega)]
        rw [e, List.take_left' h8, List.drop_left' h8, hdec, hI, if_neg (by omega),
          if_pos (by simp; omega)]

/-- Marshalling fails exactly when the annotations cannot be encoded. -/
theorem C87_marshal_error (h1 : Obj (Binning1D F) A) (h2 : Obj (Binning2DRec F) A)
    (p : Obj (BinningP1D F) A) (s : Obj (List (Point2D F)) A) :
    (marshalH1D c h1 = none ↔ c.annEnc h1.ann = none) ∧
    (marshalH2D c h2 = none ↔ c.annEnc h2.ann = none) ∧
    (marshalP1D c p = none ↔ c.annEnc p.ann = none) ∧
    (marshalS2D c s = none ↔ c.annEnc s.ann = none) := by
  simp only [marshalH1D, marshalH2D, marshalP1D, marshalS2D]
  refine ⟨?_, ?_, ?_, ?_⟩ <;> split <;> simp_all

end

end Verif.Hbook.Brio
