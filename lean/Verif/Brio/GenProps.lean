import Verif.Brio.Gen

/-!
# C163: what brio-gen's methods write is read back
-/
namespace Verif.Brio

/-! ## Specification -/

section
variable (X : Ext)

mutual
/-- A value that Go can hold: arrays have their length, lengths fit in an `int`. -/
def Ok : (t : Ty) → t.Val X → Prop
  | .str, v => List.length v < 2 ^ 63
  | .anon fs, v => OkF fs v
  | .named fs, v => OkF fs v
  | .arr n e, v => List.length v = n ∧ ∀ x ∈ (show List (e.Val X) from v), Ok e x
  | .sli e, v => List.length v < 2 ^ 63 ∧ ∀ x ∈ (show List (e.Val X) from v), Ok e x
  | .ptr e, v => ∀ x ∈ (show Option (e.Val X) from v), Ok e x
  | _, _ => True
def OkF : (fs : Flds) → fs.Val X → Prop
  | .nil, _ => True
  | .cons t fs, v => Ok t v.1 ∧ OkF fs v.2
end
end

mutual
/-- The types without the constructs whose code goes wrong: slices of bytes, pointers to objects
with methods of their own, arrays as elements, booleans, arrays of bytes. -/
def faultless : Ty → Bool
  | .bool => false
  | .anon fs => faultlessF fs
  | .named fs => faultlessF fs
  | .arr _ .byte => false
  | .arr _ (.arr _ _) => false
  | .arr _ e => faultless e
  | .sli .byte => false
  | .sli (.arr _ _) => false
  | .sli e => faultless e
  | .ptr (.ext _) => false
  | .ptr e => faultless e
  | _ => true
def faultlessF : Flds → Bool
  | .nil => true
  | .cons t fs => faultless t && faultlessF fs
end

/-- The foreign types can be read back. -/
def Ext.Lossless (X : Ext) : Prop := ∀ k v b, X.enc k v = some b → X.dec k b = some v

section
variable (X : Ext)

/-- `d` is the number of bytes of `c` in eight bytes, little end first, and then `c`. -/
def Prefixed (n : Nat) (c d : Data) : Prop :=
  ∃ h : Data, h.length = 8 ∧ leDec h = n ∧ d = h ++ c

/-- `d` is the bytes of the elements one after the other. -/
inductive Row {α : Type} (R : α → Data → Prop) : List α → Data → Prop
  | nil : Row R [] []
  | cons {x : α} {xs : List α} {a b : Data} : R x a → Row R xs b → Row R (x :: xs) (a ++ b)

mutual
/-- The format: numbers in little-endian order, strings, slices and objects behind their length,
fields, elements and what a pointer points to just so. -/
def Wire : (t : Ty) → t.Val X → Data → Prop
  | .bool, v, d => d = [cond v 1 0]
  | .byte, v, d => d = [v]
  | .word w, v, d => d.length = w ∧ leDec d = BitVec.toNat v
  | .c64, v, d => ∃ a b : Data, d = a ++ b ∧ a.length = 4 ∧ leDec a = BitVec.toNat v.1 ∧
      b.length = 4 ∧ leDec b = BitVec.toNat v.2
  | .c128, v, d => ∃ a b : Data, d = a ++ b ∧ a.length = 8 ∧ leDec a = BitVec.toNat v.1 ∧
      b.length = 8 ∧ leDec b = BitVec.toNat v.2
  | .str, v, d => Prefixed (List.length v) v d
  | .anon fs, v, d => WireF fs v d
  | .named fs, v, d => ∃ c, WireF fs v c ∧ Prefixed c.length c d
  | .ext k, v, d => ∃ c, X.enc k v = some c ∧ Prefixed c.length c d
  | .arr _ e, v, d => Row (Wire e) v d
  | .sli e, v, d => ∃ c, Row (Wire e) v c ∧ Prefixed (List.length v) c d
  | .ptr e, v, d => ∃ x, v = some x ∧ Wire e x d
def WireF : (fs : Flds) → fs.Val X → Data → Prop
  | .nil, _, d => d = []
  | .cons t fs, v, d => ∃ a b : Data, d = a ++ b ∧ Wire t v.1 a ∧ WireF fs v.2 b
end

mutual
/-- No pointer is nil and the foreign objects can be written. -/
def Full : (t : Ty) → t.Val X → Prop
  | .anon fs, v => FullF fs v
  | .named fs, v => FullF fs v
  | .ext k, v => ∃ c, X.enc k v = some c
  | .arr _ e, v => ∀ x ∈ (show List (e.Val X) from v), Full e x
  | .sli e, v => ∀ x ∈ (show List (e.Val X) from v), Full e x
  | .ptr e, v => ∃ x, v = some x ∧ Full e x
  | _, _ => True
def FullF : (fs : Flds) → fs.Val X → Prop
  | .nil, _ => True
  | .cons t fs, v => Full t v.1 ∧ FullF fs v.2
end
end

/-- `t` is the type of one of the fields. -/
def Flds.Has (t : Ty) : Flds → Prop
  | .nil => False
  | .cons u fs => u = t ∨ fs.Has t

/-- The types that hold one number or one string. -/
def Ty.scalar : Ty → Bool
  | .bool => true
  | .word _ => true
  | .c64 => true
  | .c128 => true
  | .str => true
  | _ => false

/-- Types of fields for which the printed code does not compile: booleans, `complex64`, arrays of
bytes, arrays and slices of numbers and strings, of pointers, of slices. -/
inductive Refused : Ty → Prop
  | bool : Refused .bool
  | c64 : Refused .c64
  | bytes (n : Nat) : Refused (.arr n .byte)
  | arrScalar (n : Nat) (e : Ty) : e.scalar = true → Refused (.arr n e)
  | sliScalar (e : Ty) : e.scalar = true → Refused (.sli e)
  | arrPtr (n : Nat) (e : Ty) : Refused (.arr n (.ptr e))
  | sliPtr (e : Ty) : Refused (.sli (.ptr e))
  | arrSli (n : Nat) (e : Ty) : Refused (.arr n (.sli e))
  | sliSli (e : Ty) : Refused (.sli (.sli e))

/-! ## Places -/

/-- The laws of a place whose name does not depend on `i`: over the objects `P` it holds a value
with `Q`, and any value with `Q` can be written. -/
structure Law {S α : Type} (l : LV S α) (P : S → Prop) (Q : α → Prop) : Prop where
  cg : ∀ i j, l.get i = l.get j
  cs : ∀ i j, l.set i = l.set j
  get : ∀ i s, P s → ∃ v, l.get i s = some v ∧ Q v
  set : ∀ i s v, P s → Q v → ∃ s', l.set i v s = some s' ∧ P s' ∧ l.get i s' = some v ∧
    ∀ w, l.set i w s' = l.set i w s
  same : ∀ i s v, P s → l.get i s = some v → l.set i v s = some s

theorem law_whole {α : Type} (Q : α → Prop) : Law (whole α) Q Q := by
  refine ⟨fun _ _ => rfl, fun _ _ => rfl, fun i s h => ⟨s, rfl, h⟩,
    fun i s v h hv => ⟨v, rfl, hv, rfl, fun _ => rfl⟩, fun i s v h hg => ?_⟩
  simp only [whole, Option.some.injEq] at hg ⊢
  exact hg.symm

theorem Law.fst {S α β : Type} {l : LV S (α × β)} {P : S → Prop} {A : α → Prop} {B : β → Prop}
    (h : Law l P (fun p => A p.1 ∧ B p.2)) : Law l.fst P A := by
  refine ⟨fun i j => ?_, fun i j => ?_, fun i s hs => ?_, fun i s a hs ha => ?_,
    fun i s a hs hg => ?_⟩
  · funext s; simp only [LV.fst, h.cg i j]
  · funext a s; simp only [LV.fst, h.cg i j, h.cs i j]
  · obtain ⟨v, hv, hq⟩ := h.get i s hs
    exact ⟨v.1, by simp [LV.fst, hv], hq.1⟩
  · obtain ⟨v, hv, hq⟩ := h.get i s hs
    obtain ⟨s', h1, h2, h3, h4⟩ := h.set i s (a, v.2) hs ⟨ha, hq.2⟩
    refine ⟨s', by simp [LV.fst, hv, h1], h2, by simp [LV.fst, h3], fun w => ?_⟩
    simp [LV.fst, h3, hv, h4]
  · obtain ⟨v, hv, hq⟩ := h.get i s hs
    simp only [LV.fst, hv, Option.map_some, Option.some.injEq] at hg
    subst hg
    simpa [LV.fst, hv] using h.same i s v hs hv

theorem Law.snd {S α β : Type} {l : LV S (α × β)} {P : S → Prop} {A : α → Prop} {B : β → Prop}
    (h : Law l P (fun p => A p.1 ∧ B p.2)) : Law l.snd P B := by
  refine ⟨fun i j => ?_, fun i j => ?_, fun i s hs => ?_, fun i s a hs ha => ?_,
    fun i s a hs hg => ?_⟩
  · funext s; simp only [LV.snd, h.cg i j]
  · funext a s; simp only [LV.snd, h.cg i j, h.cs i j]
  · obtain ⟨v, hv, hq⟩ := h.get i s hs
    exact ⟨v.2, by simp [LV.snd, hv], hq.2⟩
  · obtain ⟨v, hv, hq⟩ := h.get i s hs
    obtain ⟨s', h1, h2, h3, h4⟩ := h.set i s (v.1, a) hs ⟨hq.1, ha⟩
    refine ⟨s', by simp [LV.snd, hv, h1], h2, by simp [LV.snd, h3], fun w => ?_⟩
    simp [LV.snd, h3, hv, h4]
  · obtain ⟨v, hv, hq⟩ := h.get i s hs
    simp only [LV.snd, hv, Option.map_some, Option.some.injEq] at hg
    subst hg
    simpa [LV.snd, hv] using h.same i s v hs hv

/-- The place of element `j`, over the objects in which the list has `N` elements. -/
theorem Law.pin {S α : Type} {l : LV S (List α)} {P : S → Prop} {Q : List α → Prop}
    {A : α → Prop} {N : Nat} (h : Law l P Q)
    (hQ : ∀ xs : List α, xs.length = N → (∀ x ∈ xs, A x) → Q xs)
    (hA : ∀ xs : List α, Q xs → ∀ x ∈ xs, A x) {j : Nat} (hj : j < N) :
    Law (l.pin j) (fun s => P s ∧ ∃ xs, l.get 0 s = some xs ∧ xs.length = N) A := by
  refine ⟨fun _ _ => rfl, fun _ _ => rfl, fun i s hs => ?_, fun i s a hs ha => ?_,
    fun i s a hs hg => ?_⟩
  · obtain ⟨hp, xs, hx, hn⟩ := hs
    have hq : Q xs := by
      obtain ⟨v, hv, hq⟩ := h.get 0 s hp
      rw [hx] at hv; cases hv; exact hq
    refine ⟨xs[j]'(by omega), ?_, hA xs hq _ (List.getElem_mem _)⟩
    simp only [LV.pin, LV.ix, h.cg j 0, hx, Option.bind_some]
    exact List.getElem?_eq_getElem _
  · obtain ⟨hp, xs, hx, hn⟩ := hs
    have hq : Q xs := by
      obtain ⟨v, hv, hq⟩ := h.get 0 s hp
      rw [hx] at hv; cases hv; exact hq
    have hq' : Q (xs.set j a) := by
      refine hQ _ (by simpa using hn) fun x hx => ?_
      rcases List.mem_or_eq_of_mem_set hx with h1 | h1
      · exact hA xs hq x h1
      · exact h1 ▸ ha
    obtain ⟨s', h1, h2, h3, h4⟩ := h.set 0 s (xs.set j a) hp hq'
    refine ⟨s', ?_, ⟨h2, _, h3, by simpa using hn⟩, ?_, fun w => ?_⟩
    · simp only [LV.pin, LV.ix, h.cg j 0, h.cs j 0, hx, Option.bind_some]
      rw [if_pos (by omega), h1]
    · simp only [LV.pin, LV.ix, h.cg j 0, h3, Option.bind_some]
      rw [List.getElem?_set_self (by omega)]
    · simp only [LV.pin, LV.ix, h.cg j 0, h.cs j 0, hx, h3, Option.bind_some]
      simp [h4]
  · obtain ⟨hp, xs, hx, hn⟩ := hs
    simp only [LV.pin, LV.ix, h.cg j 0, h.cs j 0, hx, Option.bind_some] at hg ⊢
    rw [if_pos (by omega)]
    have : xs.set j a = xs := by
      rw [List.getElem?_eq_some_iff] at hg
      obtain ⟨hlt, rfl⟩ := hg
      exact List.set_getElem_self hlt
    rw [this]
    exact h.same 0 s xs hp hx

/-! ## Data -/

theorem leEnc_length (k n : Nat) : (leEnc k n).length = k := by
  induction k generalizing n with
  | zero => rfl
  | succ k ih => simp [leEnc, ih]

theorem cut_append {k : Nat} {a r : Data} (h : a.length = k) : cut k (a ++ r) = some (a, r) := by
  subst h
  simp [cut]

theorem getLen_append {n : Nat} (h : n < 2 ^ 63) (r : Data) :
    getLen (leEnc 8 n ++ r) = some (n, r) := by
  rw [getLen, cut_append (leEnc_length 8 n)]
  simp only [Option.bind_some]
  rw [leDec_leEnc_of_lt (by omega), if_pos h]

theorem getWord_append {S : Type} {w : Nat} {l : LV S (BitVec (8 * w))} {i : Nat} {s : S}
    {v : BitVec (8 * w)} {r : Data} :
    getWord w l i s (leEnc w v.toNat ++ r) = (l.set i v s).map fun s' => (s', r) := by
  rw [getWord, cut_append (leEnc_length _ _)]
  simp only [Option.bind_some]
  rw [leDec_leEnc_of_lt (by
    have := v.isLt
    rwa [Nat.pow_mul] at this), BitVec.ofNat_toNat, BitVec.setWidth_eq]

theorem getPair_append {S : Type} {l : LV S (BitVec 64 × BitVec 64)} {i : Nat} {s : S}
    {v : BitVec 64 × BitVec 64} {r : Data} :
    getPair 8 64 l i s (leEnc 8 v.1.toNat ++ leEnc 8 v.2.toNat ++ r) =
      (l.set i v s).map fun s' => (s', r) := by
  rw [getPair, List.append_assoc, cut_append (leEnc_length _ _)]
  simp only [Option.bind_some]
  rw [cut_append (leEnc_length _ _)]
  simp only [Option.bind_some]
  have h1 := v.1.isLt
  have h2 := v.2.isLt
  rw [leDec_leEnc_of_lt (by omega), leDec_leEnc_of_lt (by omega), BitVec.ofNat_toNat,
    BitVec.ofNat_toNat, BitVec.setWidth_eq, BitVec.setWidth_eq]

theorem getStr_append {S : Type} {l : LV S (List UInt8)} {i : Nat} {s : S} {v : List UInt8}
    {r : Data} (h : v.length < 2 ^ 63) :
    getStr l i s (sized v ++ r) = (l.set i v s).map fun s' => (s', r) := by
  rw [getStr, sized, List.append_assoc, getLen_append h]
  simp only [Option.bind_some]
  rw [cut_append rfl]
  rfl

theorem getSub_append {S α : Type} {l : LV S α} {f : α → Data → Option α} {i : Nat} {s : S}
    {v z : α} {b r : Data} (h : b.length < 2 ^ 63) (hz : l.get i s = some z)
    (hf : f z b = some v) :
    getSub l f i s (sized b ++ r) = (l.set i v s).map fun s' => (s', r) := by
  rw [getSub, sized, List.append_assoc, getLen_append h]
  simp only [Option.bind_some]
  rw [cut_append rfl]
  simp only [Option.bind_some, hz, hf]

/-! ## The loop -/

/-- A loop that reads the elements one after the other fills the list. -/
theorem loop_fill {S α : Type} {l : LV S (List α)} {P : S → Prop} {Q : List α → Prop}
    {A : α → Prop} {N : Nat} (h : Law l P Q)
    (hQ : ∀ xs : List α, xs.length = N → (∀ x ∈ xs, A x) → Q xs)
    (hA : ∀ xs : List α, Q xs → ∀ x ∈ xs, A x)
    {enc : α → Option Data} {f : Nat → S → Data → Option (S × Data)}
    (vs : List α) (hlen : vs.length = N) (hvs : ∀ x ∈ vs, A x)
    {M : Nat}
    (hf : ∀ (j : Nat) (_ : j < N) (s : S) (v : α) (b r : Data), A v → enc v = some b →
      b.length ≤ M →
      (P s ∧ ∃ xs, l.get 0 s = some xs ∧ xs.length = N) →
      ∃ s', (l.pin j).set j v s = some s' ∧ f j s (b ++ r) = some (s', r)) :
    ∀ (k j : Nat) (s : S) (xs : List α) (ys : List α) (b r : Data), j + k = N →
      vs.drop j = ys → each enc ys = some b → b.length ≤ M →
      P s → l.get 0 s = some xs → xs.length = N → xs.take j = vs.take j →
      ∃ s', P s' ∧ l.get 0 s' = some vs ∧ (∀ w, l.set 0 w s' = l.set 0 w s) ∧
        loop f j k s (b ++ r) = some (s', r) := by
  intro k
  induction k with
  | zero =>
    intro j s xs ys b r hjk hys hb hM hP hx hn ht
    have hj : j = N := by omega
    have : ys = [] := by rw [← hys, List.drop_eq_nil_iff]; omega
    subst this
    simp only [each, Option.some.injEq] at hb
    subst hb
    have hxv : xs = vs := by
      rw [List.take_of_length_le (by omega), List.take_of_length_le (by omega)] at ht
      exact ht
    subst hxv
    exact ⟨s, hP, hx, fun _ => rfl, rfl⟩
  | succ k ih =>
    intro j s xs ys b r hjk hys hb hM hP hx hn ht
    have hj : j < N := by omega
    have hjv : j < vs.length := by omega
    rw [List.drop_eq_getElem_cons hjv] at hys
    subst hys
    simp only [each] at hb
    cases he : enc vs[j] with
    | none => simp [he] at hb
    | some b1 =>
      simp only [he, Option.bind_some] at hb
      cases he2 : each enc (vs.drop (j + 1)) with
      | none => simp [he2] at hb
      | some b2 =>
        simp only [he2, Option.map_some, Option.some.injEq] at hb
        subst hb
        have hA1 : A vs[j] := hvs _ (List.getElem_mem _)
        have hl : b1.length ≤ M ∧ b2.length ≤ M := by
          simp only [List.length_append] at hM; omega
        obtain ⟨s1, hs1, hf1⟩ := hf j hj s vs[j] b1 (b2 ++ r) hA1 he hl.1 ⟨hP, xs, hx, hn⟩
        have hlaw := h.pin hQ hA hj
        obtain ⟨s1', g1, ⟨g2, xs1, g3, g4⟩, -, -⟩ :=
          hlaw.set j s vs[j] ⟨hP, xs, hx, hn⟩ hA1
        rw [hs1] at g1
        cases g1
        have hset : l.set 0 (xs.set j vs[j]) s = some s1 := by
          simp only [LV.pin, LV.ix, h.cg j 0, h.cs j 0, hx, Option.bind_some] at hs1
          rwa [if_pos (by omega)] at hs1
        have hq' : Q (xs.set j vs[j]) := by
          have hq : Q xs := by
            obtain ⟨v, hv, hq⟩ := h.get 0 s hP
            rw [hx] at hv; cases hv; exact hq
          refine hQ _ (by simpa using hn) fun x hx => ?_
          rcases List.mem_or_eq_of_mem_set hx with h1 | h1
          · exact hA xs hq x h1
          · exact h1 ▸ hA1
        obtain ⟨s2, e1, e2, e3, e4⟩ := h.set 0 s (xs.set j vs[j]) hP hq'
        rw [hset] at e1
        cases e1
        obtain ⟨s', q1, q2, q3, q4⟩ := ih (j + 1) s1 (xs.set j vs[j]) _ b2 r (by omega) rfl he2
          hl.2 e2 e3 (by simpa using hn) (by
            rw [List.take_succ_eq_append_getElem (by simpa using (by omega : j < xs.length)),
              List.take_succ_eq_append_getElem hjv, List.take_set_of_le (Nat.le_refl j), ht]
            simp)
        refine ⟨s', q1, q2, fun w => (q3 w).trans (e4 w), ?_⟩
        simp only [loop, List.append_assoc, hf1, Option.bind_some]
        exact q4

/-! ## All types -/

mutual
/-- The types whose code is right. -/
def plain : Ty → Bool
  | .bool => false
  | .c64 => false
  | .anon fs => plainF fs
  | .named fs => plainF fs
  | .arr _ e => e.isStruct && plain e
  | .sli e => e.isStruct && plain e
  | .ptr (.ext _) => false
  | .ptr e => plain e
  | _ => true
def plainF : Flds → Bool
  | .nil => true
  | .cons t fs => plain t && plainF fs
end


/-- A type that can be an element of a loop. -/
def elemish : Ty → Bool
  | .arr _ _ => true
  | .ptr _ => true
  | t => t.isStruct

mutual
theorem plain_of : ∀ (t : Ty) (p hi hn v : Bool), mC t p = true → faultless t = true →
    uC t hi hn v = true → plain t = true ∧ (p = true → elemish t = true)
  | .bool, p, _, _, _, h1, h2, h3 => by simp [faultless] at h2
  | .byte, p, _, _, _, h1, h2, h3 => by simp_all [plain, mC]
  | .word _, p, _, _, _, h1, h2, h3 => by simp_all [plain, mC]
  | .c64, p, _, _, _, h1, h2, h3 => by simp [mC] at h1
  | .c128, p, _, _, _, h1, h2, h3 => by simp_all [plain, mC]
  | .str, p, _, _, _, h1, h2, h3 => by simp_all [plain, mC]
  | .ext _, p, _, _, _, h1, h2, h3 => by simp [plain, elemish, Ty.isStruct]
  | .anon fs, p, hi, hn, v, h1, h2, h3 => by
    simp only [mC, faultless, uC] at h1 h2 h3
    exact ⟨plainF_of fs hi hn v h1 h2 h3, fun _ => rfl⟩
  | .named fs, p, hi, hn, v, h1, h2, h3 => by
    simp only [mC, faultless, Bool.and_eq_true] at h1 h2
    exact ⟨plainF_of fs false false false h1.1.1 h2 h1.1.2, fun _ => rfl⟩
  | .arr m e, p, hi, hn, v, h1, h2, h3 => by
    refine ⟨?_, fun _ => rfl⟩
    have ih := fun a b c d => plain_of e a b c d
    cases e <;> simp [mC, faultless, uC, usesT] at h1 h2 h3
    case anon fs =>
      simp only [plain, Ty.isStruct, Bool.true_and]
      exact (ih true true hn (v && !(Ty.anon fs).isStruct) h1.2 h2 (by simpa [uC] using h3.2)).1
    case named fs =>
      simp only [plain, Ty.isStruct, Bool.true_and]
      exact (ih true true hn false (by simpa [mC] using h1) h2 rfl).1
    case ext k => rfl
    case sli e' => exact absurd ((ih true true hn _ h1 h2 h3).2 rfl) (by simp [elemish, Ty.isStruct])
  | .sli e, p, hi, hn, v, h1, h2, h3 => by
    have ih := fun a b c d => plain_of e a b c d
    cases e <;> simp [mC, faultless, uC, usesT] at h1 h2 h3
    case anon fs =>
      refine ⟨?_, fun hp => by simp [hp] at h1⟩
      simp only [plain, Ty.isStruct, Bool.true_and]
      exact (ih true true true (v && !(Ty.anon fs).isStruct) h1.2 h2 (by simpa [uC] using h3.2)).1
    case named fs =>
      refine ⟨?_, fun hp => by simp [hp] at h1⟩
      simp only [plain, Ty.isStruct, Bool.true_and]
      exact (ih true true true false (by simpa [mC] using h1.2) h2 rfl).1
    case ext k => exact ⟨rfl, fun hp => by simp [hp] at h1⟩
    case sli e' =>
      exact absurd ((ih true true true _ h1.2 h2 h3).2 rfl) (by simp [elemish, Ty.isStruct])
  | .ptr e, p, hi, hn, v, h1, h2, h3 => by
    refine ⟨?_, fun _ => rfl⟩
    have key : ∀ (hx : ∀ k, e ≠ .ext k), plain (.ptr e) = true := by
      intro hx
      have ih := fun a b c d => plain_of e a b c d
      rw [mC] at h1 <;> try exact hx
      rw [uC] at h3 <;> try exact hx
      rw [faultless] at h2 <;> try exact hx
      rw [plain] <;> try exact hx
      simp only [Bool.and_eq_true] at h1 h3
      exact (ih false hi hn true h1.2 h2 h3.2).1
    cases e
    case ext k => simp [faultless] at h2
    all_goals exact key fun k hk => by cases hk
theorem plainF_of : ∀ (fs : Flds) (hi hn v : Bool), mCF fs = true → faultlessF fs = true →
    uCF fs hi hn v = true → plainF fs = true
  | .nil, _, _, _, _, _, _ => rfl
  | .cons t fs, hi, hn, v, h1, h2, h3 => by
    simp only [mCF, faultlessF, uCF, Bool.and_eq_true] at h1 h2 h3
    simp only [plainF, Bool.and_eq_true]
    exact ⟨(plain_of t false hi hn v h1.1 h2.1 h3.1).1, plainF_of fs hi hn v h1.2 h2.2 h3.2⟩
end

section
variable {X : Ext}

mutual
theorem zero_ok : ∀ t, Ok X t (zeroT X t)
  | .bool => trivial
  | .byte => trivial
  | .word _ => trivial
  | .c64 => trivial
  | .c128 => trivial
  | .str => by show (0 : Nat) < 2 ^ 63; decide
  | .anon fs => zeroF_ok fs
  | .named fs => zeroF_ok fs
  | .ext _ => trivial
  | .arr n e => ⟨List.length_replicate .., fun x hx => by
      have h : x = zeroT X e := List.eq_of_mem_replicate hx
      exact h ▸ zero_ok e⟩
  | .sli e => ⟨by show (0 : Nat) < 2 ^ 63; decide, fun x hx => by cases hx⟩
  | .ptr e => fun x hx => by cases hx
theorem zeroF_ok : ∀ fs, OkF X fs (zeroF X fs)
  | .nil => trivial
  | .cons t fs => ⟨zero_ok t, zeroF_ok fs⟩
end

theorem unT_arr {m : Nat} {e : Ty} (h : e.isStruct = true) {S : Type}
    (l : LV S (List (e.Val X))) (i n : Nat) (s : S) (d : Data) :
    unT X (.arr m e) l i n s d = loop (fun j s d => unT X e (l.pin j) j n s d) 0 m s d := by
  cases e <;> first | rfl | (simp [Ty.isStruct] at h)

theorem unT_sli {e : Ty} (h : e.isStruct = true) {S : Type}
    (l : LV S (List (e.Val X))) (i n : Nat) (s : S) (d : Data) :
    unT X (.sli e) l i n s d =
      getSli l (zeroT X e) (fun n j s d => unT X e (l.pin j) j n s d) i s d := by
  cases e <;> first | rfl | (simp [Ty.isStruct] at h)

theorem unT_ptr {e : Ty} (h : ∀ k, e ≠ .ext k) {S : Type}
    (l : LV S (Option (e.Val X))) (i n : Nat) (s : S) (d : Data) :
    unT X (.ptr e) l i n s d =
      getPtr l (unT X e (whole (e.Val X)) i n (zeroT X e) d) i s := by
  cases e <;> first | rfl | exact absurd rfl (h _)

theorem plain_ptr {e : Ty} (h : plain (.ptr e) = true) : (∀ k, e ≠ .ext k) ∧ plain e = true := by
  cases e
  case ext k => simp [plain] at h
  all_goals exact ⟨fun k hk => (by cases hk), h⟩

/-- What the code for a value has to do. -/
def Reads {S α : Type} (l : LV S α) (f : Nat → Nat → S → Data → Option (S × Data)) (i n : Nat)
    (s : S) (v : α) (b r : Data) : Prop :=
  ∃ s', l.set i v s = some s' ∧ f i n s (b ++ r) = some (s', r)

theorem Reads.of_eq {S α : Type} {l : LV S α} {P : S → Prop} {Q : α → Prop} (h : Law l P Q)
    {f : Nat → Nat → S → Data → Option (S × Data)} {i n : Nat} {s : S} {v : α} {b r : Data}
    (hP : P s) (hQ : Q v) (he : f i n s (b ++ r) = (l.set i v s).map fun s' => (s', r)) :
    Reads l f i n s v b r := by
  obtain ⟨s', h1, -⟩ := h.set i s v hP hQ
  exact ⟨s', h1, by rw [he, h1]; rfl⟩

theorem getByte_append {S : Type} {l : LV S UInt8} {i : Nat} {s : S} {v : UInt8} {r : Data} :
    getByte l i s ([v] ++ r) = (l.set i v s).map fun s' => (s', r) := by
  rw [getByte]
  show Option.bind (some v) _ = _
  simp only [Option.bind_some]
  cases l.set i v s with
  | none => rfl
  | some s' => simp [cut]

/-- A loop over all elements, each read in its place. -/
theorem reads_loop {S α : Type} {l : LV S (List α)} {P : S → Prop} {Q : List α → Prop}
    {A : α → Prop} {N : Nat} (h : Law l P Q)
    (hQ : ∀ xs : List α, xs.length = N → (∀ x ∈ xs, A x) → Q xs)
    (hA : ∀ xs : List α, Q xs → ∀ x ∈ xs, A x)
    {enc : α → Option Data} {f : Nat → S → Data → Option (S × Data)}
    {vs : List α} (hlen : vs.length = N) (hvs : ∀ x ∈ vs, A x) {b r : Data}
    (hb : each enc vs = some b)
    (hf : ∀ (j : Nat) (_ : j < N) (s : S) (v : α) (c r : Data), A v → enc v = some c →
      c.length ≤ b.length → (P s ∧ ∃ xs, l.get 0 s = some xs ∧ xs.length = N) →
      ∃ s', (l.pin j).set j v s = some s' ∧ f j s (c ++ r) = some (s', r))
    {i : Nat} {s : S} (hP : P s) {xs : List α} (hx : l.get 0 s = some xs) (hn : xs.length = N) :
    ∃ s', l.set i vs s = some s' ∧ loop f 0 N s (b ++ r) = some (s', r) := by
  obtain ⟨s', q1, q2, q3, q4⟩ := loop_fill h hQ hA vs hlen hvs (M := b.length) hf N 0 s xs vs b r
    (by omega) (by simp) hb (le_refl' _) hP hx hn (by simp)
  refine ⟨s', ?_, q4⟩
  rw [h.cs i 0, ← q3]
  exact h.same 0 s' vs q1 q2
where
  le_refl' (n : Nat) : n ≤ n := Nat.le_refl n

theorem fst_set {S α β : Type} {l : LV S (α × β)} {i : Nat} {s : S} {p : α × β}
    (h : l.get i s = some p) (a : α) : l.fst.set i a s = l.set i (a, p.2) s := by
  simp only [LV.fst, h, Option.bind_some]

theorem snd_set {S α β : Type} {l : LV S (α × β)} {i : Nat} {s : S} {p : α × β}
    (h : l.get i s = some p) (b : β) : l.snd.set i b s = l.set i (p.1, b) s := by
  simp only [LV.snd, h, Option.bind_some]

theorem getSli_append {S α : Type} {l : LV S (List α)} {z : α}
    {f : Nat → Nat → S → Data → Option (S × Data)} {i n : Nat} {s s0 : S} {r : Data}
    (hn : n < 2 ^ 63) (h : l.set i (List.replicate n z) s = some s0) :
    getSli l z f i s (leEnc 8 n ++ r) = loop (f n) 0 n s0 r := by
  rw [getSli, getLen_append hn]
  simp only [Option.bind_some, h]

theorem getPtr_some {S α : Type} {l : LV S (Option α)} {i : Nat} {s : S} {w : α} {r : Data}
    {o : Option (α × Data)} (h : o = some (w, r)) :
    getPtr l o i s = (l.set i (some w) s).map fun s' => (s', r) := by
  subst h; rfl

mutual
theorem readT (hX : X.Lossless) : ∀ (t : Ty), plain t = true → ∀ {S : Type} {l : LV S (t.Val X)}
    {P : S → Prop}, Law l P (Ok X t) → ∀ (i n : Nat) (s : S) (v : t.Val X) (b r : Data), P s →
    Ok X t v → marT X t v = some b → b.length < 2 ^ 63 → Reads l (unT X t l) i n s v b r
  | .bool, hp, _, _, _, _, _, _, _, _, _, _, _, _, _, _ => by simp [plain] at hp
  | .c64, hp, _, _, _, _, _, _, _, _, _, _, _, _, _, _ => by simp [plain] at hp
  | .byte, _, _, _, _, law, i, n, s, v, b, r, hP, hv, hb, _ => by
    simp only [marT, Option.some.injEq] at hb
    subst hb
    exact Reads.of_eq law hP hv getByte_append
  | .word w, _, _, _, _, law, i, n, s, v, b, r, hP, hv, hb, _ => by
    simp only [marT, Option.some.injEq] at hb
    subst hb
    exact Reads.of_eq law hP hv getWord_append
  | .c128, _, _, _, _, law, i, n, s, v, b, r, hP, hv, hb, _ => by
    simp only [marT, Option.some.injEq] at hb
    subst hb
    exact Reads.of_eq law hP hv getPair_append
  | .str, _, _, _, _, law, i, n, s, v, b, r, hP, hv, hb, _ => by
    simp only [marT, Option.some.injEq] at hb
    subst hb
    exact Reads.of_eq law hP hv (getStr_append hv)
  | .anon fs, hp, _, _, _, law, i, n, s, v, b, r, hP, hv, hb, hl => by
    exact readF hX fs hp law i n s v b r hP hv hb hl
  | .named fs, hp, _, l, _, law, i, n, s, v, b, r, hP, hv, hb, hl => by
    simp only [marT, Option.map_eq_some_iff] at hb
    obtain ⟨c, hc, rfl⟩ := hb
    obtain ⟨z, hz, hzo⟩ := law.get i s hP
    have hcl : c.length < 2 ^ 63 := by
      simp only [sized, List.length_append] at hl; omega
    refine Reads.of_eq law hP hv (getSub_append hcl hz ?_)
    obtain ⟨s', h1, h2⟩ := readF hX fs hp (law_whole (OkF X fs)) 0 0 z v c [] hzo hv hc hcl
    obtain rfl : v = s' := Option.some.inj h1
    rw [List.append_nil] at h2
    exact congrArg (Option.map Prod.fst) h2
  | .ext k, _, _, l, _, law, i, n, s, v, b, r, hP, hv, hb, hl => by
    simp only [marT, Option.map_eq_some_iff] at hb
    obtain ⟨c, hc, rfl⟩ := hb
    obtain ⟨z, hz, hzo⟩ := law.get i s hP
    have hcl : c.length < 2 ^ 63 := by
      simp only [sized, List.length_append] at hl; omega
    exact Reads.of_eq law hP hv (getSub_append hcl hz (hX k v c hc))
  | .arr m e, hp, S, l, P, law, i, n, s, v, b, r, hP, hv, hb, hl => by
    have hp' : e.isStruct = true ∧ plain e = true := by simpa [plain] using hp
    obtain ⟨xs, hx, hxo⟩ := law.get 0 s hP
    have hQ : ∀ ys : List (e.Val X), ys.length = m → (∀ x ∈ ys, Ok X e x) → Ok X (.arr m e) ys :=
      fun ys h1 h2 => ⟨h1, h2⟩
    have hA : ∀ ys : List (e.Val X), Ok X (.arr m e) ys → ∀ x ∈ ys, Ok X e x := fun ys h => h.2
    have hf : ∀ (j : Nat) (_ : j < m) (s : S) (w : e.Val X) (c r : Data), Ok X e w →
        marT X e w = some c → c.length ≤ b.length →
        (P s ∧ ∃ xs : List (e.Val X), l.get 0 s = some xs ∧ xs.length = m) →
        ∃ s', (LV.pin (α := e.Val X) l j).set j w s = some s' ∧
          unT X e (LV.pin (α := e.Val X) l j) j n s (c ++ r) = some (s', r) := by
      intro j hj s w c r hw hc hcl hs
      exact readT hX e hp'.2 (Law.pin (α := e.Val X) law hQ hA hj) j n s w c r hs hw hc
        (Nat.lt_of_le_of_lt hcl hl)
    obtain ⟨s', h1, h2⟩ := reads_loop (α := e.Val X) law hQ hA hv.1 hv.2 (b := b) (r := r)
      (enc := marT X e) hb hf (i := i) hP hx hxo.1
    exact ⟨s', h1, (unT_arr hp'.1 l i n s (b ++ r)).trans h2⟩
  | .sli e, hp, S, l, P, law, i, n, s, v, b, r, hP, hv, hb, hl => by
    have hp' : e.isStruct = true ∧ plain e = true := by simpa [plain] using hp
    simp only [marT, Option.map_eq_some_iff] at hb
    obtain ⟨c, hc, rfl⟩ := hb
    have hv1 : List.length v < 2 ^ 63 := hv.1
    have hlen : (leEnc 8 (List.length v) ++ c).length = 8 + c.length := by
      rw [List.length_append, leEnc_length]
    have hQ : ∀ ys : List (e.Val X), ys.length = List.length v → (∀ x ∈ ys, Ok X e x) →
        Ok X (.sli e) ys := fun ys h1 h2 => ⟨by rw [h1]; exact hv1, h2⟩
    have hA : ∀ ys : List (e.Val X), Ok X (.sli e) ys → ∀ x ∈ ys, Ok X e x := fun ys h => h.2
    have hz : Ok X (.sli e) (List.replicate (List.length v) (zeroT X e)) :=
      hQ _ (List.length_replicate ..) fun x hx => by
        have h : x = zeroT X e := List.eq_of_mem_replicate hx
        exact h ▸ zero_ok e
    obtain ⟨s0, e1, e2, e3, e4⟩ := law.set i s _ hP hz
    have hf : ∀ (j : Nat) (_ : j < List.length v) (s : S) (w : e.Val X) (d r : Data), Ok X e w →
        marT X e w = some d → d.length ≤ c.length →
        (P s ∧ ∃ xs : List (e.Val X), l.get 0 s = some xs ∧ xs.length = List.length v) →
        ∃ s', (LV.pin (α := e.Val X) l j).set j w s = some s' ∧
          unT X e (LV.pin (α := e.Val X) l j) j (List.length v) s (d ++ r) = some (s', r) := by
      intro j hj s w d r hw hd hdl hs
      exact readT hX e hp'.2 (Law.pin (α := e.Val X) law hQ hA hj) j _ s w d r hs hw hd
        (by omega)
    obtain ⟨s', h1, h2⟩ := reads_loop (α := e.Val X) law hQ hA rfl hv.2 (b := c) (r := r)
      (enc := marT X e) hc hf (i := i) e2 ((law.cg 0 i ▸ e3 : l.get 0 s0 = _))
      (List.length_replicate ..)
    refine ⟨s', (e4 v).symm.trans h1, (unT_sli hp'.1 l i n s _).trans ?_⟩
    rw [List.append_assoc]
    exact (getSli_append hv1 e1).trans h2
  | .ptr e, hp, S, l, P, law, i, n, s, v, b, r, hP, hv, hb, hl => by
    obtain ⟨hx, hp'⟩ := plain_ptr hp
    obtain ⟨w, rfl, hw⟩ : ∃ w : e.Val X, v = some w ∧ marT X e w = some b :=
      Option.bind_eq_some_iff.1 hb
    have hwo : Ok X e w := hv w rfl
    obtain ⟨s', h1, h2⟩ := readT hX e hp' (law_whole (Ok X e)) i n (zeroT X e) w b r (zero_ok e)
      hwo hw hl
    obtain rfl : w = s' := Option.some.inj h1
    exact Reads.of_eq law hP hv ((unT_ptr hx l i n s _).trans (getPtr_some h2))
theorem readF (hX : X.Lossless) : ∀ (fs : Flds), plainF fs = true → ∀ {S : Type}
    {l : LV S (fs.Val X)} {P : S → Prop}, Law l P (OkF X fs) → ∀ (i n : Nat) (s : S)
    (v : fs.Val X) (b r : Data), P s → OkF X fs v → marF X fs v = some b → b.length < 2 ^ 63 →
    Reads l (unF X fs l) i n s v b r
  | .nil, _, _, l, _, law, i, n, s, v, b, r, hP, hv, hb, _ => by
    simp only [marF, Option.some.injEq] at hb
    subst hb
    obtain ⟨z, hz, -⟩ := law.get i s hP
    exact ⟨s, law.same i s v hP hz, rfl⟩
  | .cons t fs, hp, S, l, P, law, i, n, s, v, b, r, hP, hv, hb, hl => by
    have hp' : plain t = true ∧ plainF fs = true := by simpa [plainF] using hp
    simp only [marF, Option.bind_eq_some_iff, Option.map_eq_some_iff] at hb
    obtain ⟨b1, hb1, b2, hb2, rfl⟩ := hb
    rw [List.length_append] at hl
    obtain ⟨s1, g1, g2⟩ := readT hX t hp'.1 (Law.fst law) i n s v.1 b1 (b2 ++ r) hP hv.1 hb1
      (by omega)
    obtain ⟨p, hp1, hpo⟩ := law.get i s hP
    have hset : l.set i (v.1, p.2) s = some s1 := by
      exact (fst_set hp1 v.1).symm.trans g1
    obtain ⟨s1', k1, k2, k3, k4⟩ := law.set i s (v.1, p.2) hP ⟨hv.1, hpo.2⟩
    rw [hset] at k1
    cases k1
    obtain ⟨s2, f1, f2⟩ := readF hX fs hp'.2 (Law.snd law) i n s1 v.2 b2 r k2 hv.2 hb2 (by omega)
    refine ⟨s2, ?_, ?_⟩
    · rw [← k4]
      exact (snd_set k3 v.2).symm.trans f1
    · simp only [unF, List.append_assoc, g2, Option.bind_some]
      exact f2
end

/-! ## The theorems -/

/-- **C163.**  For every struct whose generated methods compile and that has no byte slice, no
pointer to an object with its own methods, no arrays of arrays and no booleans or byte arrays, at
any depth: what `MarshalBinary` returns for a value, followed by anything, is read back by
`UnmarshalBinary` as that value, whatever the object held before.  Missing, and false: the
constructs just named (`C163_bytes_counterexample` and after). -/
theorem C163_roundtrip_partial (hX : X.Lossless) {fs : Flds} (hc : compiles fs = true)
    (hf : faultlessF fs = true) {v z : fs.Val X} (hv : OkF X fs v) (hz : OkF X fs z)
    {b : Data} (hb : marshal X fs v = some b) (hl : b.length < 2 ^ 63) (r : Data) :
    unmarshal X fs z (b ++ r) = some v := by
  simp only [compiles, Bool.and_eq_true] at hc
  obtain ⟨s', h1, h2⟩ := readF hX fs (plainF_of fs false false false hc.1.1 hf hc.1.2)
    (law_whole (OkF X fs)) 0 0 z v b r hz hv hb hl
  obtain rfl : v = s' := Option.some.inj h1
  exact congrArg (Option.map Prod.fst) h2

theorem each_iff {α : Type} {f : α → Option Data} {F : α → Prop}
    (h : ∀ x, (∃ b, f x = some b) ↔ F x) (xs : List α) :
    (∃ b, each f xs = some b) ↔ ∀ x ∈ xs, F x := by
  induction xs with
  | nil => simp [each]
  | cons x xs ih =>
    simp only [each, Option.bind_eq_some_iff, Option.map_eq_some_iff, List.mem_cons,
      forall_eq_or_imp]
    constructor
    · rintro ⟨b, a, ha, c, hc, -⟩
      exact ⟨(h x).1 ⟨a, ha⟩, ih.1 ⟨c, hc⟩⟩
    · rintro ⟨h1, h2⟩
      obtain ⟨a, ha⟩ := (h x).2 h1
      obtain ⟨c, hc⟩ := ih.2 h2
      exact ⟨_, a, ha, c, hc, rfl⟩

mutual
theorem writtenT : ∀ (t : Ty) (v : t.Val X), (∃ b, marT X t v = some b) ↔ Full X t v
  | .bool, _ => ⟨fun _ => trivial, fun _ => ⟨_, rfl⟩⟩
  | .byte, _ => ⟨fun _ => trivial, fun _ => ⟨_, rfl⟩⟩
  | .word _, _ => ⟨fun _ => trivial, fun _ => ⟨_, rfl⟩⟩
  | .c64, _ => ⟨fun _ => trivial, fun _ => ⟨_, rfl⟩⟩
  | .c128, _ => ⟨fun _ => trivial, fun _ => ⟨_, rfl⟩⟩
  | .str, _ => ⟨fun _ => trivial, fun _ => ⟨_, rfl⟩⟩
  | .anon fs, v => writtenF fs v
  | .named fs, v => by
    refine Iff.trans ?_ (writtenF fs v)
    simp only [marT, Option.map_eq_some_iff]
    exact ⟨fun ⟨_, a, h, _⟩ => ⟨a, h⟩, fun ⟨a, h⟩ => ⟨_, a, h, rfl⟩⟩
  | .ext k, v => by
    simp only [marT, Option.map_eq_some_iff, Full]
    exact ⟨fun ⟨_, a, h, _⟩ => ⟨a, h⟩, fun ⟨a, h⟩ => ⟨_, a, h, rfl⟩⟩
  | .arr _ e, v => each_iff (writtenT e) v
  | .sli e, v => by
    refine Iff.trans ?_ (each_iff (writtenT e) v)
    simp only [marT, Option.map_eq_some_iff]
    exact ⟨fun ⟨_, a, h, _⟩ => ⟨a, h⟩, fun ⟨a, h⟩ => ⟨_, a, h, rfl⟩⟩
  | .ptr e, v => by
    simp only [Full]
    constructor
    · rintro ⟨b, hb⟩
      obtain ⟨x, hx, hy⟩ := Option.bind_eq_some_iff.1 hb
      exact ⟨x, hx, (writtenT e x).1 ⟨b, hy⟩⟩
    · rintro ⟨x, hx, hy⟩
      obtain ⟨b, hb⟩ := (writtenT e x).2 hy
      exact ⟨b, Option.bind_eq_some_iff.2 ⟨x, hx, hb⟩⟩
theorem writtenF : ∀ (fs : Flds) (v : fs.Val X), (∃ b, marF X fs v = some b) ↔ FullF X fs v
  | .nil, _ => ⟨fun _ => trivial, fun _ => ⟨_, rfl⟩⟩
  | .cons t fs, v => by
    simp only [FullF, ← writtenT t, ← writtenF fs, marF, Option.bind_eq_some_iff,
      Option.map_eq_some_iff]
    constructor
    · rintro ⟨b, a, ha, c, hc, -⟩
      exact ⟨⟨a, ha⟩, c, hc⟩
    · rintro ⟨⟨a, ha⟩, c, hc⟩
      exact ⟨_, a, ha, c, hc, rfl⟩
end

/-- **C163.**  `MarshalBinary` returns bytes exactly when no pointer in the value is nil and the
foreign objects in it can be written. -/
theorem C163_written (fs : Flds) (v : fs.Val X) :
    (∃ b, marshal X fs v = some b) ↔ FullF X fs v := writtenF fs v

theorem prefixed {n : Nat} (h : n < 2 ^ 63) (c : Data) : Prefixed n c (leEnc 8 n ++ c) :=
  ⟨leEnc 8 n, leEnc_length 8 n, leDec_leEnc_of_lt (by omega), rfl⟩

theorem each_row {α : Type} {f : α → Option Data} {R : α → Data → Prop} {A : α → Prop}
    {M : Nat} (h : ∀ x b, A x → f x = some b → b.length ≤ M → R x b) :
    ∀ (xs : List α) (b : Data), (∀ x ∈ xs, A x) → each f xs = some b → b.length ≤ M → Row R xs b
  | [], b, _, hb, _ => by
    simp only [each, Option.some.injEq] at hb
    subst hb
    exact .nil
  | x :: xs, b, hA, hb, hM => by
    simp only [each, Option.bind_eq_some_iff, Option.map_eq_some_iff] at hb
    obtain ⟨a, ha, c, hc, rfl⟩ := hb
    rw [List.length_append] at hM
    exact .cons (h x a (hA x (by simp)) ha (by omega))
      (each_row h xs c (fun y hy => hA y (by simp [hy])) hc (by omega))

theorem bit_eq (v : Bool) : [bit v] = [cond v (1 : UInt8) 0] := by cases v <;> rfl

theorem word_wire {w : Nat} (v : BitVec (8 * w)) :
    (leEnc w v.toNat).length = w ∧ leDec (leEnc w v.toNat) = v.toNat :=
  ⟨leEnc_length _ _, leDec_leEnc_of_lt (by
    have := v.isLt
    rwa [Nat.pow_mul] at this)⟩

mutual
theorem wireT : ∀ (t : Ty) (v : t.Val X) (b : Data), Ok X t v → marT X t v = some b →
    b.length < 2 ^ 63 → Wire X t v b
  | .bool, v, b, _, hb, _ => by
    have hb' := Option.some.inj hb
    subst hb'
    exact bit_eq v
  | .byte, v, b, _, hb, _ => (Option.some.inj hb).symm
  | .word w, v, b, _, hb, _ => by
    have hb' := Option.some.inj hb
    subst hb'
    exact word_wire v
  | .c64, v, b, _, hb, _ => by
    have hb' := Option.some.inj hb
    subst hb'
    have h1 := word_wire (w := 4) v.1
    have h2 := word_wire (w := 4) v.2
    exact ⟨_, _, rfl, h1.1, h1.2, h2.1, h2.2⟩
  | .c128, v, b, _, hb, _ => by
    have hb' := Option.some.inj hb
    subst hb'
    have h1 := word_wire (w := 8) v.1
    have h2 := word_wire (w := 8) v.2
    exact ⟨_, _, rfl, h1.1, h1.2, h2.1, h2.2⟩
  | .str, v, b, hv, hb, _ => by
    have hb' := Option.some.inj hb
    subst hb'
    exact prefixed hv v
  | .anon fs, v, b, hv, hb, hl => wireF fs v b hv hb hl
  | .named fs, v, b, hv, hb, hl => by
    simp only [marT, Option.map_eq_some_iff] at hb
    obtain ⟨c, hc, rfl⟩ := hb
    have hcl : c.length < 2 ^ 63 := by
      simp only [sized, List.length_append] at hl; omega
    exact ⟨c, wireF fs v c hv hc hcl, prefixed hcl c⟩
  | .ext k, v, b, hv, hb, hl => by
    simp only [marT, Option.map_eq_some_iff] at hb
    obtain ⟨c, hc, rfl⟩ := hb
    have hcl : c.length < 2 ^ 63 := by
      simp only [sized, List.length_append] at hl; omega
    exact ⟨c, hc, prefixed hcl c⟩
  | .arr _ e, v, b, hv, hb, hl =>
    each_row (M := b.length) (fun x c hx hc hm => wireT e x c hx hc (Nat.lt_of_le_of_lt hm hl)) v b
      hv.2 hb (Nat.le_refl _)
  | .sli e, v, b, hv, hb, hl => by
    simp only [marT, Option.map_eq_some_iff] at hb
    obtain ⟨c, hc, rfl⟩ := hb
    rw [List.length_append] at hl
    exact ⟨c, each_row (M := c.length) (fun x d hx hd hm => wireT e x d hx hd (by omega)) v c hv.2
      hc (Nat.le_refl _), prefixed hv.1 c⟩
  | .ptr e, v, b, hv, hb, hl => by
    obtain ⟨x, hx, hy⟩ := Option.bind_eq_some_iff.1 hb
    exact ⟨x, hx, wireT e x b (hv x hx) hy hl⟩
theorem wireF : ∀ (fs : Flds) (v : fs.Val X) (b : Data), OkF X fs v → marF X fs v = some b →
    b.length < 2 ^ 63 → WireF X fs v b
  | .nil, _, b, _, hb, _ => (Option.some.inj hb).symm
  | .cons t fs, v, b, hv, hb, hl => by
    simp only [marF, Option.bind_eq_some_iff, Option.map_eq_some_iff] at hb
    obtain ⟨a, ha, c, hc, rfl⟩ := hb
    rw [List.length_append] at hl
    exact ⟨a, c, rfl, wireT t v.1 a hv.1 ha (by omega), wireF fs v.2 c hv.2 hc (by omega)⟩
end

/-- **C163.**  The bytes returned are the fields in the order of the declaration: numbers in
little-endian order, strings, slices and objects behind their length in eight bytes, arrays,
structs without a name and pointers without anything. -/
theorem C163_layout {fs : Flds} {v : fs.Val X} (hv : OkF X fs v) {b : Data}
    (hb : marshal X fs v = some b) (hl : b.length < 2 ^ 63) : WireF X fs v b :=
  wireF fs v b hv hb hl

theorem one_field {t : Ty} {z : (Flds.cons t .nil).Val X} {d : Data}
    {o : Option ((Flds.cons t .nil).Val X × Data)}
    (h : unT X t (LV.fst (whole (t.Val X × Flds.Val X .nil))) 0 0 z d = o) :
    unmarshal X (.cons t .nil) z d = o.map Prod.fst := by
  subst h
  show Option.map Prod.fst (Option.bind (unT X t (LV.fst (whole (t.Val X × Flds.Val X .nil))) 0 0 z d) _) = _
  cases unT X t (LV.fst (whole (t.Val X × Flds.Val X .nil))) 0 0 z d <;> rfl

/-- **C163, counterexample.**  A byte slice comes back twice as long, zeros before its bytes. -/
theorem C163_bytes_counterexample (v z : List UInt8) (hv : v.length < 2 ^ 63) :
    ∃ b, marshal X (.cons (.sli .byte) .nil) (v, ()) = some b ∧
      unmarshal X (.cons (.sli .byte) .nil) (z, ()) b =
        some (List.replicate v.length (0 : UInt8) ++ v, ()) := by
  have h : ∀ w : List UInt8, each (marT X .byte) w = some w := by
    intro w
    induction w with
    | nil => rfl
    | cons x xs ih => simp only [each, ih]; rfl
  refine ⟨leEnc 8 v.length ++ v, ?_, ?_⟩
  · show ((Option.map _ (each (marT X .byte) v)).bind _) = _
    rw [h v]
    show some ((leEnc 8 v.length ++ v) ++ []) = _
    rw [List.append_nil]
  · have h1 : getBytesSli (LV.fst (whole (List UInt8 × Unit))) 0 (z, ()) (leEnc 8 v.length ++ v) =
        some ((List.replicate v.length (0 : UInt8) ++ v, ()), []) := by
      rw [getBytesSli, getLen_append hv]
      simp only [Option.bind_some]
      have := cut_append (k := v.length) (a := v) (r := []) rfl
      rw [List.append_nil] at this
      rw [this]
      rfl
    exact one_field (t := .sli .byte) (z := (z, ())) h1

/-- **C163, counterexample.**  A field that is a pointer to an object with its own methods is
never allocated: reading into a new object panics. -/
theorem C163_pointer_counterexample (k : Nat) (d : Data) :
    compiles (.cons (.ptr (.ext k)) .nil) = true ∧
    unmarshal X (.cons (.ptr (.ext k)) .nil) (none, ()) d = none := by
  refine ⟨rfl, ?_⟩
  have h1 : getSub (LV.fst (whole (Option (X.T k) × Unit))) (viaPtr fun _ b => X.dec k b) 0
      (none, ()) d = none := by
    simp only [getSub]
    cases getLen d with
    | none => rfl
    | some p =>
      simp only [Option.bind_some]
      cases cut p.1 p.2 with
      | none => rfl
      | some q => rfl
  exact one_field (t := .ptr (.ext k)) (z := (none, ())) h1

end

/-- **C163.**  The generated methods of a struct with one of these fields do not compile. -/
theorem C163_refused {fs : Flds} {t : Ty} (hr : Refused t) (h : fs.Has t) :
    compiles fs = false := by
  have key : mC t false = false ∨ uC t false false false = false := by
    cases hr with
    | bool => exact .inr rfl
    | c64 => exact .inl rfl
    | bytes n => exact .inr rfl
    | arrScalar n e he => left; cases e <;> simp_all [Ty.scalar, mC]
    | sliScalar e he => left; cases e <;> simp_all [Ty.scalar, mC]
    | arrPtr n e => right; rfl
    | sliPtr e => right; rfl
    | arrSli n e => left; cases e <;> simp [mC]
    | sliSli e => left; cases e <;> simp [mC]
  have gen : ∀ fs : Flds, fs.Has t → mCF fs = false ∨ uCF fs false false false = false := by
    intro fs
    induction fs using Flds.rec (motive_1 := fun _ => True) with
    | nil => intro h; exact absurd h (by simp [Flds.Has])
    | cons u fs _ ih =>
      intro h
      simp only [mCF, uCF]
      rcases h with rfl | h
      · rcases key with k | k <;> simp [k]
      · rcases ih h with k | k <;> simp [k]
    | _ => trivial
  rcases gen fs h with k | k <;> simp [compiles, k]

/-- **C163.**  The generated methods of a struct that has only fields of one byte do not compile
(nothing uses the variable `buf`). -/
theorem C163_unused {fs : Flds} (h : ∀ t, fs.Has t → t = .byte ∨ t = .word 1) :
    compiles fs = false := by
  have gen : bufF fs = false := by
    induction fs using Flds.rec (motive_1 := fun _ => True) with
    | nil => rfl
    | cons u fs _ ih =>
      have h1 := ih fun t ht => h t (.inr ht)
      rcases h u (.inl rfl) with rfl | rfl <;> simp [bufF, bufT, h1]
    | _ => trivial
  simp [compiles, gen]

/-- No foreign types. -/
def noExt : Ext := ⟨fun _ => Unit, fun _ => (), fun _ _ => some [], fun _ _ => some ()⟩

/-- A point, a histogram: the name, the bins, the range in a struct without a name, four corner
points, an optional weight, an annotation with its own methods. -/
def point : Ty := .named (.cons (.word 8) (.cons (.word 8) .nil))
def histo : Flds :=
  .cons .str (.cons (.sli point) (.cons (.anon (.cons (.word 4) (.cons .c128 .nil)))
    (.cons (.arr 2 point) (.cons (.ptr (.word 2)) (.cons (.ext 0) .nil)))))

/-- A foreign type: a byte, written behind a `9`. -/
def nine : Ext := ⟨fun _ => UInt8, fun _ => 0, fun _ v => some [9, v], fun _ d => d[1]?⟩

theorem nine_lossless : nine.Lossless := by
  intro k v b h
  obtain rfl : [(9 : UInt8), v] = b := Option.some.inj h
  rfl

example : compiles histo = true ∧ faultlessF histo = true := ⟨rfl, rfl⟩

def histoVal : histo.Val nine :=
  ([(72 : UInt8), (49 : UInt8)], [((1 : BitVec 64), (2 : BitVec 64), ())],
    ((5 : BitVec 32), ((6 : BitVec 64), (7 : BitVec 64)), ()),
    [((1 : BitVec 64), (2 : BitVec 64), ()), ((3 : BitVec 64), (4 : BitVec 64), ())],
    some (300 : BitVec 16), (42 : UInt8), ())

theorem histoVal_ok : OkF nine histo histoVal := by
  refine ⟨?_, ⟨?_, ?_⟩, ⟨trivial, trivial, trivial⟩, ⟨rfl, ?_⟩, ?_, trivial, trivial⟩
  · show (2 : Nat) < 2 ^ 63; decide
  · show (1 : Nat) < 2 ^ 63; decide
  · intro x _; exact ⟨trivial, trivial, trivial⟩
  · intro x _; exact ⟨trivial, trivial, trivial⟩
  · intro x _; trivial

example : ∃ b, marshal nine histo histoVal = some b ∧
    unmarshal nine histo (zeroF nine histo) b = some histoVal := by
  refine ⟨_, rfl, ?_⟩
  have := C163_roundtrip_partial nine_lossless (fs := histo) rfl rfl histoVal_ok (zeroF_ok histo)
    (b := _) rfl (by show (122 : Nat) < 2 ^ 63; decide) []
  rwa [List.append_nil] at this

example : FullF nine histo histoVal := by
  refine ⟨trivial, ?_, ⟨trivial, trivial, trivial⟩, ?_, ⟨_, rfl, trivial⟩, ⟨_, rfl⟩, trivial⟩
  · intro x _; exact ⟨trivial, trivial, trivial⟩
  · intro x _; exact ⟨trivial, trivial, trivial⟩

example : ((marshal nine histo histoVal).map List.length) = some 122 := by rfl

example : OkF nine histo (zeroF nine histo) := zeroF_ok histo

example : Refused (.sli (.word 8)) ∧ (Flds.cons .str (.cons (.sli (.word 8)) .nil)).Has
    (.sli (.word 8)) := ⟨.sliScalar _ rfl, .inr (.inl rfl)⟩

/-- A slice of structs with a boolean. -/
def flags : Flds := .cons (.sli (.anon (.cons .bool .nil))) .nil

/-- **C163, counterexample.**  In a slice of structs a boolean is read from the wrong byte: the
code compiles, two elements panic, and with a field after them they come back changed. -/
theorem C163_bool_counterexample :
    compiles flags = true ∧
    (marshal noExt flags ([(true, ()), (false, ())], ())).bind
      (unmarshal noExt flags ([], ())) = none ∧
    (marshal noExt (.cons (.sli (.anon (.cons .bool .nil))) (.cons .byte .nil))
        ([(true, ()), (false, ())], ((1 : UInt8), ()))).bind
      (unmarshal noExt (.cons (.sli (.anon (.cons .bool .nil))) (.cons .byte .nil))
        ([], ((0 : UInt8), ()))) = some ([(true, ()), (true, ())], ((1 : UInt8), ())) :=
  ⟨rfl, rfl, rfl⟩

/-- A slice of structs with an array of two bytes. -/
def tags : Flds := .cons (.sli (.anon (.cons (.arr 2 .byte) .nil))) .nil

/-- **C163, counterexample.**  In a slice of structs an array of bytes is read with the length of
the slice: one element of two bytes loses its second byte, three elements panic. -/
theorem C163_array_counterexample :
    compiles tags = true ∧
    (marshal noExt tags ([([(7 : UInt8), (8 : UInt8)], ())], ())).bind (unmarshal noExt tags ([], ())) =
      some ([([(7 : UInt8), (0 : UInt8)], ())], ()) ∧
    (marshal noExt tags ([([(1 : UInt8), (2 : UInt8)], ()), ([(3 : UInt8), (4 : UInt8)], ()), ([(5 : UInt8), (6 : UInt8)], ())],
      ())).bind (unmarshal noExt tags ([], ())) = none :=
  ⟨rfl, rfl, rfl⟩

/-- The named struct of one `int16`. -/
def cell : Ty := .named (.cons (.word 2) .nil)

def sq : Flds := .cons (.arr 2 (.arr 2 cell)) .nil
def rc : Flds := .cons (.arr 2 (.arr 3 cell)) .nil

/-- **C163, counterexample.**  The two loops over an array of arrays use the same `i`: only the
elements with two equal indices are written, those of the last row remain; and an array with more
columns than rows panics. -/
theorem C163_matrix_counterexample :
    compiles sq = true ∧ compiles rc = true ∧
    (marshal noExt sq ([[((1 : BitVec 16), ()), ((2 : BitVec 16), ())],
        [((3 : BitVec 16), ()), ((4 : BitVec 16), ())]], ())).bind
      (unmarshal noExt sq ([[((0 : BitVec 16), ()), ((0 : BitVec 16), ())],
        [((0 : BitVec 16), ()), ((0 : BitVec 16), ())]], ())) =
      some ([[((3 : BitVec 16), ()), ((0 : BitVec 16), ())],
        [((0 : BitVec 16), ()), ((4 : BitVec 16), ())]], ()) ∧
    (marshal noExt rc (zeroF noExt rc)).bind (unmarshal noExt rc (zeroF noExt rc)) = none :=
  ⟨rfl, rfl, rfl, rfl⟩

end Verif.Brio
