import Verif.RBytes.RefsAny

/-!
# Object graphs survive being written and read (C82)
-/

namespace Verif.RBytes.Refs

/-! ### Several objects -/

def encAll (G : Nat → Node) (fuel : Nat) : List (Option Nat) → Nat → St → Option (List UInt8 × St)
  | [], _, st => some ([], st)
  | o :: os, pos, st =>
    (encAny G fuel o pos st).bind fun a =>
    (encAll G fuel os (pos + a.1.length) a.2).bind fun q => some (a.1 ++ q.1, q.2)

theorem writeAll_spec (G : Nat → Node) (fuel : Nat) : ∀ os pos st bs st',
    encAll G fuel os pos st = some (bs, st') → pos + bs.length < 2 ^ 30 →
    ∀ w : WBuf, w.WF → w.pos = pos →
      ∃ w', writeAll G fuel os (WS.of w st) = some (WS.of w' st') ∧ w'.WF ∧
        w'.bytes = w.bytes ++ bs ∧ w'.offset = w.offset := by
  intro os
  induction os with
  | nil =>
    intro pos st bs st' he _ w hw _
    simp only [encAll, Option.some.injEq, Prod.mk.injEq] at he
    obtain ⟨rfl, rfl⟩ := he
    exact ⟨w, rfl, hw, by simp, rfl⟩
  | cons o os ih =>
    intro pos st bs st' he hlt w hw hpos
    simp only [encAll, Option.bind_eq_some_iff, Option.some.injEq, Prod.mk.injEq] at he
    obtain ⟨a, ha, q, hq, rfl, rfl⟩ := he
    simp only [List.length_append] at hlt
    obtain ⟨w1, e1, h1, b1, o1⟩ := writeAny_spec G fuel o pos st a.1 a.2 ha (by omega) w hw hpos
    obtain ⟨w2, e2, h2, b2, o2⟩ := ih (pos + a.1.length) a.2 q.1 q.2 hq (by omega) w1 h1
      (by rw [pos_append hw h1 b1 o1, hpos])
    refine ⟨w2, ?_, h2, by rw [b2, b1, List.append_assoc], by rw [o2, o1]⟩
    simp only [writeAll]
    rw [e1, Option.bind_some]
    exact e2

/-! ### Lengths, whatever the size -/

def Adds (w w' : WBuf) (n : Nat) : Prop :=
  w'.WF ∧ w'.bytes.length = w.bytes.length + n ∧ w'.offset = w.offset

theorem Adds.pos {w w' : WBuf} {n : Nat} (hw : w.WF) (h : Adds w w' n) : w'.pos = w.pos + n := by
  rw [pos_eq hw, pos_eq h.1, h.2.1, h.2.2]; omega

theorem Adds.trans {w w1 w2 : WBuf} {m n : Nat} (h1 : Adds w w1 m) (h2 : Adds w1 w2 n) :
    Adds w w2 (m + n) :=
  ⟨h2.1, by rw [h2.2.1, h1.2.1]; omega, by rw [h2.2.2, h1.2.2]⟩

theorem adds_of {w w' : WBuf} {bs : List UInt8} (h : w'.WF) (hb : w'.bytes = w.bytes ++ bs)
    (ho : w'.offset = w.offset) : Adds w w' bs.length :=
  ⟨h, by rw [hb]; simp, ho⟩

theorem setHeader_len {w0 w : WBuf} (h0 : w0.WF) {n : Nat} (ha : Adds w0 w n)
    (hn : 4 ≤ n) (v : BitVec 16) :
    ∃ w', w.setHeader ⟨v, w0.pos, 0, false⟩ = some w' ∧ Adds w0 w' n := by
  have hp := ha.pos h0
  obtain ⟨hw, hl, ho⟩ := ha
  have hc := WBuf.length_bytes hw
  have hc0 := WBuf.length_bytes h0
  have hle := hw.pos_le
  have hpw : (w.setPos w0.pos).WF := by
    refine ⟨?_, hw.no_err⟩
    simp only [WBuf.setPos, WBuf.pos, ho, Nat.add_sub_cancel]; omega
  unfold WBuf.setHeader
  simp only [hw.no_err, Bool.false_eq_true, if_false, Option.bind_eq_bind]
  generalize (BitVec.setWidth 32 ((BitVec.ofNat 64 w.pos - BitVec.ofNat 64 w0.pos - 4) |||
    1073741824)).toNat = word
  obtain ⟨w1, e1, h1, b1, o1, l1, c1⟩ := WBuf.put_spec (WBuf.grow_wf hpw 4) (beEnc 4 word)
    (by have := hpw.pos_le; simp [WBuf.grow] at this ⊢; omega)
  have e2 : (w.setPos w0.pos).writeBE 4 word = some w1 := by
    rw [← e1]; simp [WBuf.writeBE, hpw.no_err]
  rw [e2, Option.bind_some]
  refine ⟨_, rfl, ⟨?_, h1.no_err⟩, ?_, ?_⟩
  · simp only [WBuf.setPos, WBuf.pos, o1, WBuf.grow, Nat.add_sub_cancel, l1]
    simp [WBuf.setPos]; omega
  · have hwf : (w1.setPos w.pos).WF := by
      refine ⟨?_, h1.no_err⟩
      simp only [WBuf.setPos, WBuf.pos, o1, WBuf.grow, Nat.add_sub_cancel, l1]
      simp [WBuf.setPos]; omega
    rw [WBuf.length_bytes hwf, ← hl, WBuf.length_bytes hw]
    simp [WBuf.setPos, WBuf.pos, o1, WBuf.grow]
  · show w1.offset = _
    rw [o1]; exact ho

theorem patch_len {w0 w : WBuf} (h0 : w0.WF) {n : Nat} (ha : Adds w0 w n) (hn : 4 ≤ n) (x : Nat) :
    ∃ w', (w.setPos w0.pos).put (beEnc 4 x) = some w' ∧ Adds w0 (w'.setPos w.pos) n := by
  have hp := ha.pos h0
  obtain ⟨hw, hl, ho⟩ := ha
  have hc := WBuf.length_bytes hw
  have hc0 := WBuf.length_bytes h0
  have hle := hw.pos_le
  have hpw : (w.setPos w0.pos).WF := by
    refine ⟨?_, hw.no_err⟩
    simp only [WBuf.setPos, WBuf.pos, ho, Nat.add_sub_cancel]; omega
  obtain ⟨w1, e1, h1, b1, o1, l1, c1⟩ := WBuf.put_spec hpw (beEnc 4 x)
    (by simp only [WBuf.setPos, WBuf.pos, ho, Nat.add_sub_cancel, length_beEnc]; omega)
  have hwf : (w1.setPos w.pos).WF := by
    refine ⟨?_, h1.no_err⟩
    simp only [WBuf.setPos, WBuf.pos, o1, Nat.add_sub_cancel, l1]
    omega
  refine ⟨w1, e1, hwf, ?_, by show w1.offset = _; rw [o1]; exact ho⟩
  rw [WBuf.length_bytes hwf, ← hl, WBuf.length_bytes hw]
  simp [WBuf.setPos, WBuf.pos, o1]

def WritesLen (rec : Option Nat → WS → Option WS) (recE : Enc) : Prop :=
  ∀ o pos st bs st', recE o pos st = some (bs, st') →
    ∀ w : WBuf, w.WF → w.pos = pos →
      ∃ w', rec o (WS.of w st) = some (WS.of w' st') ∧ Adds w w' bs.length

theorem writeParts_len {rec : Option Nat → WS → Option WS} {recE : Enc} (hr : WritesLen rec recE) :
    ∀ (ps : Parts) pos st bs st', encParts recE ps pos st = some (bs, st') →
      ∀ w : WBuf, w.WF → w.pos = pos →
      ∃ w', writeParts rec ps (WS.of w st) = some (WS.of w' st') ∧ Adds w w' bs.length := by
  intro ps
  induction ps with
  | nil =>
    intro pos st bs st' he w hw _
    simp only [encParts, Option.some.injEq, Prod.mk.injEq] at he
    obtain ⟨rfl, rfl⟩ := he
    exact ⟨w, rfl, hw, by simp, rfl⟩
  | data ds rest ih =>
    intro pos st bs st' he w hw hpos
    simp only [encParts, Option.bind_eq_some_iff, Option.some.injEq, Prod.mk.injEq] at he
    obtain ⟨q, hq, rfl, rfl⟩ := he
    obtain ⟨w1, e1, h1, b1, o1⟩ := grow_put_appends ds.length ds (Nat.le_refl _) w hw
    have a1 := adds_of h1 b1 o1
    obtain ⟨w2, e2, a2⟩ := ih (pos + ds.length) st q.1 q.2 hq w1 h1 (by rw [a1.pos hw, hpos])
    refine ⟨w2, ?_, by rw [List.length_append]; exact a1.trans a2⟩
    simp only [writeParts, WS.of]
    dsimp only at e1
    rw [e1, Option.bind_some]
    exact e2
  | ref o rest ih =>
    intro pos st bs st' he w hw hpos
    simp only [encParts, Option.bind_eq_some_iff, Option.some.injEq, Prod.mk.injEq] at he
    obtain ⟨a, ha, q, hq, rfl, rfl⟩ := he
    obtain ⟨w1, e1, a1⟩ := hr o pos st a.1 a.2 ha w hw hpos
    obtain ⟨w2, e2, a2⟩ := ih (pos + a.1.length) a.2 q.1 q.2 hq w1 a1.1 (by rw [a1.pos hw, hpos])
    refine ⟨w2, ?_, by rw [List.length_append]; exact a1.trans a2⟩
    simp only [writeParts]
    rw [e1, Option.bind_some]
    exact e2
  | block vers inner rest ih1 ih2 =>
    intro pos st bs st' he w hw hpos
    simp only [encParts, Option.bind_eq_some_iff, Option.some.injEq, Prod.mk.injEq] at he
    obtain ⟨a, ha, q, hq, rfl, rfl⟩ := he
    have hh : (hdrEnc vers a.1.length).length = 6 := by simp [hdrEnc]
    obtain ⟨w1, e1, h1, b1, o1⟩ := writeHeader_spec vers hw
    have a1 := adds_of h1 b1 o1
    simp only [List.length_append, length_beEnc] at a1
    obtain ⟨w2, e2, a2⟩ := ih1 (pos + 6) st a.1 a.2 ha w1 h1 (by rw [a1.pos hw, hpos])
    obtain ⟨w3, e3, a3⟩ := setHeader_len hw (a1.trans a2) (by omega) vers
    obtain ⟨w4, e4, a4⟩ := ih2 (pos + 6 + a.1.length) a.2 q.1 q.2 hq w3 a3.1
      (by rw [a3.pos hw, hpos]; omega)
    refine ⟨w4, ?_, by
      rw [List.length_append, List.length_append, hh]; exact a3.trans a4⟩
    simp only [writeParts]
    rw [show (WS.of w st).w = w from rfl, e1, Option.bind_some]
    dsimp only
    rw [show ({ WS.of w st with w := w1 } : WS) = WS.of w1 st from rfl, e2, Option.bind_some,
      show (WS.of w2 a.2).w = w2 from rfl, e3, Option.bind_some]
    exact e4

theorem writeAny_len (G : Nat → Node) : ∀ fuel, WritesLen (writeAny G fuel) (encAny G fuel) := by
  intro fuel
  induction fuel with
  | zero => intro o pos st bs st' he; simp [encAny] at he
  | succ fuel ih =>
    intro o pos st bs st' he w hw hpos
    have hne : ((WS.of w st).w.err) = false := hw.no_err
    cases o with
    | none =>
      simp only [encAny, Option.some.injEq, Prod.mk.injEq] at he
      obtain ⟨rfl, rfl⟩ := he
      obtain ⟨w1, e1, h1, b1, o1⟩ := writeBE_appends 4 0 w hw
      refine ⟨w1, ?_, adds_of h1 b1 o1⟩
      simp only [writeAny, hne]
      rw [show (WS.of w st).w = w from rfl, e1]; rfl
    | some i =>
      obtain ⟨w1, e1, h1, b1, o1⟩ := writeBE_appends 4 0 w hw
      have a1 := adds_of h1 b1 o1
      rw [length_beEnc] at a1
      have p1 : w1.pos = pos + 4 := by rw [a1.pos hw, hpos]
      have hne1 : ((WS.of w1 st).w.err) = false := h1.no_err
      suffices hcls : ∃ n x w2, bs.length = 4 + n ∧ Adds w1 w2 n ∧
          writeClass (writeAny G fuel) G pos i (WS.of w1 st) = some (x, WS.of w2 st') by
        obtain ⟨n, x, w2, hl, a2, e2⟩ := hcls
        obtain ⟨w3, e3, a3⟩ := patch_len hw (a1.trans a2) (by omega) x
        refine ⟨w3.setPos w2.pos, ?_, by rw [hl]; exact a3⟩
        simp only [writeAny, hne]
        rw [show (WS.of w st).w = w from rfl, e1, Option.bind_some]
        rw [show ({ WS.of w st with w := w1 } : WS) = WS.of w1 st from rfl]
        simp only [Bool.false_eq_true, if_false]
        rw [hpos, e2, Option.bind_some]
        simp only [WS.of, a2.1.no_err, Bool.false_eq_true, if_false]
        rw [← hpos, e3]; rfl
      simp only [writeClass, hne1, Bool.false_eq_true, if_false]
      simp only [encAny] at he
      cases hl : st.objs.lookup i with
      | some ref =>
        simp only [hl, Option.some.injEq, Prod.mk.injEq] at he
        obtain ⟨rfl, rfl⟩ := he
        obtain ⟨w2, e2, h2, b2, o2⟩ := writeBE_appends 4 ref w1 h1
        refine ⟨4, cnt (w2.pos - w1.pos), w2, by simp, by simpa using adds_of h2 b2 o2, ?_⟩
        simp only [WS.of, hl, e2, Option.bind_some]
      | none =>
        simp only [hl] at he
        cases hc : st.classes.lookup (G i).cls with
        | none =>
          simp only [hc, Option.bind_eq_some_iff, Option.some.injEq, Prod.mk.injEq] at he
          obtain ⟨q, hq, rfl, rfl⟩ := he
          obtain ⟨w2, e2, h2, b2, o2⟩ := writeBE_appends 4 (2 ^ 32 - 1) w1 h1
          obtain ⟨w3, e3, h3, b3, o3⟩ := writeCString_appends (G i).cls w2 h2
          have a2 := adds_of h2 b2 o2
          have a3 := adds_of h3 b3 o3
          rw [show List.takeWhile (fun x => x != 0) (G i).cls = cname (G i).cls from rfl,
            List.length_append] at a3
          rw [length_beEnc] at a2
          have p3 : w3.pos = pos + 8 + ((cname (G i).cls).length + 1) := by
            rw [a3.pos h2, a2.pos h1, p1]; simp
          obtain ⟨w4, e4, a4⟩ := writeParts_len ih (G i).parts _ _ q.1 q.2 hq w3 h3 p3
          refine ⟨_, cnt (w4.pos - w1.pos), w4, ?_, (a2.trans a3).trans a4, ?_⟩
          · simp [Nat.add_assoc]; omega
          · simp only [WS.of, hl, hc, e2, e3, Option.bind_some]
            rw [show w1.pos + 2 = pos + 6 by omega]
            simp only [WS.of] at e4
            rw [e4, Option.bind_some]
        | some ref =>
          simp only [hc, Option.bind_eq_some_iff, Option.some.injEq, Prod.mk.injEq] at he
          obtain ⟨q, hq, rfl, rfl⟩ := he
          obtain ⟨w2, e2, h2, b2, o2⟩ := writeBE_appends 4 (ref ||| 2 ^ 31) w1 h1
          have a2 := adds_of h2 b2 o2
          rw [length_beEnc] at a2
          obtain ⟨w4, e4, a4⟩ := writeParts_len ih (G i).parts _ _ q.1 q.2 hq w2 h2
            (by rw [a2.pos h1, p1])
          refine ⟨_, cnt (w4.pos - w1.pos), w4, ?_, a2.trans a4, ?_⟩
          · simp
          · simp only [WS.of, hl, hc, e2, Option.bind_some]
            simp only [WS.of] at e4
            rw [e4, Option.bind_some]

theorem writeAll_len (G : Nat → Node) (fuel : Nat) : ∀ os pos st bs st',
    encAll G fuel os pos st = some (bs, st') →
    ∀ w : WBuf, w.WF → w.pos = pos →
      ∃ w', writeAll G fuel os (WS.of w st) = some (WS.of w' st') ∧ Adds w w' bs.length := by
  intro os
  induction os with
  | nil =>
    intro pos st bs st' he w hw _
    simp only [encAll, Option.some.injEq, Prod.mk.injEq] at he
    obtain ⟨rfl, rfl⟩ := he
    exact ⟨w, rfl, hw, by simp, rfl⟩
  | cons o os ih =>
    intro pos st bs st' he w hw hpos
    simp only [encAll, Option.bind_eq_some_iff, Option.some.injEq, Prod.mk.injEq] at he
    obtain ⟨a, ha, q, hq, rfl, rfl⟩ := he
    obtain ⟨w1, e1, a1⟩ := writeAny_len G fuel o pos st a.1 a.2 ha w hw hpos
    obtain ⟨w2, e2, a2⟩ := ih (pos + a.1.length) a.2 q.1 q.2 hq w1 a1.1 (by rw [a1.pos hw, hpos])
    refine ⟨w2, ?_, by rw [List.length_append]; exact a1.trans a2⟩
    simp only [writeAll]
    rw [e1, Option.bind_some]
    exact e2

/-! ### Writing ends -/

section
variable {G : Nat → Node} {dec : List UInt8 → Option Dec} {P : Nat → Prop} {rank : Nat → Nat}

theorem encParts_total {recE : Enc} : ∀ (ps : Parts),
    (∀ i ∈ ps.targets, ∀ pos st, ∃ q, recE (some i) pos st = some q) →
    (∀ pos st, ∃ q, recE none pos st = some q) → ∀ pos st, ∃ q, encParts recE ps pos st = some q := by
  intro ps
  induction ps with
  | nil => intro _ _ pos st; exact ⟨_, rfl⟩
  | data ds rest ih =>
    intro h h0 pos st
    obtain ⟨q, hq⟩ := ih h h0 (pos + ds.length) st
    exact ⟨_, by simp only [encParts, hq, Option.bind_some]; rfl⟩
  | ref o rest ih =>
    intro h h0 pos st
    simp only [Parts.targets, List.mem_append] at h
    have ho : ∃ a, recE o pos st = some a := by
      cases o with
      | none => exact h0 pos st
      | some i => exact h i (Or.inl (by simp)) pos st
    obtain ⟨a, ha⟩ := ho
    obtain ⟨q, hq⟩ := ih (fun i hi => h i (Or.inr hi)) h0 (pos + a.1.length) a.2
    exact ⟨_, by simp only [encParts, ha, hq, Option.bind_some]; rfl⟩
  | block v inner rest ih1 ih2 =>
    intro h h0 pos st
    simp only [Parts.targets, List.mem_append] at h
    obtain ⟨a, ha⟩ := ih1 (fun i hi => h i (Or.inl hi)) h0 (pos + 6) st
    obtain ⟨q, hq⟩ := ih2 (fun i hi => h i (Or.inr hi)) h0 (pos + 6 + a.1.length) a.2
    exact ⟨_, by simp only [encParts, ha, hq, Option.bind_some]; rfl⟩

theorem encAny_total (hcl : ∀ i j, P i → j ∈ (G i).parts.targets → P j)
    (hac : ∀ i j, P i → j ∈ (G i).parts.targets → rank j < rank i) : ∀ fuel i, P i → rank i + 1 < fuel →
    ∀ pos st, ∃ q, encAny G fuel (some i) pos st = some q := by
  intro fuel
  induction fuel with
  | zero => intro i _ h; omega
  | succ fuel ih =>
    intro i hP hr pos st
    have hparts : ∀ pos st, ∃ q, encParts (encAny G fuel) (G i).parts pos st = some q := by
      apply encParts_total
      · intro j hj
        exact ih j (hcl i j hP hj) (by have := hac i j hP hj; omega)
      · intro pos st
        obtain ⟨f, rfl⟩ := Nat.exists_eq_succ_of_ne_zero (by omega : fuel ≠ 0)
        exact ⟨_, rfl⟩
    simp only [encAny]
    cases st.objs.lookup i with
    | some ref => exact ⟨_, rfl⟩
    | none =>
      dsimp only
      cases st.classes.lookup (G i).cls with
      | none =>
        obtain ⟨q, hq⟩ := hparts (pos + 8 + ((cname (G i).cls).length + 1))
          { classes := ((G i).cls, (pos + 6) ||| 2 ^ 31) :: st.classes,
            objs := (i, pos + 2) :: st.objs }
        exact ⟨_, by simp only [hq, Option.bind_some]; rfl⟩
      | some ref =>
        obtain ⟨q, hq⟩ := hparts (pos + 8) st
        exact ⟨_, by simp only [hq, Option.bind_some]; rfl⟩

theorem encAll_total (hcl : ∀ i j, P i → j ∈ (G i).parts.targets → P j)
    (hac : ∀ i j, P i → j ∈ (G i).parts.targets → rank j < rank i) (fuel : Nat) :
    ∀ os : List (Option Nat), (∀ i, some i ∈ os → P i ∧ rank i + 1 < fuel) → 0 < fuel →
    ∀ pos st, ∃ q, encAll G fuel os pos st = some q := by
  intro os
  induction os with
  | nil => intro _ _ pos st; exact ⟨_, rfl⟩
  | cons o os ih =>
    intro h hf pos st
    have ho : ∃ a, encAny G fuel o pos st = some a := by
      cases o with
      | none =>
        obtain ⟨f, rfl⟩ := Nat.exists_eq_succ_of_ne_zero (by omega : fuel ≠ 0)
        exact ⟨_, rfl⟩
      | some i => exact encAny_total hcl hac fuel i (h i (by simp)).1 (h i (by simp)).2 pos st
    obtain ⟨a, ha⟩ := ho
    obtain ⟨q, hq⟩ := ih (fun i hi => h i (by simp [hi])) hf (pos + a.1.length) a.2
    exact ⟨_, by simp only [encAll, ha, hq, Option.bind_some]; rfl⟩

/-! ### Reading several objects -/

theorem readAll_spec (hg : Good G dec P rank) (fuel r : Nat) : ∀ (os : List (Option Nat)) pos st bs st',
    (∀ i, some i ∈ os → P i ∧ rank i < r) → encAll G fuel os pos st = some (bs, st') →
    pos + bs.length < 2 ^ 30 → ∀ pre post hid off refs heap φ, pre.length + off = pos →
    Rel G rank r st refs heap φ pos →
    ∃ refs' heap' φ',
      readAll dec fuel os.length ⟨⟨pre ++ (bs ++ post), hid, pre.length, off, false⟩, refs, heap⟩ =
        some (os.map (fun o => o.map φ'),
          ⟨⟨pre ++ (bs ++ post), hid, pre.length + bs.length, off, false⟩, refs', heap'⟩) ∧
      Step G rank r st refs heap φ pos st' refs' heap' φ' (pos + bs.length) ∧
      ∀ i, some i ∈ os → (st'.objs.lookup i).isSome := by
  intro os
  induction os with
  | nil =>
    intro pos st bs st' _ he _ pre post hid off refs heap φ _ hrel
    simp only [encAll, Option.some.injEq, Prod.mk.injEq] at he
    obtain ⟨rfl, rfl⟩ := he
    exact ⟨refs, heap, φ, rfl, Step.refl hrel (by simp), by simp⟩
  | cons o os ih =>
    intro pos st bs st' hP he hlt pre post hid off refs heap φ hpos hrel
    simp only [encAll, Option.bind_eq_some_iff, Option.some.injEq, Prod.mk.injEq] at he
    obtain ⟨a, ha, q, hq, rfl, rfl⟩ := he
    simp only [List.length_append] at hlt
    obtain ⟨refs1, heap1, φ1, e1, hs1, ht1⟩ := readAny_spec hg fuel r o pos st a.1 a.2
      (fun i hi => hP i (by simp [hi])) ha (by omega) pre (q.1 ++ post) hid off refs heap φ
      hpos hrel
    obtain ⟨refs2, heap2, φ2, e2, hs2, ht2⟩ := ih (pos + a.1.length) a.2 q.1 q.2
      (fun i hi => hP i (by simp [hi])) hq (by omega)
      (pre ++ a.1) post hid off refs1 heap1 φ1 (by simp; omega) hs1.rel
    have hext : ∀ i, (a.2.objs.lookup i).isSome → (q.2.objs.lookup i).isSome ∧ φ2 i = φ1 i := by
      intro i hi
      obtain ⟨p, hp⟩ := Option.isSome_iff_exists.mp hi
      obtain ⟨x, y⟩ := hs2.ext i p hp
      exact ⟨by rw [x]; rfl, y⟩
    refine ⟨refs2, heap2, φ2, ?_, ?_, ?_⟩
    · simp only [List.length_cons, readAll]
      simp only [List.append_assoc] at e2 ⊢
      rw [e1, Option.bind_some]
      simp only [List.length_append] at e2
      rw [e2]
      have : o.map φ1 = o.map φ2 := by
        cases o with
        | none => rfl
        | some i => simp [(hext i (ht1 i rfl)).2]
      simp [this, Nat.add_assoc]
    · have := hs1.trans hs2
      rwa [List.length_append, ← Nat.add_assoc]
    · intro i hi
      simp only [List.mem_cons] at hi
      rcases hi with hi | hi
      · exact (hext i (ht1 i hi.symm)).1
      · exact ht2 i hi

/-! ### The bound on the depth is not observable -/

theorem readDec_mono {r1 r2 : RS → Option (Option Nat × RS)}
    (h : ∀ s x, r1 s = some x → r2 s = some x) : ∀ (d : Dec) s x,
    readDec r1 d s = some x → readDec r2 d s = some x := by
  intro d
  induction d with
  | done => intro s x hx; exact hx
  | fail => intro s x hx; simp [readDec] at hx
  | data n k ih =>
    intro s x hx
    simp only [readDec, Option.bind_eq_some_iff] at hx ⊢
    obtain ⟨a, ha, q, hq, e⟩ := hx
    exact ⟨a, ha, q, ih a _ _ hq, e⟩
  | ref k ih =>
    intro s x hx
    simp only [readDec, Option.bind_eq_some_iff] at hx ⊢
    obtain ⟨a, ha, q, hq, e⟩ := hx
    exact ⟨a, h _ _ ha, q, ih _ _ _ hq, e⟩
  | block v d k ih1 ih2 =>
    intro s x hx
    simp only [readDec, Option.bind_eq_some_iff] at hx ⊢
    obtain ⟨a, ha, q, hq, t, ht, e⟩ := hx
    exact ⟨a, ha, q, ih1 _ _ _ hq, t, ih2 _ _ _ _ ht, e⟩

theorem readAny_mono (dec : List UInt8 → Option Dec) : ∀ fuel s x,
    readAny dec fuel s = some x → readAny dec (fuel + 1) s = some x := by
  intro fuel
  induction fuel with
  | zero => intro s x hx; simp [readAny] at hx
  | succ fuel ih =>
    intro s x hx
    rw [readAny] at hx ⊢
    split
    · rename_i he; rw [if_pos he] at hx; exact hx
    · rename_i he
      rw [if_neg he] at hx
      simp only [Option.bind_eq_some_iff] at hx ⊢
      obtain ⟨b, hb, t, ht, hx⟩ := hx
      refine ⟨b, hb, t, ht, ?_⟩
      split
      · rename_i h1; rw [if_pos h1] at hx; exact hx
      · rename_i h1
        rw [if_neg h1] at hx
        split
        · rename_i h2
          rw [if_pos h2] at hx
          simp only [readNew, Option.bind_eq_some_iff] at hx ⊢
          obtain ⟨c, hc, d, hd, q, hq, hx⟩ := hx
          exact ⟨c, hc, d, hd, q, readDec_mono ih _ _ _ hq, hx⟩
        · rename_i h2
          rw [if_neg h2] at hx
          unfold readKnown at hx ⊢
          dsimp only at hx ⊢
          cases hl : List.lookup (t.1 % 2 ^ 31) s.refs with
          | none => rw [hl] at hx; exact hx
          | some e =>
            cases e with
            | obj id => rw [hl] at hx; exact hx
            | cls c =>
              rw [hl] at hx
              simp only [Option.bind_eq_some_iff] at hx ⊢
              obtain ⟨d, hd, q, hq, hx⟩ := hx
              exact ⟨d, hd, q, readDec_mono ih _ _ _ hq, hx⟩

/-- A reader that came to an end does so with the same result under any larger bound
on the depth: the bound stands for the stack of the program, nothing else. -/
theorem C82_depth (dec : List UInt8 → Option Dec) {fuel fuel' : Nat} (h : fuel ≤ fuel') (s : RS)
    (x : Option Nat × RS) (hx : readAny dec fuel s = some x) : readAny dec fuel' s = some x := by
  induction h with
  | refl => exact hx
  | step _ ih => exact readAny_mono dec _ _ _ ih

/-! ### Main theorems -/

/-- A finite family of objects without cycles can always be written, whatever
pointers its objects share. -/
theorem C82_write_ends (hg : Good G dec P rank) (os : List (Option Nat)) (hos : ∀ i, some i ∈ os → P i)
    (w : WBuf) (hw : w.WF) :
    ∃ fuel s', writeAll G fuel os ⟨w, [], []⟩ = some s' := by
  obtain ⟨m, hm⟩ : ∃ m, ∀ i, some i ∈ os → rank i < m := by
    clear hos
    induction os with
    | nil => exact ⟨0, by simp⟩
    | cons o os ih =>
      obtain ⟨m, hm⟩ := ih
      cases o with
      | none => exact ⟨m, fun i hi => hm i (by simpa using hi)⟩
      | some j =>
        refine ⟨m + rank j + 1, fun i hi => ?_⟩
        simp only [List.mem_cons, Option.some.injEq] at hi
        rcases hi with rfl | hi
        · omega
        · have := hm i hi; omega
  obtain ⟨q, hq⟩ := encAll_total hg.closed hg.acyclic (m + 1) os
    (fun i hi => ⟨hos i hi, by have := hm i hi; omega⟩) (by omega) w.pos ⟨[], []⟩
  obtain ⟨w', e, _⟩ := writeAll_len G (m + 1) os w.pos ⟨[], []⟩ q.1 q.2 hq w hw rfl
  exact ⟨m + 1, _, e⟩

theorem encAll_of_write (hg : Good G dec P rank) {os : List (Option Nat)}
    (hos : ∀ i, some i ∈ os → P i) {w : WBuf} (hw : w.WF) {fuel : Nat} {s' : WS}
    (hf : ∀ i, some i ∈ os → rank i + 1 < fuel) (hf0 : 0 < fuel)
    (h : writeAll G fuel os ⟨w, [], []⟩ = some s') :
    ∃ bs st', encAll G fuel os w.pos ⟨[], []⟩ = some (bs, st') ∧ s'.w.pos = w.pos + bs.length := by
  obtain ⟨q, hq⟩ := encAll_total hg.closed hg.acyclic fuel os
    (fun i hi => ⟨hos i hi, hf i hi⟩) hf0 w.pos ⟨[], []⟩
  obtain ⟨w', e, ha⟩ := writeAll_len G fuel os w.pos ⟨[], []⟩ q.1 q.2 hq w hw rfl
  have e' : writeAll G fuel os ⟨w, [], []⟩ = some (WS.of w' q.2) := e
  rw [h] at e'
  cases e'
  exact ⟨q.1, q.2, hq, ha.pos hw⟩

/-- Objects without cycles, written one after the other into a buffer and read back
from the same position: the reader ends where the writer ended, without error, and
obtains a copy of the objects in which two pointers are equal exactly when they
were equal in the original.
Missing: cycles (`C82_cycle_new_counterexample`, `C82_cycle_known_counterexample`),
class names of 80 bytes or more (`C82_long_class_counterexample`), records of 1 GiB
or more, and classes whose `UnmarshalROOT` does not read what their `MarshalROOT`
wrote. -/
theorem C82_roundtrip_partial (hg : Good G dec P rank) (os : List (Option Nat))
    (hos : ∀ i, some i ∈ os → P i) (w : WBuf) (hw : w.WF) (fuel : Nat) (s' : WS)
    (hf : ∀ i, some i ∈ os → rank i + 1 < fuel) (hf0 : 0 < fuel)
    (hwr : writeAll G fuel os ⟨w, [], []⟩ = some s') (hsz : s'.w.pos < 2 ^ 30) :
    ∃ bs, s'.w.bytes = w.bytes ++ bs ∧
      ∀ (pre post hid : List UInt8) (off : Nat), pre.length + off = w.pos →
        ∃ refs heap φ D,
          readAll dec fuel os.length ⟨⟨pre ++ (bs ++ post), hid, pre.length, off, false⟩, [], []⟩ =
            some (os.map (fun o => o.map φ),
              ⟨⟨pre ++ (bs ++ post), hid, pre.length + bs.length, off, false⟩, refs, heap⟩) ∧
          (∀ i, some i ∈ os → D i) ∧ Copy G D φ heap := by
  obtain ⟨bs, st', he, hp⟩ := encAll_of_write hg hos hw hf hf0 hwr
  obtain ⟨w', e, _, hb, _⟩ := writeAll_spec G fuel os w.pos ⟨[], []⟩ bs st' he (by omega) w hw rfl
  have e' : writeAll G fuel os ⟨w, [], []⟩ = some (WS.of w' st') := e
  rw [hwr] at e'
  cases e'
  refine ⟨bs, hb, ?_⟩
  intro pre post hid off hoff
  have hrel : ∀ r, Rel G rank r ⟨[], []⟩ [] [] id w.pos := fun r =>
    { obj := fun i p h => by simp at h
      bnd := fun i p h => by simp at h
      cls := fun i p h => by simp at h
      inj := fun i j h => by simp at h }
  obtain ⟨refs, heap, φ, er, hs, ht⟩ := readAll_spec hg fuel fuel os w.pos ⟨[], []⟩ bs st'
    (fun i hi => ⟨hos i hi, by have := hf i hi; omega⟩) he (by omega) pre post hid off [] [] id hoff
    (hrel fuel)
  have hrk : ∀ i, (st'.objs.lookup i).isSome → rank i < fuel := by
    intro i hi
    obtain ⟨p, hp⟩ := Option.isSome_iff_exists.mp hi
    rcases hs.new i p hp with a | ⟨_, a, _⟩
    · simp at a
    · exact a
  refine ⟨refs, heap, φ, fun i => (st'.objs.lookup i).isSome, er, ht, ?_⟩
  refine { inj := ?_, node := ?_, closed := ?_ }
  · intro i j hi hj hij
    exact hs.rel.inj i j hi hj (hrk i hi) (hrk j hj) hij
  · intro i hi
    obtain ⟨p, hp⟩ := Option.isSome_iff_exists.mp hi
    exact (hs.rel.obj i p hp (hrk i hi)).2.1
  · intro i j hi hj
    obtain ⟨p, hp⟩ := Option.isSome_iff_exists.mp hi
    exact (hs.rel.obj i p hp (hrk i hi)).2.2 j hj

end

end Verif.RBytes.Refs
