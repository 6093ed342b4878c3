import Verif.RBytes.Refs

/-!
# Encoding of object graphs as a function of the position

A purely functional encoder, shown to append to the buffer what the model of the
writer appends.
-/

namespace Verif.RBytes.Refs

/-- The map of the writer. -/
structure St where
  objs : List (Nat × Nat)
  classes : List (List UInt8 × Nat)

def WS.of (w : WBuf) (st : St) : WS := ⟨w, st.objs, st.classes⟩

abbrev Enc := Option Nat → Nat → St → Option (List UInt8 × St)

def encParts (rec : Enc) : Parts → Nat → St → Option (List UInt8 × St)
  | .nil, _, st => some ([], st)
  | .data bs rest, pos, st =>
    (encParts rec rest (pos + bs.length) st).bind fun q => some (bs ++ q.1, q.2)
  | .ref o rest, pos, st =>
    (rec o pos st).bind fun a =>
    (encParts rec rest (pos + a.1.length) a.2).bind fun q => some (a.1 ++ q.1, q.2)
  | .block vers inner rest, pos, st =>
    (encParts rec inner (pos + 6) st).bind fun a =>
    (encParts rec rest (pos + 6 + a.1.length) a.2).bind fun q =>
    some (hdrEnc vers a.1.length ++ a.1 ++ q.1, q.2)

/-- What is written of a class name: up to a NUL. -/
def cname (c : List UInt8) : List UInt8 := c.takeWhile (· != 0)

def encAny (G : Nat → Node) : Nat → Enc
  | 0, _, _, _ => none
  | _ + 1, none, _, st => some (beEnc 4 0, st)
  | fuel + 1, some i, pos, st =>
    match st.objs.lookup i with
    | some ref => some (beEnc 4 (2 ^ 30 + 4) ++ beEnc 4 ref, st)
    | none =>
      match st.classes.lookup (G i).cls with
      | none =>
        (encParts (encAny G fuel) (G i).parts (pos + 8 + ((cname (G i).cls).length + 1))
          { classes := ((G i).cls, (pos + 6) ||| 2 ^ 31) :: st.classes,
            objs := (i, pos + 2) :: st.objs }).bind fun q =>
        some (beEnc 4 (2 ^ 30 + (4 + ((cname (G i).cls).length + 1) + q.1.length)) ++
          (beEnc 4 (2 ^ 32 - 1) ++ (cname (G i).cls ++ [0]) ++ q.1), q.2)
      | some ref =>
        (encParts (encAny G fuel) (G i).parts (pos + 8) st).bind fun q =>
        some (beEnc 4 (2 ^ 30 + (4 + q.1.length)) ++ (beEnc 4 (ref ||| 2 ^ 31) ++ q.1),
          { q.2 with objs := (i, pos + 2) :: q.2.objs })

/-! ### The writer appends the encoding -/

/-- `rec` appends what `recE` computes. -/
def Writes (rec : Option Nat → WS → Option WS) (recE : Enc) : Prop :=
  ∀ o pos st bs st', recE o pos st = some (bs, st') → pos + bs.length < 2 ^ 30 →
    ∀ w : WBuf, w.WF → w.pos = pos →
      ∃ w', rec o (WS.of w st) = some (WS.of w' st') ∧ w'.WF ∧ w'.bytes = w.bytes ++ bs ∧
        w'.offset = w.offset

theorem pos_eq {w : WBuf} (h : w.WF) : w.pos = w.bytes.length + w.offset := by
  rw [WBuf.length_bytes h]; rfl

theorem pos_append {w w' : WBuf} (h : w.WF) (h' : w'.WF) {bs : List UInt8}
    (hb : w'.bytes = w.bytes ++ bs) (ho : w'.offset = w.offset) : w'.pos = w.pos + bs.length := by
  rw [pos_eq h, pos_eq h', hb, ho]; simp; omega

theorem writeParts_spec {rec : Option Nat → WS → Option WS} {recE : Enc} (hr : Writes rec recE) :
    ∀ (ps : Parts) pos st bs st', encParts recE ps pos st = some (bs, st') →
      pos + bs.length < 2 ^ 30 → ∀ w : WBuf, w.WF → w.pos = pos →
      ∃ w', writeParts rec ps (WS.of w st) = some (WS.of w' st') ∧ w'.WF ∧
        w'.bytes = w.bytes ++ bs ∧ w'.offset = w.offset := by
  intro ps
  induction ps with
  | nil =>
    intro pos st bs st' he _ w hw _
    simp only [encParts, Option.some.injEq, Prod.mk.injEq] at he
    obtain ⟨rfl, rfl⟩ := he
    exact ⟨w, rfl, hw, by simp, rfl⟩
  | data ds rest ih =>
    intro pos st bs st' he hlt w hw hpos
    simp only [encParts, Option.bind_eq_some_iff, Option.some.injEq, Prod.mk.injEq] at he
    obtain ⟨q, hq, rfl, rfl⟩ := he
    simp only [List.length_append] at hlt
    obtain ⟨w1, e1, h1, b1, o1⟩ := grow_put_appends ds.length ds (Nat.le_refl _) w hw
    obtain ⟨w2, e2, h2, b2, o2⟩ := ih (pos + ds.length) st q.1 q.2 hq (by omega) w1 h1
      (by rw [pos_append hw h1 b1 o1, hpos])
    refine ⟨w2, ?_, h2, by rw [b2, b1, List.append_assoc], by rw [o2, o1]⟩
    simp only [writeParts, WS.of]
    dsimp only at e1
    rw [e1, Option.bind_some]
    exact e2
  | ref o rest ih =>
    intro pos st bs st' he hlt w hw hpos
    simp only [encParts, Option.bind_eq_some_iff, Option.some.injEq, Prod.mk.injEq] at he
    obtain ⟨a, ha, q, hq, rfl, rfl⟩ := he
    simp only [List.length_append] at hlt
    obtain ⟨w1, e1, h1, b1, o1⟩ := hr o pos st a.1 a.2 ha (by omega) w hw hpos
    obtain ⟨w2, e2, h2, b2, o2⟩ := ih (pos + a.1.length) a.2 q.1 q.2 hq (by omega) w1 h1
      (by rw [pos_append hw h1 b1 o1, hpos])
    refine ⟨w2, ?_, h2, by rw [b2, b1, List.append_assoc], by rw [o2, o1]⟩
    simp only [writeParts]
    rw [e1, Option.bind_some]
    exact e2
  | block vers inner rest ih1 ih2 =>
    intro pos st bs st' he hlt w hw hpos
    simp only [encParts, Option.bind_eq_some_iff, Option.some.injEq, Prod.mk.injEq] at he
    obtain ⟨a, ha, q, hq, rfl, rfl⟩ := he
    simp only [List.length_append] at hlt
    have hh : (hdrEnc vers a.1.length).length = 6 := by simp [hdrEnc]
    obtain ⟨w1, e1, h1, b1, o1⟩ := writeHeader_spec vers hw
    obtain ⟨w2, e2, h2, b2, o2⟩ := ih1 (pos + 6) st a.1 a.2 ha (by omega) w1 h1
      (by rw [pos_append hw h1 b1 o1, hpos]; simp)
    have hp0 : w.pos = w.bytes.length + w2.offset := by rw [pos_eq hw, o2, o1]
    obtain ⟨w3, e3, h3, b3, o3⟩ := setHeader_spec h2 vers w.bytes (beEnc 4 0)
      (beEnc 2 vers.toNat ++ a.1) (by simp) (by rw [b2, b1]; simp) (by simp; omega)
    have hb3 : w3.bytes = w.bytes ++ (hdrEnc vers a.1.length ++ a.1) := by
      rw [b3]
      simp only [hdrEnc, List.append_assoc]
      rw [show (beEnc 2 vers.toNat ++ a.1).length = a.1.length + 2 by simp; omega,
        or_eq_add _ (by omega)]
    have ho3 : w3.offset = w.offset := by rw [o3, o2, o1]
    obtain ⟨w4, e4, h4, b4, o4⟩ := ih2 (pos + 6 + a.1.length) a.2 q.1 q.2 hq (by omega) w3 h3
      (by rw [pos_append hw h3 hb3 ho3, hpos, List.length_append, hh]; omega)
    refine ⟨w4, ?_, h4, by rw [b4, hb3, List.append_assoc], by rw [o4, ho3]⟩
    simp only [writeParts]
    rw [show (WS.of w st).w = w from rfl, e1, Option.bind_some]
    dsimp only
    rw [show ({ WS.of w st with w := w1 } : WS) = WS.of w1 st from rfl, e2, Option.bind_some,
      show (WS.of w2 a.2).w = w2 from rfl, hp0, e3, Option.bind_some]
    exact e4

/-- Overwriting the byte count. -/
theorem patch_spec {w : WBuf} (h : w.WF) (pre old new bs : List UInt8) (ho : old.length = 4)
    (hn : new.length = 4) (hb : w.bytes = pre ++ (old ++ bs)) :
    ∃ w', (w.setPos (pre.length + w.offset)).put new = some w' ∧ (w'.setPos w.pos).WF ∧
      (w'.setPos w.pos).bytes = pre ++ (new ++ bs) ∧ (w'.setPos w.pos).offset = w.offset := by
  have hc : w.c = pre.length + 4 + bs.length := by
    have := WBuf.length_bytes h
    rw [hb] at this
    simp [ho] at this; omega
  have hle := h.pos_le
  have hp : w.p = pre ++ (old ++ (bs ++ w.p.drop w.c)) := by
    have := (List.take_append_drop w.c w.p).symm
    rw [show w.p.take w.c = _ from hb] at this
    simpa using this
  have e1 : w.p.take pre.length = pre := by rw [hp]; simp
  have e2 : w.p.drop (pre.length + 4) = bs ++ w.p.drop w.c := by
    conv => lhs; rw [hp, ← List.append_assoc, List.drop_left' (by simp [ho])]
  refine ⟨_, if_pos ?_, ⟨?_, h.no_err⟩, ?_, rfl⟩
  · simp only [WBuf.setPos, hn]; omega
  · simp only [WBuf.setPos, WBuf.pos, Nat.add_sub_cancel, hn, e1, e2]
    simp [hn]; omega
  · simp only [WBuf.setPos, WBuf.bytes, WBuf.pos, Nat.add_sub_cancel, hn, e1, e2]
    rw [show w.c = (pre ++ new ++ bs).length by simp [hn]; omega, ← List.append_assoc,
      List.take_left']
    · simp
    · rfl

theorem cnt_eq {n : Nat} (h : n < 2 ^ 30) : cnt n = 2 ^ 30 + n := by
  unfold cnt
  rw [or_eq_add n h, Nat.mod_eq_of_lt (by omega)]

/-- Class names are written whole. -/
def ClsOk (c : List UInt8) : Prop := c.length < 80 ∧ (0 : UInt8) ∉ c

theorem cname_eq {c : List UInt8} (h : (0 : UInt8) ∉ c) : cname c = c := by
  unfold cname
  induction c with
  | nil => rfl
  | cons a c ih =>
    have ha : a ≠ 0 := fun e => h (by simp [e])
    simp [ha, ih (fun hm => h (by simp [hm]))]

theorem writeAny_spec (G : Nat → Node) :
    ∀ fuel, Writes (writeAny G fuel) (encAny G fuel) := by
  intro fuel
  induction fuel with
  | zero => intro o pos st bs st' he; simp [encAny] at he
  | succ fuel ih =>
    intro o pos st bs st' he hlt w hw hpos
    have hne : ((WS.of w st).w.err) = false := hw.no_err
    cases o with
    | none =>
      simp only [encAny, Option.some.injEq, Prod.mk.injEq] at he
      obtain ⟨rfl, rfl⟩ := he
      obtain ⟨w1, e1, h1, b1, o1⟩ := writeBE_appends 4 0 w hw
      refine ⟨w1, ?_, h1, b1, o1⟩
      simp only [writeAny, hne]
      rw [show (WS.of w st).w = w from rfl, e1]; rfl
    | some i =>
      obtain ⟨w1, e1, h1, b1, o1⟩ := writeBE_appends 4 0 w hw
      have p1 : w1.pos = pos + 4 := by rw [pos_append hw h1 b1 o1, hpos]; simp
      have hne1 : ((WS.of w1 st).w.err) = false := h1.no_err
      -- what is left to show: the class part
      suffices hcls : ∃ body n w2, bs = beEnc 4 (2 ^ 30 + n) ++ body ∧ w2.WF ∧
          w2.bytes = w1.bytes ++ body ∧ w2.offset = w1.offset ∧
          writeClass (writeAny G fuel) G pos i (WS.of w1 st) = some (2 ^ 30 + n, WS.of w2 st') by
        obtain ⟨body, n, w2, rfl, h2, b2, o2, e2⟩ := hcls
        have hp0 : pos = w.bytes.length + w2.offset := by rw [← hpos, pos_eq hw, o2, o1]
        obtain ⟨w3, e3, h3, b3, o3⟩ := patch_spec h2 w.bytes (beEnc 4 0) (beEnc 4 (2 ^ 30 + n)) body
          (by simp) (by simp) (by rw [b2, b1, List.append_assoc])
        refine ⟨w3.setPos w2.pos, ?_, h3, b3, by rw [o3, o2, o1]⟩
        simp only [writeAny, hne]
        rw [show (WS.of w st).w = w from rfl, e1, Option.bind_some, hpos]
        rw [show ({ WS.of w st with w := w1 } : WS) = WS.of w1 st from rfl]
        simp only [Bool.false_eq_true, if_false]
        rw [e2, Option.bind_some]
        simp only [WS.of, h2.no_err, Bool.false_eq_true, if_false]
        rw [hp0, e3]; rfl
      simp only [writeClass, hne1, Bool.false_eq_true, if_false]
      simp only [encAny] at he
      cases hl : st.objs.lookup i with
      | some ref =>
        simp only [hl, Option.some.injEq, Prod.mk.injEq] at he
        obtain ⟨rfl, rfl⟩ := he
        obtain ⟨w2, e2, h2, b2, o2⟩ := writeBE_appends 4 ref w1 h1
        refine ⟨beEnc 4 ref, 4, w2, rfl, h2, b2, o2, ?_⟩
        simp only [WS.of, hl, e2, Option.bind_some]
        rw [pos_append h1 h2 b2 o2]
        simp [cnt_eq]
      | none =>
        simp only [hl] at he
        cases hc : st.classes.lookup (G i).cls with
        | none =>
          simp only [hc, Option.bind_eq_some_iff, Option.some.injEq, Prod.mk.injEq] at he
          obtain ⟨q, hq, rfl, rfl⟩ := he
          simp only [List.length_append, length_beEnc, List.length_singleton] at hlt
          obtain ⟨w2, e2, h2, b2, o2⟩ := writeBE_appends 4 (2 ^ 32 - 1) w1 h1
          obtain ⟨w3, e3, h3, b3, o3⟩ := writeCString_appends (G i).cls w2 h2
          rw [show List.takeWhile (fun x => x != 0) (G i).cls = cname (G i).cls from rfl] at b3
          have p2 : w2.pos = pos + 8 := by rw [pos_append h1 h2 b2 o2, p1]; simp
          have p3 : w3.pos = pos + 8 + ((cname (G i).cls).length + 1) := by
            rw [pos_append h2 h3 b3 o3, p2]; simp
          obtain ⟨w4, e4, h4, b4, o4⟩ := writeParts_spec ih (G i).parts _ _ q.1 q.2 hq
            (by omega) w3 h3 p3
          refine ⟨_, _, w4, rfl, h4, by rw [b4, b3, b2]; simp, by rw [o4, o3, o2], ?_⟩
          simp only [WS.of, hl, hc, e2, e3, Option.bind_some]
          rw [show w1.pos + 2 = pos + 6 by omega]
          simp only [WS.of] at e4
          rw [e4, Option.bind_some]
          rw [pos_append h3 h4 b4 o4, p3, p1]
          rw [show pos + 8 + ((cname (G i).cls).length + 1) + q.1.length - (pos + 4)
            = 4 + ((cname (G i).cls).length + 1) + q.1.length by omega, cnt_eq (by omega)]
        | some ref =>
          simp only [hc, Option.bind_eq_some_iff, Option.some.injEq, Prod.mk.injEq] at he
          obtain ⟨q, hq, rfl, rfl⟩ := he
          simp only [List.length_append, length_beEnc] at hlt
          obtain ⟨w2, e2, h2, b2, o2⟩ := writeBE_appends 4 (ref ||| 2 ^ 31) w1 h1
          have p2 : w2.pos = pos + 8 := by rw [pos_append h1 h2 b2 o2, p1]; simp
          obtain ⟨w4, e4, h4, b4, o4⟩ := writeParts_spec ih (G i).parts _ _ q.1 q.2 hq
            (by omega) w2 h2 p2
          refine ⟨_, _, w4, rfl, h4, by rw [b4, b2]; simp, by rw [o4, o2], ?_⟩
          simp only [WS.of, hl, hc, e2, Option.bind_some]
          simp only [WS.of] at e4
          rw [e4, Option.bind_some]
          dsimp only
          rw [pos_append h2 h4 b4 o4, p2, p1]
          rw [show pos + 8 + q.1.length - (pos + 4) = 4 + q.1.length by omega, cnt_eq (by omega)]

end Verif.RBytes.Refs
