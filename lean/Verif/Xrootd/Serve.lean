import Verif.Xrootd.Props

/-!
# Malformed requests (C70)
-/

namespace Verif.Xrootd

/-- `m` reads exactly `k` bytes without error wherever they are present. -/
def Fixed {α : Type} (m : Rd α) (k : Nat) : Prop :=
  ∀ (b : Bytes) (p : Nat), p + k ≤ b.length → ∃ v, m ⟨b, p⟩ = .ok (v, ⟨b, p + k⟩)

/-- `m` does not panic at position `p` of `b`. -/
def Safe {α : Type} (m : Rd α) (b : Bytes) (p : Nat) : Prop := m ⟨b, p⟩ ≠ .panic

theorem Fixed.pure {α : Type} (v : α) : Fixed (Rd.pure v) 0 := fun _ _ _ => ⟨v, rfl⟩

theorem Fixed.bind {α β : Type} {m : Rd α} {f : α → Rd β} {k l : Nat} (h1 : Fixed m k)
    (h2 : ∀ v, Fixed (f v) l) : Fixed (m >>= f) (k + l) := by
  intro b p hp
  obtain ⟨v, hv⟩ := h1 b p (by omega)
  obtain ⟨w, hw⟩ := h2 v b (p + k) (by omega)
  refine ⟨w, ?_⟩
  show Rd.bind m f _ = _
  unfold Rd.bind
  rw [hv]
  simp only
  rw [hw, Nat.add_assoc]

theorem fixed_slice (k : Nat) : Fixed (rSlice k) k := by
  intro b p hp
  refine ⟨(b.drop p).take k, ?_⟩
  unfold rSlice
  rw [if_pos hp]

theorem fixed_arr (k : Nat) : Fixed (rArr k) k := by
  intro b p hp
  have hl : ((b.drop p).take k).length = k := by simp; omega
  unfold rArr rSlice
  rw [if_pos hp]
  simp only
  rw [dif_pos hl]
  exact ⟨_, rfl⟩

theorem fixed_u8 : Fixed rU8 1 := (fixed_slice 1).bind fun _ => Fixed.pure _
theorem fixed_u16 : Fixed rU16 2 := (fixed_slice 2).bind fun _ => Fixed.pure _
theorem fixed_i32 : Fixed rI32 4 := (fixed_slice 4).bind fun _ => Fixed.pure _
theorem fixed_i64 : Fixed rI64 8 := (fixed_slice 8).bind fun _ => Fixed.pure _
theorem fixed_skip (k : Nat) : Fixed (rSkip k) k := fun _ _ _ => ⟨(), rfl⟩

theorem fixed_ahead : Fixed dAhead 16 :=
  (fixed_arr 4).bind fun _ => fixed_i32.bind fun _ => fixed_i64.bind fun _ => Fixed.pure _

theorem fixed_aheads : ∀ n, Fixed (dAheads n) (16 * n)
  | 0 => Fixed.pure []
  | n + 1 => by
    have := fixed_ahead.bind fun a => (fixed_aheads n).bind fun as => Fixed.pure (a :: as)
    rw [show 16 * (n + 1) = 16 + (16 * n + 0) by omega]
    exact this

theorem Safe.bind {α β : Type} {m : Rd α} {f : α → Rd β} {k p : Nat} {b : Bytes} (h1 : Fixed m k)
    (hp : p + k ≤ b.length) (h2 : ∀ v, Safe (f v) b (p + k)) : Safe (m >>= f) b p := by
  obtain ⟨v, hv⟩ := h1 b p hp
  have := h2 v
  intro hc
  apply this
  have e : (m >>= f) ⟨b, p⟩ = f v ⟨b, p + k⟩ := by
    show Rd.bind m f _ = _
    unfold Rd.bind
    rw [hv]
  rw [← e]; exact hc

theorem Safe.skip {β : Type} {f : Unit → Rd β} {k p : Nat} {b : Bytes} (h : Safe (f ()) b (p + k)) :
    Safe (rSkip k >>= f) b p := h

theorem Safe.pure {α : Type} (v : α) (b : Bytes) (p : Nat) : Safe (Rd.pure v) b p := by
  intro h; cases h

theorem Safe.fail {α : Type} (b : Bytes) (p : Nat) : Safe (Xrootd.fail : Rd α) b p := by
  intro h; cases h

/-- A piece of the stream as `ReadRequest` returns it, with less than 2^31 bytes of data. -/
def Framed (b : Bytes) : Prop :=
  24 ≤ b.length ∧ b.length = 24 + beDec ((b.drop 20).take 4) ∧ beDec ((b.drop 20).take 4) < 2 ^ 31

theorem rLen_framed {b : Bytes} (h : Framed b) : rLen ⟨b, 20⟩ = .ok (((b.length - 24 : Nat) : Int), ⟨b, 24⟩) := by
  obtain ⟨h1, h2, h3⟩ := h
  have e : (rLen ⟨b, 20⟩ : Out (Int × RBuf)) = .ok ((BitVec.ofNat 32 (beDec ((b.drop 20).take 4))).toInt, ⟨b, 24⟩) := by
    show Rd.bind (Rd.bind (rSlice 4) _) _ _ = _
    unfold Rd.bind rSlice
    rw [if_pos (by show 20 + 4 ≤ b.length; omega)]
    rfl
  rw [e, toInt_ofNat_small h3]
  congr 3; omega

theorem Safe.lenBind {β : Type} {f : Int → Rd β} {b : Bytes} (h : Framed b)
    (h2 : Safe (f ((b.length - 24 : Nat) : Int)) b 24) : Safe (rLen >>= f) b 20 := by
  intro hc
  apply h2
  have e : (rLen >>= f) ⟨b, 20⟩ = f ((b.length - 24 : Nat) : Int) ⟨b, 24⟩ := by
    show Rd.bind rLen f _ = _
    unfold Rd.bind
    rw [rLen_framed h]
  rw [← e]; exact hc

theorem fixed_make (b : Bytes) (h : Framed b) {β : Type} {f : Bytes → Rd β} (hf : ∀ s r, f s r ≠ .panic) :
    Safe (rMake ((b.length - 24 : Nat) : Int) >>= f) b 24 := by
  have e : rMake ((b.length - 24 : Nat) : Int) = rSlice (b.length - 24) := by
    unfold rMake
    rw [if_neg (by omega), Int.toNat_natCast]
  rw [e]
  have := h.1
  exact Safe.bind (fixed_slice _) (by omega) (fun v => hf v _)

theorem Safe.str {β : Type} {f : Bytes → Rd β} {b : Bytes} (h : Framed b)
    (hf : ∀ s r, f s r ≠ .panic) : Safe (rStr >>= f) b 20 := by
  have e : (rStr >>= f) = (rLen >>= fun n => rMake n >>= f) := by
    funext r
    show Rd.bind (Rd.bind rLen rMake) f r = Rd.bind rLen (fun n => Rd.bind (rMake n) f) r
    unfold Rd.bind
    cases rLen r <;> rfl
  rw [e]
  exact Safe.lenBind h (fixed_make b h hf)

theorem safe_args {b : Bytes} (h : Framed b) (hn : 0 < b.length - 24) {β : Type} {f : ReadArgs → Rd β}
    (hf : ∀ s r, f s r ≠ .panic) : Safe (dArgs >>= f) b 20 := by
  have hs : Safe dArgs b 20 := by
    refine Safe.lenBind h (Safe.bind fixed_u8 (by omega) fun p => Safe.skip ?_)
    by_cases hc : ((b.length - 24 : Nat) : Int) < 8 ∨ (((b.length - 24 : Nat) : Int) - 8) % 16 ≠ 0
    · rw [if_pos hc]; exact Safe.fail _ _
    · rw [if_neg hc]
      refine Safe.bind (fixed_aheads _) ?_ fun as => Safe.pure _ _ _
      omega
  intro hc
  have e : Rd.bind dArgs f ⟨b, 20⟩ = .panic := hc
  unfold Rd.bind at e
  cases hd : dArgs ⟨b, 20⟩ with
  | ok v => rw [hd] at e; exact hf _ _ e
  | err => rw [hd] at e; cases e
  | panic => exact hs hd

theorem splitMv_safe (k : Nat) (s : Bytes) (r : RBuf) : splitMv k s r ≠ .panic := by
  unfold splitMv
  split
  · intro h; cases h
  · split
    · cases hk : s.idxOf? 32 with
      | none => intro h; cases h
      | some i =>
        simp only [cutMv]
        rw [if_pos (by have := (List.idxOf?_eq_some_iff.mp hk).1; omega)]
        intro h; cases h
    · simp only [cutMv]
      rw [if_pos (by omega)]
      intro h; cases h

/-- Each request type the server knows is unmarshalled without panic from any framed piece. -/
theorem serve_safe (id : BitVec 16) (b : Bytes) (h : Framed b) : Safe (serve id) b 4 := by
  have hlen := h.1
  have pp : ∀ {α : Type} (g : Bytes → α) (s : Bytes) (r : RBuf), (Rd.pure (g s) : Rd α) r ≠ .panic := by
    intro α g s r hc; cases hc
  have dec : ∀ d, decoder id.toNat = some d → served.contains id.toNat = true → Safe d b 4 := by
    intro d hd hs
    unfold decoder at hd
    have hmem : id.toNat ∈ served := by simpa using hs
    simp only [served, List.mem_cons, List.not_mem_nil, or_false] at hmem
    rcases hmem with e | e | e | e | e | e | e | e | e | e | e | e | e | e | e <;> rw [e] at hd <;>
      simp only [if_false, if_true, Nat.reduceEqDiff, Option.some.injEq] at hd <;> subst hd
    · exact Safe.bind fixed_i32 (by omega) fun _ => Safe.bind (fixed_arr 8) (by omega) fun _ => Safe.skip <|
        Safe.bind fixed_u8 (by omega) fun _ => Safe.bind fixed_u8 (by omega) fun _ =>
        Safe.bind fixed_u8 (by omega) fun _ => Safe.lenBind h (fixed_make b h (pp _))
    · exact Safe.bind fixed_i32 (by omega) fun _ => Safe.bind fixed_u8 (by omega) fun _ => Safe.skip <| Safe.pure _ _ _
    · exact Safe.skip <| Safe.bind fixed_u8 (by omega) fun _ => Safe.str h (pp _)
    · exact Safe.bind fixed_u16 (by omega) fun _ => Safe.bind fixed_u16 (by omega) fun _ => Safe.skip <|
        Safe.str h (pp _)
    · exact Safe.bind (fixed_arr 4) (by omega) fun _ => Safe.bind fixed_i64 (by omega) fun _ => Safe.skip <|
        Safe.pure _ _ _
    · refine Safe.bind (fixed_arr 4) (by omega) fun hd => Safe.bind fixed_i64 (by omega) fun off =>
        Safe.bind fixed_i32 (by omega) fun len => ?_
      show Safe _ b 20
      intro hc
      have e : (if ((b.length : Int) - (20 : Nat)) > 4 then (dArgs >>= fun a => Rd.pure (Req.read hd off len (some a)))
        else (rLen >>= fun alen => if alen = 0 then Rd.pure (Req.read hd off len none) else fail)) ⟨b, 20⟩
          = .panic := hc
      by_cases h4 : ((b.length : Int) - (20 : Nat)) > 4
      · rw [if_pos h4] at e
        exact safe_args h (by omega) (fun s r hc => by cases hc) e
      · rw [if_neg h4] at e
        refine Safe.lenBind (f := fun alen => if alen = 0 then Rd.pure (Req.read hd off len none) else fail) h ?_ e
        show Safe (if _ then _ else _) _ _
        by_cases h0 : ((b.length - 24 : Nat) : Int) = 0
        · rw [if_pos h0]; exact Safe.pure _ _ _
        · rw [if_neg h0]; exact Safe.fail _ _
    · exact Safe.bind (fixed_arr 4) (by omega) fun _ => Safe.bind fixed_i64 (by omega) fun _ =>
        Safe.bind fixed_u8 (by omega) fun _ => Safe.skip <| Safe.lenBind h (fixed_make b h (pp _))
    · exact Safe.bind fixed_u8 (by omega) fun _ => Safe.skip <| Safe.bind (fixed_arr 4) (by omega) fun _ =>
        Safe.str h (pp _)
    · exact Safe.bind (fixed_arr 4) (by omega) fun _ => Safe.skip <| Safe.pure _ _ _
    · exact Safe.bind (fixed_arr 4) (by omega) fun _ => Safe.bind fixed_i64 (by omega) fun _ => Safe.skip <|
        Safe.str h (pp _)
    · exact Safe.skip <| Safe.bind fixed_u16 (by omega) fun _ => Safe.str h (fun s r => splitMv_safe _ s r)
    · exact Safe.bind fixed_u8 (by omega) fun _ => Safe.skip <| Safe.bind fixed_u16 (by omega) fun _ =>
        Safe.str h (pp _)
    · exact Safe.skip <| Safe.pure _ _ _
    · exact Safe.skip <| Safe.str h (pp _)
    · exact Safe.skip <| Safe.str h (pp _)
  unfold serve
  split
  · next hs =>
    cases hd : decoder id.toNat with
    | some d => exact dec d hd hs
    | none => exact Safe.fail _ _
  · exact Safe.fail _ _

/-- C70: whatever bytes a client sends, each piece of less than 2 GiB that the server splits off the
connection is either unmarshalled or rejected with an error: it never panics. -/
theorem C70_no_panic_partial (s b rest : Bytes) (h : readRequest s = .ok b rest) (hb : b.length < 2 ^ 31) :
    handle.run b ≠ .panic := by
  have hf : Framed b := by
    unfold readRequest at h
    split at h
    · cases h
    · simp only at h
      split at h
      · cases h
      · next h1 h2 =>
        cases h
        have e : ((s.take (24 + beDec ((s.drop 20).take 4))).drop 20).take 4 = (s.drop 20).take 4 := by
          rw [List.drop_take, List.take_take]
          congr 1; omega
        have hl : (s.take (24 + beDec ((s.drop 20).take 4))).length = 24 + beDec ((s.drop 20).take 4) := by
          rw [List.length_take]; omega
        refine ⟨by omega, by rw [e, hl], by rw [e]; omega⟩
  have : Safe handle b 0 := by
    have hh : Fixed dReqHeader 4 := (fixed_arr 2).bind fun _ => fixed_u16.bind fun _ => Fixed.pure _
    refine Safe.bind hh (by have := hf.1; omega) fun v => ?_
    intro hc
    have e : Rd.bind (serve v.2) (fun q => Rd.pure (v.1, q)) ⟨b, 0 + 4⟩ = .panic := hc
    unfold Rd.bind at e
    cases hd : serve v.2 ⟨b, 0 + 4⟩ with
    | ok w => rw [hd] at e; cases e
    | err => rw [hd] at e; cases e
    | panic => exact serve_safe v.2 b hf hd
  intro hc
  unfold Rd.run at hc
  cases hd : handle ⟨b, 0⟩ with
  | ok w => rw [hd] at hc; cases hc
  | err => rw [hd] at hc; cases hc
  | panic => exact this hd

/-- A `read` request announcing one read-ahead of which only a part fits is rejected. -/
example : readRequest ([0, 1, 11, 197] ++ (wNext 16 ++ wStr (wNext 9))) = .ok ([0, 1, 11, 197] ++ (wNext 16 ++ wStr (wNext 9))) []
    ∧ handle.run ([0, 1, 11, 197] ++ (wNext 16 ++ wStr (wNext 9))) = .err := by
  constructor <;> decide +kernel

/-- C70 fails for requests with 2 GiB of data or more: the length is read as a negative number.
Here a `rm` request. -/
theorem C70_huge_counterexample (b : Bytes) (sid : Arr 2) (p d : Bytes) (hp : p.length = 16)
    (hd : 2 ^ 31 ≤ d.length) (hd2 : d.length < 2 ^ 32) (hb : b = wReqHeader sid 3014#16 ++ (p ++ wStr d)) :
    readRequest b = .ok b [] ∧ handle.run b = .panic := by
  have hh : (wReqHeader sid 3014#16).length = 4 := by simp [wReqHeader, wArr, wU16]
  have hw : (wLen d.length).length = 4 := by simp [wLen, wI32]
  have hlen : b.length = 24 + d.length := by
    rw [hb]
    simp only [List.length_append, hh, hp, wStr, hw]
    omega
  have hfield : (b.drop 20).take 4 = wLen d.length := by
    rw [hb, ← List.append_assoc, List.drop_left' (by simp [hh, hp])]
    unfold wStr
    rw [List.take_left' hw]
  have hn : beDec (wLen d.length) = d.length := by
    unfold wLen wI32
    rw [BitVec.toNat_ofNat, beDec_beEnc_of_lt (by omega)]
    omega
  constructor
  · unfold readRequest
    rw [if_neg (by omega)]
    simp only [hfield, hn]
    rw [if_neg (by omega), List.take_of_length_le (by omega), List.drop_of_length_le (by omega)]
  · have hr : Reads dReqHeader (wReqHeader sid 3014#16) (sid, 3014#16) :=
      (reads_arr sid).bind ((reads_u16 3014#16).map _)
    have h1 := hr [] (p ++ wStr d)
    simp only [List.nil_append, List.length_nil, Nat.zero_add, hh] at h1
    rw [← hb] at h1
    have hstr : rLen ⟨b, 20⟩ = .ok ((BitVec.ofNat 32 d.length).toInt, ⟨b, 24⟩) := by
      show Rd.bind (Rd.bind (rSlice 4) _) _ _ = _
      unfold Rd.bind rSlice
      rw [if_pos (by show 20 + 4 ≤ b.length; omega)]
      simp only
      rw [hfield]
      show Out.ok ((BitVec.ofNat 32 (beDec (wLen d.length))).toInt, _) = _
      rw [hn]
    have hneg : (BitVec.ofNat 32 d.length).toInt < 0 := by
      rw [BitVec.toInt_ofNat']
      simp only [Int.bmod_def]
      omega
    have hrm : dRm ⟨b, 4⟩ = .panic := by
      show Rd.bind (Rd.bind rLen rMake) _ ⟨b, 20⟩ = _
      unfold Rd.bind
      rw [hstr]
      simp only
      unfold rMake
      rw [if_pos hneg]
      rfl
    have : handle ⟨b, 0⟩ = .panic := by
      show Rd.bind dReqHeader _ _ = _
      unfold Rd.bind
      rw [h1]
      simp only
      show Rd.bind (serve 3014#16) _ _ = _
      have : serve 3014#16 = dRm := rfl
      rw [this]
      unfold Rd.bind
      rw [hrm]
    unfold Rd.run
    rw [this]

end Verif.Xrootd
