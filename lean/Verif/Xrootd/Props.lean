import Verif.Xrootd.Messages

/-!
# Properties of the XRootD encodings (C37, C40, C69, C70)
-/

namespace Verif.Xrootd

/-! ## C37: primitive values -/

/-- A primitive value. -/
inductive Item
  | u8 (v : BitVec 8)
  | u16 (v : BitVec 16)
  | i32 (v : BitVec 32)
  | i64 (v : BitVec 64)
  | len (n : Nat)
  | str (s : Bytes)
  | bytes (s : Bytes)
  | bool (b : Bool)
deriving DecidableEq

/-- The bytes written for a value. -/
def Item.write : Item → Bytes
  | .u8 v => wU8 v
  | .u16 v => wU16 v
  | .i32 v => wI32 v
  | .i64 v => wI64 v
  | .len n => wLen n
  | .str s => wStr s
  | .bytes s => s
  | .bool b => wBool b

/-- Read a value of the same kind (for bytes, of the same length) as `i`. -/
def Item.read : Item → Rd Item
  | .u8 _ => rU8 >>= fun v => Rd.pure (.u8 v)
  | .u16 _ => rU16 >>= fun v => Rd.pure (.u16 v)
  | .i32 _ => rI32 >>= fun v => Rd.pure (.i32 v)
  | .i64 _ => rI64 >>= fun v => Rd.pure (.i64 v)
  | .len _ => rLen >>= fun n => Rd.pure (.len n.toNat)
  | .str _ => rStr >>= fun s => Rd.pure (.str s)
  | .bytes s => rBytes s.length >>= fun s => Rd.pure (.bytes s)
  | .bool _ => rBool >>= fun b => Rd.pure (.bool b)

/-- Read values of the kinds of a list, one after the other. -/
def readItems : List Item → Rd (List Item)
  | [] => Rd.pure []
  | i :: is => do
    let v ← i.read
    let vs ← readItems is
    Rd.pure (v :: vs)

/-- Write values one after the other. -/
def writeItems : List Item → Bytes
  | [] => []
  | i :: is => i.write ++ writeItems is

/-- Lengths must fit in 31 bits, and there must be no Boolean. -/
def Item.Plain : Item → Prop
  | .len n => n < 2 ^ 31
  | .str s => s.length < 2 ^ 31
  | .bool _ => False
  | _ => True

theorem reads_item (i : Item) (h : i.Plain) : Reads i.read i.write i := by
  cases i with
  | u8 v => exact (reads_u8 v).map _
  | u16 v => exact (reads_u16 v).map _
  | i32 v => exact (reads_i32 v).map _
  | i64 v => exact (reads_i64 v).map _
  | len n =>
    exact (reads_len (n := n) h).map (fun k => Item.len k.toNat)
  | str s => exact (reads_str (s := s) h).map _
  | bytes s => exact (reads_slice s).map _
  | bool b => exact h.elim

/-- C37: any sequence of values without Booleans, written one after the other at any place of a
buffer, is read back, and the reader ends exactly behind the last byte. -/
theorem C37_roundtrip_partial (is : List Item) (h : ∀ i ∈ is, i.Plain) (pre post : Bytes) :
    readItems is ⟨pre ++ (writeItems is ++ post), pre.length⟩
      = .ok (is, ⟨pre ++ (writeItems is ++ post), pre.length + (writeItems is).length⟩) := by
  have key : Reads (readItems is) (writeItems is) is := by
    induction is with
    | nil => exact Reads.pure []
    | cons i is ih =>
      exact (reads_item i (h i (by simp))).bind ((ih (fun j hj => h j (by simp [hj]))).map (i :: ·))
  exact key pre post

example : readItems [.u16 513#16, .str [65, 66], .len 7, .i64 (-1)]
    ⟨[9] ++ (writeItems [.u16 513#16, .str [65, 66], .len 7, .i64 (-1)] ++ [3]), 1⟩
    = .ok ([.u16 513#16, .str [65, 66], .len 7, .i64 (-1)],
        ⟨[9] ++ (writeItems [.u16 513#16, .str [65, 66], .len 7, .i64 (-1)] ++ [3]), 1 + 20⟩) :=
  C37_roundtrip_partial _ (by simp [Item.Plain]) [9] [3]

/-- C37 fails for Booleans: at the end of a buffer reading one back panics, and before another
byte the value of that byte is returned instead (here `true` is read back as `false`). -/
theorem C37_bool_counterexample :
    (∀ (b : Bool) (pre : Bytes), rBool ⟨pre ++ wBool b, pre.length⟩ = .panic) ∧
    (∀ (b c : Bool) (pre post : Bytes),
      rBool ⟨pre ++ (wBool b ++ (wBool c ++ post)), pre.length⟩
        = .ok (c, ⟨pre ++ (wBool b ++ (wBool c ++ post)), pre.length + 1⟩)) := by
  constructor
  · intro b pre
    unfold rBool
    have : (pre ++ wBool b)[pre.length + 1]? = none := by
      apply List.getElem?_eq_none
      cases b <;> simp [wBool]
    rw [this]
  · intro b c pre post
    unfold rBool
    have : (pre ++ (wBool b ++ (wBool c ++ post)))[pre.length + 1]? = some (if c then 1 else 0) := by
      cases b <;> cases c <;> simp [wBool]
    simp only [this]
    cases c <;> rfl

/-! ## C69: requests -/

theorem reads_arr {n : Nat} (a : Arr n) : Reads (rArr n) (wArr a) a := by
  intro pre post
  have hl : (wArr a).length = n := by simp [wArr]
  have hs := reads_slice' (n := n) (b := wArr a) hl pre post
  unfold rArr
  rw [hs]
  simp only
  rw [dif_pos hl]
  rfl

/-- The part of variable length at the end of a request. -/
def Req.data : Req → Bytes
  | .auth _ c => c
  | .query _ _ a => a
  | .chmod _ p => p
  | .dirlist _ p => p
  | .login _ _ _ _ _ t => t
  | .mkdir _ _ p => p
  | .mv o n => o ++ [32] ++ n
  | .open _ _ p => p
  | .read _ _ _ (some a) => wU8 a.pathID ++ wNext 7 ++ marshalAheads a.aheads
  | .rm p => p
  | .rmdir p => p
  | .stat _ _ p => p
  | .write _ _ _ d => d
  | .admin r => r
  | .prepare _ _ _ ps => joinLines ps
  | .statx p => p
  | .verifyw _ _ _ _ d => d
  | .locate _ p => p
  | .truncate _ _ p => p
  | .sigver _ _ _ _ _ s => s
  | _ => []

/-- What a request may contain: less than 2^31 bytes of data; for `mv` a source path whose length
fits in 16 bits; for `prepare` paths without line breaks, and not a single empty path; for `write`
the data must be part of the request (path id 0) or empty. -/
def Req.Sendable (q : Req) : Prop :=
  q.data.length < 2 ^ 31 ∧
  match q with
  | .mv o _ => o.length < 2 ^ 16
  | .prepare _ _ _ ps => (∀ p ∈ ps, 10 ∉ p) ∧ ps ≠ [[]]
  | .write _ _ pid d => pid = 0#8 ∨ d = []
  | _ => True

theorem reads_aheads (as : List ReadAhead) : Reads (dAheads as.length) (marshalAheads as) as := by
  induction as with
  | nil => exact Reads.pure []
  | cons a as ih =>
    have h : Reads dAhead a.marshal a :=
      (reads_arr a.handle).bind ((reads_i32 a.length).bind ((reads_i64 a.offset).map _))
    exact h.bind (ih.map (a :: ·))

theorem length_marshalAheads (as : List ReadAhead) : (marshalAheads as).length = 16 * as.length := by
  induction as with
  | nil => rfl
  | cons a as ih =>
    simp only [marshalAheads, List.length_append, ih, ReadAhead.marshal, wArr, wI32, wI64,
      length_beEnc, List.length_cons, Vector.length_toList]
    omega

theorem reads_args (a : ReadArgs) (h : a.aheads.length * 16 + 8 < 2 ^ 31) : Reads dArgs a.marshal a := by
  refine (reads_len h).bind ((reads_u8 a.pathID).bind ((reads_skip 7).bind ?_))
  rw [if_neg (by omega)]
  have e : (((a.aheads.length * 16 + 8 : Nat) : Int) - 8) / 16 = a.aheads.length := by omega
  rw [e, Int.toNat_natCast]
  exact (reads_aheads a.aheads).map _

theorem splitOn_joinLines : ∀ (ps : List Bytes), ps ≠ [] → (∀ p ∈ ps, 10 ∉ p) → splitOn 10 (joinLines ps) = ps
  | [], h, _ => absurd rfl h
  | [p], _, h => splitOn_no_sep 10 p (h p (by simp))
  | p :: q :: ps, _, h => by
    show splitOn 10 (p ++ 10 :: joinLines (q :: ps)) = _
    rw [splitOn_append 10 p _ (h p (by simp)),
      splitOn_joinLines (q :: ps) (by simp) (fun x hx => h x (by simp [hx]))]

theorem joinLines_eq_nil : ∀ (ps : List Bytes), ps ≠ [[]] → joinLines ps = [] → ps = []
  | [], _, _ => rfl
  | [p], h, hj => by
    have : p = [] := hj
    subst this; exact absurd rfl h
  | p :: q :: ps, _, hj => by
    have : p ++ 10 :: joinLines (q :: ps) = [] := hj
    simp at this

theorem reads_splitMv {o n : Bytes} {k : Nat} (hk : k = o.length) :
    Reads (splitMv k (o ++ 32 :: n)) [] (.mv o n) := by
  subst hk
  unfold splitMv
  rw [if_neg (by simp)]
  split
  · next h0 =>
    have : o = [] := List.eq_nil_of_length_eq_zero h0
    subst this
    exact Reads.pure _
  · unfold cutMv
    rw [if_pos (by simp)]
    have : (Req.mv o n) = .mv ((o ++ 32 :: n).take o.length) ((o ++ 32 :: n).drop (o.length + 1)) := by
      simp [List.drop_append]
    rw [this]
    exact Reads.pure _

/-- The reader of each request type gets back what was marshalled. -/
theorem decoder_marshal (q : Req) (h : q.Sendable) :
    ∃ d, decoder q.id.toNat = some d ∧ ReadsLast d q.marshal q := by
  obtain ⟨hl, hx⟩ := h
  cases q with
  | auth t c => exact ⟨dAuth, rfl, ((reads_skip 12).bind ((reads_arr t).bind ((reads_str hl).map _))).last⟩
  | query q hd a =>
    refine ⟨dQuery, rfl, ((reads_u16 q).bind ((reads_skip 2).bind ((reads_arr hd).bind
      ((reads_skip 8).bind ((reads_len hl).bind ?_))))).last⟩
    have : Reads (rArgs a.length) a a := by
      unfold rArgs
      by_cases h0 : a = []
      · subst h0; exact Reads.pure []
      · have := List.length_pos_iff.mpr h0
        rw [if_pos (by omega)]; exact reads_make a
    exact this.map _
  | chmod m p => exact ⟨dChmod, rfl, ((reads_skip 14).bind ((reads_u16 m).bind ((reads_str hl).map _))).last⟩
  | close hd s => exact ⟨dClose, rfl, ((reads_arr hd).bind ((reads_i64 s).bind ((reads_skip 8).map _))).last⟩
  | dirlist o p => exact ⟨dDirlist, rfl, ((reads_skip 15).bind ((reads_u8 o).bind ((reads_str hl).map _))).last⟩
  | protocol v o => exact ⟨dProtocol, rfl, ((reads_i32 v).bind ((reads_u8 o).bind ((reads_skip 15).map _))).last⟩
  | login pid u a c r t =>
    exact ⟨dLogin, rfl, ((reads_i32 pid).bind ((reads_arr u).bind ((reads_skip 1).bind ((reads_u8 a).bind
      ((reads_u8 c).bind ((reads_u8 r).bind ((reads_len hl).bind ((reads_make t).map _)))))))).last⟩
  | mkdir o m p =>
    exact ⟨dMkdir, rfl, ((reads_u8 o).bind ((reads_skip 13).bind ((reads_u16 m).bind ((reads_str hl).map _)))).last⟩
  | mv o n =>
    have hx' : o.length < 2 ^ 16 := hx
    have hl' : (o ++ 32 :: n).length < 2 ^ 31 := by
      have : (o ++ [32] ++ n).length < 2 ^ 31 := hl
      simpa using this
    have e : wLen (o.length + n.length + 1) ++ (o ++ 32 :: n) = wStr (o ++ 32 :: n) := by
      unfold wStr
      have : (o ++ 32 :: n).length = o.length + n.length + 1 := by simp; omega
      rw [this]
    have r : Reads dMv (wNext 14 ++ (wU16 (BitVec.ofNat 16 o.length) ++ (wStr (o ++ 32 :: n) ++ []))) (.mv o n) :=
      (reads_skip 14).bind ((reads_u16 _).bind ((reads_str hl').bind
        (reads_splitMv (by rw [BitVec.toNat_ofNat]; omega))))
    rw [List.append_nil, ← e] at r
    exact ⟨dMv, rfl, r.last⟩
  | «open» m o p =>
    exact ⟨dOpen, rfl, ((reads_u16 m).bind ((reads_u16 o).bind ((reads_skip 12).bind ((reads_str hl).map _)))).last⟩
  | ping => exact ⟨dPing, rfl, ((reads_skip 20).map _).last⟩
  | read hd off len args =>
    refine ⟨dRead, rfl, ?_⟩
    cases args with
    | none =>
      refine (reads_arr hd).bindLast ((reads_i64 off).bindLast ((reads_i32 len).bindLast (readsLast_remaining ?_)))
      have : ((wLen 0).length : Int) = 4 := rfl
      rw [this, if_neg (by omega)]
      refine Reads.last ?_
      have h2 : Reads (if ((0 : Nat) : Int) = 0 then Rd.pure (Req.read hd off len none) else fail) []
          (.read hd off len none) := by
        rw [if_pos (by omega)]; exact Reads.pure _
      have := (reads_len (n := 0) (by omega)).bind (f := fun alen => if alen = 0 then
        Rd.pure (Req.read hd off len none) else fail) h2
      rwa [List.append_nil] at this
    | some a =>
      refine (reads_arr hd).bindLast ((reads_i64 off).bindLast ((reads_i32 len).bindLast (readsLast_remaining ?_)))
      have hlen : a.marshal.length = 12 + 16 * a.aheads.length := by
        simp [ReadArgs.marshal, wLen, wI32, wU8, wNext, length_marshalAheads]
        omega
      rw [if_pos (by rw [hlen]; omega)]
      have ha : a.aheads.length * 16 + 8 < 2 ^ 31 := by
        have : (wU8 a.pathID ++ wNext 7 ++ marshalAheads a.aheads).length < 2 ^ 31 := hl
        simp [wU8, wNext, length_marshalAheads] at this
        omega
      exact ((reads_args a ha).map _).last
  | rm p => exact ⟨dRm, rfl, ((reads_skip 16).bind ((reads_str hl).map _)).last⟩
  | rmdir p => exact ⟨dRmdir, rfl, ((reads_skip 16).bind ((reads_str hl).map _)).last⟩
  | sync hd => exact ⟨dSync, rfl, ((reads_arr hd).bind ((reads_skip 16).map _)).last⟩
  | stat o hd p =>
    exact ⟨dStat, rfl, ((reads_u8 o).bind ((reads_skip 11).bind ((reads_arr hd).bind ((reads_str hl).map _)))).last⟩
  | write hd off pid d =>
    have e : (if pid = 0#8 then d else []) = d := by
      rcases hx with hx | hx
      · rw [if_pos hx]
      · subst hx; split <;> rfl
    have r : Reads dWrite (wArr hd ++ (wI64 off ++ (wU8 pid ++ (wNext 3 ++ (wLen d.length ++ d))))) (.write hd off pid d) :=
      (reads_arr hd).bind ((reads_i64 off).bind ((reads_u8 pid).bind ((reads_skip 3).bind
        ((reads_len hl).bind ((reads_make d).map _)))))
    refine ⟨dWrite, rfl, ?_⟩
    show ReadsLast dWrite (wArr hd ++ (wI64 off ++ (wU8 pid ++ (wNext 3 ++ (wLen d.length
      ++ (if pid = 0#8 then d else [])))))) _
    rw [e]; exact r.last
  | admin r => exact ⟨dAdmin, rfl, ((reads_skip 16).bind ((reads_str hl).map _)).last⟩
  | prepare o pr port ps =>
    obtain ⟨hnl, hne⟩ := hx
    have hl' : (joinLines ps).length < 2 ^ 31 := hl
    have r : Reads dPrepare (Req.prepare o pr port ps).marshal
        (.prepare o pr port (if ((joinLines ps).length : Int) = 0 then [] else splitOn 10 (joinLines ps))) :=
      (reads_u8 o).bind ((reads_u8 pr).bind ((reads_u16 port).bind ((reads_skip 12).bind
        ((reads_len hl').bind ((reads_make (joinLines ps)).map (fun raw => Req.prepare o pr port
          (if ((joinLines ps).length : Int) = 0 then [] else splitOn 10 raw)))))))
    have e : (if ((joinLines ps).length : Int) = 0 then [] else splitOn 10 (joinLines ps)) = ps := by
      by_cases h0 : joinLines ps = []
      · rw [if_pos (by rw [h0]; rfl), joinLines_eq_nil ps hne h0]
      · have := List.length_pos_iff.mpr h0
        rw [if_neg (by omega)]
        apply splitOn_joinLines _ _ hnl
        intro hp; subst hp; exact h0 rfl
    rw [e] at r
    exact ⟨dPrepare, rfl, r.last⟩
  | statx p => exact ⟨dStatx, rfl, ((reads_skip 16).bind ((reads_str hl).map _)).last⟩
  | endsess s => exact ⟨dEndsess, rfl, ((reads_arr s).bind ((reads_i32 0#32).map _)).last⟩
  | bind s => exact ⟨dBind, rfl, ((reads_arr s).bind ((reads_skip 4).map _)).last⟩
  | verifyw hd off pid v d =>
    exact ⟨dVerifyw, rfl, ((reads_arr hd).bind ((reads_i64 off).bind ((reads_u8 pid).bind ((reads_u8 v).bind
      ((reads_skip 2).bind ((reads_len hl).bind ((reads_make d).map _))))))).last⟩
  | locate o p => exact ⟨dLocate, rfl, ((reads_u16 o).bind ((reads_skip 14).bind ((reads_str hl).map _))).last⟩
  | truncate hd s p =>
    exact ⟨dTruncate, rfl, ((reads_arr hd).bind ((reads_i64 s).bind ((reads_skip 4).bind ((reads_str hl).map _)))).last⟩
  | sigver id v f s c sig =>
    exact ⟨dSigver, rfl, ((reads_u16 id).bind ((reads_u8 v).bind ((reads_u8 f).bind ((reads_i64 s).bind
      ((reads_u8 c).bind ((reads_skip 3).bind ((reads_len hl).bind ((reads_make sig).map _)))))))).last⟩
  | decrypt => exact ⟨dDecrypt, rfl, ((reads_skip 16).bind ((reads_i32 0#32).map _)).last⟩

/-- C69: every request which can be sent is read back unchanged from its bytes by the reader for
its request id. -/
theorem C69_requests_partial (q : Req) (h : q.Sendable) :
    ∃ d, decoder q.id.toNat = some d ∧ d.run q.marshal = .ok q := by
  obtain ⟨d, hd, hr⟩ := decoder_marshal q h
  exact ⟨d, hd, hr.run⟩

example : dMv.run (Req.mv [97, 32, 98] [99]).marshal = .ok (.mv [97, 32, 98] [99]) := by
  obtain ⟨d, hd, hr⟩ := C69_requests_partial (.mv [97, 32, 98] [99]) ⟨by decide, by decide⟩
  cases hd; exact hr

/-- C69 fails for source paths of 65537 bytes: only the last 16 bits of the length are sent, and
the paths are split after the first byte. -/
theorem C69_mv_counterexample (o n : Bytes) (ho : o.length = 65537) (hn : n.length < 2 ^ 30) :
    dMv.run (Req.mv o n).marshal = .ok (.mv (o.take 1) (o.drop 2 ++ 32 :: n)) ∧ o.take 1 ≠ o := by
  have hL : (o ++ 32 :: n).length = o.length + n.length + 1 := by simp; omega
  have e : wLen (o.length + n.length + 1) ++ (o ++ 32 :: n) = wStr (o ++ 32 :: n) := by
    unfold wStr; rw [hL]
  have key : splitMv 1 (o ++ 32 :: n) = Rd.pure (.mv (o.take 1) (o.drop 2 ++ 32 :: n)) := by
    unfold splitMv cutMv
    rw [if_neg (by rw [hL]; omega), if_neg (by omega), if_pos (by rw [hL]; omega), List.take_append_of_le_length (by omega),
      List.drop_append_of_le_length (by omega)]
  have r : Reads dMv (wNext 14 ++ (wU16 (BitVec.ofNat 16 o.length) ++ (wStr (o ++ 32 :: n) ++ [])))
      (.mv (o.take 1) (o.drop 2 ++ 32 :: n)) := by
    refine (reads_skip 14).bind ((reads_u16 _).bind ((reads_str (by rw [hL]; omega)).bind ?_))
    have : (BitVec.ofNat 16 o.length).toNat = 1 := by rw [ho]; rfl
    rw [this, key]; exact Reads.pure _
  rw [List.append_nil, ← e] at r
  refine ⟨r.run, fun he => ?_⟩
  have := congrArg List.length he
  rw [List.length_take] at this
  omega

example : (List.replicate 65537 (97 : UInt8)).length = 65537 ∧ ([98] : Bytes).length < 2 ^ 30 :=
  ⟨List.length_replicate .., by decide⟩

/-- C69 fails for a `prepare` request with one empty path: it arrives without paths. -/
theorem C69_prepare_counterexample (o pr : BitVec 8) (port : BitVec 16) :
    dPrepare.run (Req.prepare o pr port [[]]).marshal = .ok (.prepare o pr port []) := by
  have r : Reads dPrepare (Req.prepare o pr port [[]]).marshal (.prepare o pr port []) :=
    (reads_u8 o).bind ((reads_u8 pr).bind ((reads_u16 port).bind ((reads_skip 12).bind
      ((reads_len (n := 0) (by omega)).bind ((reads_make []).map (fun raw => Req.prepare o pr port
        (if (0 : Int) = 0 then [] else splitOn 10 raw)))))))
  exact r.run

/-! ## C40: framing -/

/-- The length of the parameters and the length field are where `ReadRequest` expects them. -/
theorem wire_frame (sid : Arr 2) (q : Req) (h : q.Sendable) :
    ∃ p, q.wire sid = p ++ wStr q.data ∧ p.length = 20 := by
  obtain ⟨hl, hx⟩ := h
  have close : ∀ (a b : Bytes), q.marshal = a ++ wStr q.data → a.length = 16 →
      ∃ p, q.wire sid = p ++ wStr q.data ∧ p.length = 20 := by
    intro a _ e hla
    refine ⟨wReqHeader sid q.id ++ a, by simp [Req.wire, e], ?_⟩
    simp [wReqHeader, wArr, wU16, hla]
  cases q with
  | auth t c => exact close (wNext 12 ++ wArr t) [] (by simp [Req.marshal, Req.data]) (by simp [wNext, wArr])
  | query q hd a =>
    exact close (wU16 q ++ (wNext 2 ++ (wArr hd ++ wNext 8))) []
      (by simp [Req.marshal, Req.data, wStr]) (by simp [wNext, wArr, wU16])
  | chmod m p => exact close (wNext 14 ++ wU16 m) [] (by simp [Req.marshal, Req.data]) (by simp [wNext, wU16])
  | close hd s =>
    exact close (wArr hd ++ (wI64 s ++ wNext 4)) []
      (by simp [Req.marshal, Req.data, wStr, wNext]; rfl) (by simp [wNext, wI64, wArr])
  | dirlist o p => exact close (wNext 15 ++ wU8 o) [] (by simp [Req.marshal, Req.data]) (by simp [wNext, wU8])
  | protocol v o =>
    exact close (wI32 v ++ (wU8 o ++ wNext 11)) []
      (by simp [Req.marshal, Req.data, wStr, wNext]; rfl) (by simp [wNext, wI32, wU8])
  | login pid u a c r t =>
    exact close (wI32 pid ++ (wArr u ++ (wNext 1 ++ (wU8 a ++ (wU8 c ++ wU8 r))))) []
      (by simp [Req.marshal, Req.data, wStr]) (by simp [wNext, wI32, wU8, wArr])
  | mkdir o m p =>
    exact close (wU8 o ++ (wNext 13 ++ wU16 m)) [] (by simp [Req.marshal, Req.data]) (by simp [wNext, wU8, wU16])
  | mv o n =>
    refine close (wNext 14 ++ wU16 (BitVec.ofNat 16 o.length)) [] ?_ (by simp [wNext, wU16])
    have : (o ++ [32] ++ n).length = o.length + n.length + 1 := by simp; omega
    simp only [Req.marshal, Req.data, wStr, this]
    simp
  | «open» m o p =>
    exact close (wU16 m ++ (wU16 o ++ wNext 12)) [] (by simp [Req.marshal, Req.data]) (by simp [wNext, wU16])
  | ping => exact close (wNext 16) [] (by simp [Req.marshal, Req.data, wStr, wNext]; rfl) (by simp [wNext])
  | read hd off len args =>
    cases args with
    | none =>
      exact close (wArr hd ++ (wI64 off ++ wI32 len)) []
        (by simp [Req.marshal, Req.data, wStr]) (by simp [wArr, wI64, wI32])
    | some a =>
      refine close (wArr hd ++ (wI64 off ++ wI32 len)) [] ?_ (by simp [wArr, wI64, wI32])
      have : (wU8 a.pathID ++ wNext 7 ++ marshalAheads a.aheads).length = a.aheads.length * 16 + 8 := by
        simp [wU8, wNext, length_marshalAheads]; omega
      simp only [Req.marshal, Req.data, wStr, this, ReadArgs.marshal]
      simp
  | rm p => exact close (wNext 16) [] (by simp [Req.marshal, Req.data]) (by simp [wNext])
  | rmdir p => exact close (wNext 16) [] (by simp [Req.marshal, Req.data]) (by simp [wNext])
  | sync hd =>
    exact close (wArr hd ++ wNext 12) [] (by simp [Req.marshal, Req.data, wStr, wNext]; rfl) (by simp [wNext, wArr])
  | stat o hd p =>
    exact close (wU8 o ++ (wNext 11 ++ wArr hd)) [] (by simp [Req.marshal, Req.data]) (by simp [wNext, wU8, wArr])
  | write hd off pid d =>
    have e : (if pid = 0#8 then d else []) = d := by
      rcases hx with hx | hx
      · rw [if_pos hx]
      · subst hx; split <;> rfl
    exact close (wArr hd ++ (wI64 off ++ (wU8 pid ++ wNext 3))) []
      (by simp only [Req.marshal, Req.data, wStr, e]; simp) (by simp [wNext, wI64, wU8, wArr])
  | admin r => exact close (wNext 16) [] (by simp [Req.marshal, Req.data]) (by simp [wNext])
  | prepare o pr port ps =>
    exact close (wU8 o ++ (wU8 pr ++ (wU16 port ++ wNext 12))) []
      (by simp [Req.marshal, Req.data, wStr]) (by simp [wNext, wU8, wU16])
  | statx p => exact close (wNext 16) [] (by simp [Req.marshal, Req.data]) (by simp [wNext])
  | endsess s => exact close (wArr s) [] (by simp [Req.marshal, Req.data, wStr]; rfl) (by simp [wArr])
  | bind s => exact close (wArr s) [] (by simp [Req.marshal, Req.data, wStr]; rfl) (by simp [wArr])
  | verifyw hd off pid v d =>
    exact close (wArr hd ++ (wI64 off ++ (wU8 pid ++ (wU8 v ++ wNext 2)))) []
      (by simp [Req.marshal, Req.data, wStr]) (by simp [wNext, wI64, wU8, wArr])
  | locate o p => exact close (wU16 o ++ wNext 14) [] (by simp [Req.marshal, Req.data]) (by simp [wNext, wU16])
  | truncate hd s p =>
    exact close (wArr hd ++ (wI64 s ++ wNext 4)) [] (by simp [Req.marshal, Req.data]) (by simp [wNext, wI64, wArr])
  | sigver id v f s c sig =>
    exact close (wU16 id ++ (wU8 v ++ (wU8 f ++ (wI64 s ++ (wU8 c ++ wNext 3))))) []
      (by simp [Req.marshal, Req.data, wStr]) (by simp [wNext, wI64, wU8, wU16])
  | decrypt => exact close (wNext 16) [] (by simp [Req.marshal, Req.data, wStr]; rfl) (by simp [wNext])

theorem readRequest_frame {p d : Bytes} (hp : p.length = 20) (hd : d.length < 2 ^ 31) (rest : Bytes) :
    readRequest (p ++ wStr d ++ rest) = .ok (p ++ wStr d) rest := by
  have hL : (wStr d).length = 4 + d.length := by simp [wStr, wLen, wI32]
  have hn : beDec (((p ++ wStr d ++ rest).drop 20).take 4) = d.length := by
    have : ((p ++ wStr d ++ rest).drop 20).take 4 = wLen d.length := by
      rw [List.append_assoc, List.drop_left' hp]
      unfold wStr
      rw [List.append_assoc, List.take_left' (by simp [wLen, wI32])]
    rw [this]
    unfold wLen wI32
    rw [BitVec.toNat_ofNat, beDec_beEnc_of_lt (by omega)]
    omega
  unfold readRequest
  rw [if_neg (by simp [hp, hL]; omega)]
  simp only [hn]
  rw [if_neg (by simp [hp, hL]; omega), List.take_left' (by simp [hp, hL]; omega),
    List.drop_left' (by simp [hp, hL]; omega)]

/-- Read requests from a stream until it is empty (at most `n`). -/
def readRequests : Nat → Bytes → Option (List Bytes)
  | 0, s => if s = [] then some [] else none
  | n + 1, s => match readRequest s with
    | .ok b rest => (readRequests n rest).map (b :: ·)
    | _ => none

/-- C40: any sequence of requests written to a connection is split into the same sequence, and the
server finds in each piece the stream id and, if it serves the request type, the request. -/
theorem C40_requests_partial (qs : List (Arr 2 × Req)) (h : ∀ q ∈ qs, q.2.Sendable) :
    readRequests qs.length (qs.map fun q => q.2.wire q.1).flatten = some (qs.map fun q => q.2.wire q.1) ∧
    ∀ q ∈ qs, served.contains q.2.id.toNat = true → handle.run (q.2.wire q.1) = .ok q := by
  constructor
  · induction qs with
    | nil => rfl
    | cons q qs ih =>
      obtain ⟨p, hp, hlen⟩ := wire_frame q.1 q.2 (h q (by simp))
      have := readRequest_frame hlen (h q (by simp)).1 ((qs.map fun q => q.2.wire q.1).flatten)
      rw [← hp] at this
      simp only [List.map_cons, List.flatten_cons, List.length_cons, readRequests, this,
        ih (fun q hq => h q (by simp [hq])), Option.map_some]
  · intro q hq hs
    obtain ⟨d, hd, hr⟩ := decoder_marshal q.2 (h q hq)
    have hserve : serve q.2.id = d := by
      unfold serve
      rw [if_pos hs, hd]
    have hh : Reads dReqHeader (wReqHeader q.1 q.2.id) (q.1, q.2.id) :=
      (reads_arr q.1).bind ((reads_u16 q.2.id).map _)
    have : ReadsLast handle (wReqHeader q.1 q.2.id ++ q.2.marshal) (q.1, q.2) := by
      refine hh.bindLast ?_
      show ReadsLast (serve q.2.id >>= fun x => Rd.pure (q.1, x)) _ _
      rw [hserve]
      exact hr.bindPure (fun x => (q.1, x))
    exact this.run

example : readRequests 2 ((Req.rm [97]).wire #v[0, 1] ++ ((Req.ping).wire #v[0, 2] ++ []))
    = some [(Req.rm [97]).wire #v[0, 1], Req.ping.wire #v[0, 2]] :=
  (C40_requests_partial [(#v[0, 1], .rm [97]), (#v[0, 2], .ping)] (by
    intro q hq; simp at hq; rcases hq with rfl | rfl <;> exact ⟨by decide, trivial⟩)).1

theorem dRespHeader_run (sid : Arr 2) (st : BitVec 16) (n : BitVec 32) :
    dRespHeader.run (wRespHeader sid st n) = .ok (sid, st, n) :=
  Reads.run ((reads_arr sid).bind ((reads_u16 st).bind ((reads_i32 n).map _)))

theorem readResponse_write (sid : Arr 2) (st : BitVec 16) {d : Bytes} (hd : d.length < 2 ^ 31) (rest : Bytes) :
    readResponse (writeResponse sid st d ++ rest) = .ok (sid, st, d) rest := by
  have hh : (wRespHeader sid st (BitVec.ofNat 32 d.length)).length = 8 := by simp [wRespHeader, wArr, wU16, wI32]
  unfold readResponse writeResponse
  rw [if_neg (by simp [hh]), List.append_assoc, List.take_left' hh, dRespHeader_run]
  simp only
  have hn : (BitVec.ofNat 32 d.length).toNat = d.length := by rw [BitVec.toNat_ofNat]; omega
  have hi := toInt_ofNat_small hd
  by_cases h0 : d = []
  · subst h0
    rw [if_pos (by rfl), List.drop_left' hh]; rfl
  · have hpos := List.length_pos_iff.mpr h0
    rw [if_neg (by intro he; rw [he] at hn; simp at hn; omega), if_neg (by omega), hn,
      if_neg (by simp [hh]), List.drop_left' hh, List.take_left' rfl]
    congr 1
    rw [← List.append_assoc, List.drop_left' (by simp [hh])]

/-- Read responses from a stream until it is empty (at most `n`). -/
def readResponses : Nat → Bytes → Option (List (Arr 2 × BitVec 16 × Bytes))
  | 0, s => if s = [] then some [] else none
  | n + 1, s => match readResponse s with
    | .ok b rest => (readResponses n rest).map (b :: ·)
    | _ => none

/-- C40: any sequence of responses is read back with stream ids, statuses and data. -/
theorem C40_responses_partial (rs : List (Arr 2 × BitVec 16 × Bytes)) (h : ∀ r ∈ rs, r.2.2.length < 2 ^ 31) :
    readResponses rs.length (rs.map fun r => writeResponse r.1 r.2.1 r.2.2).flatten = some rs := by
  induction rs with
  | nil => rfl
  | cons r rs ih =>
    simp only [List.map_cons, List.flatten_cons, List.length_cons, readResponses,
      readResponse_write r.1 r.2.1 (h r (by simp)), ih (fun q hq => h q (by simp [hq])), Option.map_some]

example : readResponses 2 (writeResponse #v[0, 1] 4000#16 [1, 2] ++ (writeResponse #v[0, 2] 0#16 [] ++ []))
    = some [(#v[0, 1], 4000#16, [1, 2]), (#v[0, 2], 0#16, [])] :=
  C40_responses_partial [(#v[0, 1], 4000#16, [1, 2]), (#v[0, 2], 0#16, [])] (by decide)

/-- C40 fails for a response with 2^32 bytes of data: its length is sent as 0, the client takes it
for an empty response and its data for the next header. -/
theorem C40_huge_counterexample (sid : Arr 2) (st : BitVec 16) :
    ∃ d : Bytes, ∀ rest, readResponse (writeResponse sid st d ++ rest) = .ok (sid, st, []) (d ++ rest) ∧ d ≠ [] := by
  refine ⟨List.replicate (2 ^ 32) 0, fun rest => ⟨?_, ?_⟩⟩
  · have hz : BitVec.ofNat 32 (List.replicate (2 ^ 32) (0 : UInt8)).length = 0#32 := by
      rw [List.length_replicate]; rfl
    have hh : (wRespHeader sid st 0#32).length = 8 := by simp [wRespHeader, wArr, wU16, wI32]
    unfold readResponse writeResponse
    rw [hz, if_neg (by rw [List.length_append, List.length_append, hh]; omega), List.append_assoc, List.take_left' hh, dRespHeader_run]
    simp only
    rw [if_pos trivial, List.drop_left' hh]
  · intro he
    have := congrArg List.length he
    rw [List.length_replicate] at this
    simp at this

/-- C40: the data of a `write` request with a path id is not part of the request although it counts
in its length: on a single connection the next requests are taken for the data. -/
theorem C40_pathID_counterexample :
    readRequest ((Req.write #v[0, 0, 0, 1] 0#64 1#8 (List.replicate 24 7)).wire #v[0, 1] ++ Req.ping.wire #v[0, 2])
      = .ok ((Req.write #v[0, 0, 0, 1] 0#64 1#8 (List.replicate 24 7)).wire #v[0, 1] ++ Req.ping.wire #v[0, 2]) [] := by
  decide +kernel

end Verif.Xrootd
