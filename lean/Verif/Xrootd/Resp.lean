import Verif.Xrootd.StatProps
import Verif.Xrootd.Serve

/-!
# Model and properties of the responses (C69)

Unmarshalling starts from the zero value of the struct (for `read.Response` from any value).
A `WaitResponse` is modelled with a duration in whole seconds.
-/

namespace Verif.Xrootd

/-- xrootd/xrdfs/file.go:67-70 (`FileCompression`). -/
structure Compression where
  pageSize : BitVec 32
  type : Arr 4
deriving DecidableEq

/-- xrootd/xrdproto/xrdproto.go:295-298 (`SecurityOverride`). -/
structure Override where
  index : BitVec 8
  level : BitVec 8
deriving DecidableEq

/-- The response structs of the packages under xrootd/xrdproto, and the two handshake messages. -/
inductive Resp
  | bind (pathID : BitVec 8)
  /-- The responses of `admin`, `locate`, `query`, `prepare`, which hold raw bytes. -/
  | raw (data : Bytes)
  | read (data : Bytes)
  | login (sessionID : Arr 16) (security : Bytes)
  | statx (flags : List (BitVec 32))
  | open (handle : Arr 4) (compression : Option Compression) (stat : Option EntryStat)
  | protocol (version flags : BitVec 32) (hasSecurity : Bool) (secVersion secOptions secLevel : BitVec 8)
      (overrides : List Override)
  | handshake (version serverType : BitVec 32)
  | hello (a b c d e : BitVec 32)
  | error (code : BitVec 32) (message : Bytes)
  | wait (seconds : BitVec 32)
  | stat (e : EntryStat)
  | vfs (v : VirtualStat)
deriving DecidableEq

/-- xrootd/xrdfs/file.go:73-77 (`FileCompression.MarshalXrd`). -/
def Compression.marshal (c : Compression) : Bytes := wI32 c.pageSize ++ wArr c.type

/-- xrootd/xrdproto/xrdproto.go:301-305 (`SecurityOverride.MarshalXrd`). -/
def Override.marshal (o : Override) : Bytes := wU8 o.index ++ wU8 o.level

/-- The loop of xrootd/xrdproto/protocol/protocol.go:142-161 (`Response.MarshalXrd`). -/
def marshalOverrides : List Override → Bytes
  | [] => []
  | o :: os => o.marshal ++ marshalOverrides os

/-- The loop of xrootd/xrdproto/statx/statx.go:31-36 (`Response.MarshalXrd`). -/
def marshalFlags : List (BitVec 32) → Bytes
  | [] => []
  | f :: fs => wU8 (f.setWidth 8) ++ marshalFlags fs

/-- The `MarshalXrd` methods of the responses. -/
def Resp.marshal : Resp → Bytes
  -- xrootd/xrdproto/bind/bind.go:52-55 (`MarshalXrd`)
  | .bind p => wU8 p
  -- xrootd/xrdproto/admin/admin.go:52-55 (`MarshalXrd`), xrootd/xrdproto/locate/locate.go:63-66 (`MarshalXrd`),
  -- xrootd/xrdproto/query/query.go:82-85 (`MarshalXrd`), xrootd/xrdproto/prepare/prepare.go:96-99 (`MarshalXrd`)
  | .raw d => d
  -- xrootd/xrdproto/read/read.go:27-30 (`MarshalXrd`)
  | .read d => d
  -- xrootd/xrdproto/login/login.go:38-42 (`MarshalXrd`)
  | .login s i => wArr s ++ i
  -- xrootd/xrdproto/statx/statx.go:31-36 (`MarshalXrd`)
  | .statx fs => marshalFlags fs
  -- xrootd/xrdproto/open/open.go:29-45 (`MarshalXrd`)
  | .open h none _ => wArr h
  | .open h (some c) none => wArr h ++ c.marshal
  | .open h (some c) (some s) => wArr h ++ (c.marshal ++ s.marshal)
  -- xrootd/xrdproto/protocol/protocol.go:142-161 (`MarshalXrd`)
  | .protocol v f false _ _ _ _ => wI32 v ++ wI32 f
  | .protocol v f true sv so sl os => wI32 v ++ (wI32 f ++ (wU8 83#8 ++ (wNext 1 ++ (wU8 sv ++ (wU8 so ++ (wU8 sl ++
      (wU8 (BitVec.ofNat 8 os.length) ++ marshalOverrides os)))))))
  -- xrootd/xrdproto/handshake/handshake.go:22-26 (`MarshalXrd`)
  | .handshake v t => wI32 v ++ wI32 t
  -- xrootd/xrdproto/handshake/handshake.go:47-54 (`MarshalXrd`)
  | .hello a b c d e => wI32 a ++ (wI32 b ++ (wI32 c ++ (wI32 d ++ wI32 e)))
  -- xrootd/xrdproto/xrdproto.go:115-120 (`MarshalXrd`)
  | .error c m => wI32 c ++ (m ++ [0])
  -- xrootd/xrdproto/xrdproto.go:83-86 (`MarshalXrd`)
  | .wait s => wI32 s
  -- xrootd/xrdfs/stat.go:144-156 (`MarshalXrd`)
  | .stat e => e.marshal
  -- xrootd/xrdfs/stat.go:211-220 (`MarshalXrd`)
  | .vfs v => v.marshal

/-! ## Unmarshalling -/

/-- xrootd/xrdfs/file.go:80-84 (`FileCompression.UnmarshalXrd`). -/
def dCompression : Rd Compression := do
  let p ← rI32
  let t ← rArr 4
  Rd.pure ⟨p, t⟩

/-- xrootd/xrdproto/xrdproto.go:308-312 (`SecurityOverride.UnmarshalXrd`). -/
def dOverride : Rd Override := do
  let i ← rU8
  let l ← rU8
  Rd.pure ⟨i, l⟩

/-- The loop of xrootd/xrdproto/protocol/protocol.go:164-184 (`Response.UnmarshalXrd`). -/
def dOverrides : Nat → Rd (List Override)
  | 0 => Rd.pure []
  | n + 1 => do
    let o ← dOverride
    let os ← dOverrides n
    Rd.pure (o :: os)

/-- xrootd/xrdproto/bind/bind.go:58-61 (`UnmarshalXrd`). -/
def dBindResp : Rd Resp := do
  let p ← rU8
  Rd.pure (.bind p)

/-- xrootd/xrdproto/admin/admin.go:58-62 (`UnmarshalXrd`), xrootd/xrdproto/locate/locate.go:69-73
(`UnmarshalXrd`), xrootd/xrdproto/query/query.go:88-92 (`UnmarshalXrd`),
xrootd/xrdproto/prepare/prepare.go:102-106 (`UnmarshalXrd`). -/
def dRawResp : Rd Resp := do
  let n ← rRemaining
  let d ← rMake n
  Rd.pure (.raw d)

/-- `copy(dst, src)` (Go specification). -/
def goCopy (dst src : Bytes) : Bytes := src.take dst.length ++ dst.drop src.length

/-- xrootd/xrdproto/read/read.go:33-42 (`UnmarshalXrd`) into a response whose data are `old`. -/
def dReadResp (old : Bytes) : Rd Resp := do
  let n ← rRemaining
  let src ← rRest
  let buf := if n > old.length then List.replicate n.toNat 0 else old
  Rd.pure (.read ((goCopy buf src).take (min buf.length src.length)))

/-- xrootd/xrdproto/login/login.go:45-49 (`UnmarshalXrd`). -/
def dLoginResp : Rd Resp := do
  let s ← rArr 16
  let i ← rRest
  Rd.pure (.login s i)

/-- The loop of xrootd/xrdproto/statx/statx.go:39-45 (`UnmarshalXrd`). -/
def dFlags : Nat → Rd (List (BitVec 32))
  | 0 => Rd.pure []
  | n + 1 => do
    let f ← rU8
    let fs ← dFlags n
    Rd.pure (f.setWidth 32 :: fs)

/-- xrootd/xrdproto/statx/statx.go:39-45 (`UnmarshalXrd`). -/
def dStatxResp : Rd Resp := do
  let n ← rRemaining
  let fs ← dFlags n.toNat
  Rd.pure (.statx fs)

/-- The last part of xrootd/xrdproto/open/open.go:48-65 (`UnmarshalXrd`). -/
def dOpenStat (h : Arr 4) (c : Compression) : Rd Resp := do
  let n ← rRemaining
  if n = 0 then Rd.pure (.open h (some c) none)
  else do
    let s ← dStatInfo (EntryStat.named [])
    Rd.pure (.open h (some c) (some s))

/-- xrootd/xrdproto/open/open.go:48-65 (`UnmarshalXrd`). -/
def dOpenResp : Rd Resp := do
  let h ← rArr 4
  let n ← rRemaining
  if n = 0 then Rd.pure (.open h none none)
  else do
    let c ← dCompression
    dOpenStat h c

/-- The part of xrootd/xrdproto/protocol/protocol.go:164-184 (`UnmarshalXrd`) with the security
information. -/
def dSecurity (v f : BitVec 32) : Rd Resp := do
  rSkip 1
  rSkip 1
  let sv ← rU8
  let so ← rU8
  let sl ← rU8
  let n ← rU8
  let os ← dOverrides n.toNat
  Rd.pure (.protocol v f true sv so sl os)

/-- xrootd/xrdproto/protocol/protocol.go:164-184 (`UnmarshalXrd`). -/
def dProtocolResp : Rd Resp := do
  let v ← rI32
  let f ← rI32
  let n ← rRemaining
  if n = 0 then Rd.pure (.protocol v f false 0#8 0#8 0#8 [])
  else dSecurity v f

/-- xrootd/xrdproto/handshake/handshake.go:29-33 (`UnmarshalXrd`). -/
def dHandshakeResp : Rd Resp := do
  let v ← rI32
  let t ← rI32
  Rd.pure (.handshake v t)

/-- xrootd/xrdproto/handshake/handshake.go:57-64 (`UnmarshalXrd`). -/
def dHello : Rd Resp := do
  let a ← rI32
  let b ← rI32
  let c ← rI32
  let d ← rI32
  let e ← rI32
  Rd.pure (.hello a b c d e)

/-- The last part of xrootd/xrdproto/xrdproto.go:123-131 (`ServerError.UnmarshalXrd`). -/
def errorOf (c : BitVec 32) (d : Bytes) : Rd Resp := if d = [] then fail else Rd.pure (.error c d.dropLast)

/-- xrootd/xrdproto/xrdproto.go:123-131 (`ServerError.UnmarshalXrd`). -/
def dErrorResp : Rd Resp := do
  let c ← rI32
  let d ← rRest
  errorOf c d

/-- xrootd/xrdproto/xrdproto.go:89-92 (`WaitResponse.UnmarshalXrd`). -/
def dWaitResp : Rd Resp := do
  let s ← rI32
  Rd.pure (.wait s)

/-- The `UnmarshalXrd` method of the type of the response. -/
def respDecoder (old : Bytes) : Resp → Rd Resp
  | .bind .. => dBindResp
  | .raw .. => dRawResp
  | .read .. => dReadResp old
  | .login .. => dLoginResp
  | .statx .. => dStatxResp
  | .open .. => dOpenResp
  | .protocol .. => dProtocolResp
  | .handshake .. => dHandshakeResp
  | .hello .. => dHello
  | .error .. => dErrorResp
  | .wait .. => dWaitResp
  | .stat .. => do
    let s ← dStatInfo (EntryStat.named [])
    Rd.pure (.stat s)
  | .vfs .. => do
    let v ← dVirtual
    Rd.pure (.vfs v)

/-! ## C69 for the responses -/

/-- What a response must satisfy for its wire form to say all of it. -/
def Resp.Complete : Resp → Prop
  | .statx fs => ∀ f ∈ fs, f.toNat < 256
  | .open _ none s => s = none
  | .open _ (some _) s => ∀ e, s = some e → e.hasStat = true ∧ e.name = []
  | .protocol _ _ has sv so sl os =>
    os.length < 256 ∧ (has = false → sv = 0#8 ∧ so = 0#8 ∧ sl = 0#8 ∧ os = [])
  | .stat e => e.hasStat = true ∧ e.name = []
  | _ => True

theorem reads_arr' {n : Nat} (a : Arr n) : Reads (rArr n) (wArr a) a := reads_arr a

theorem reads_override (o : Override) : Reads dOverride o.marshal o := by
  have h := (reads_u8 o.index).bind (f := fun i => rU8 >>= fun l => Rd.pure (Override.mk i l))
    ((reads_u8 o.level).map (fun l => Override.mk o.index l))
  exact h

theorem reads_overrides : ∀ os : List Override, Reads (dOverrides os.length) (marshalOverrides os) os
  | [] => Reads.pure []
  | o :: os => by
    have h := (reads_override o).bind (f := fun o => dOverrides os.length >>= fun os => Rd.pure (o :: os))
      ((reads_overrides os).map (fun os => o :: os))
    exact h

theorem reads_compression (c : Compression) : Reads dCompression c.marshal c := by
  have h := (reads_i32 c.pageSize).bind (f := fun p => rArr 4 >>= fun t => Rd.pure (Compression.mk p t))
    ((reads_arr' c.type).map (fun t => Compression.mk c.pageSize t))
  exact h

theorem length_marshalFlags : ∀ fs : List (BitVec 32), (marshalFlags fs).length = fs.length
  | [] => rfl
  | f :: fs => by simp [marshalFlags, wU8, length_marshalFlags fs]

theorem reads_flags : ∀ fs : List (BitVec 32), (∀ f ∈ fs, f.toNat < 256) →
    Reads (dFlags fs.length) (marshalFlags fs) fs
  | [], _ => Reads.pure []
  | f :: fs, h => by
    have e : (f.setWidth 8).setWidth 32 = f := by
      have := h f (by simp)
      apply BitVec.eq_of_toNat_eq
      simp; omega
    have h := (reads_u8 (f.setWidth 8)).bind
      (f := fun b => dFlags fs.length >>= fun fs => Rd.pure (b.setWidth 32 :: fs))
      ((reads_flags fs (fun g hg => h g (by simp [hg]))).map (fun fs => (f.setWidth 8).setWidth 32 :: fs))
    rw [e] at h
    exact h

theorem readsLast_stat (e : EntryStat) (h : e.hasStat = true) (hn : e.name = []) :
    ReadsLast (dStatInfo (EntryStat.named [])) e.marshal e := by
  intro pre
  obtain ⟨r, hr⟩ := C43_roundtrip e (EntryStat.named []) h pre [] (Or.inl rfl)
  rw [List.append_nil] at hr
  refine ⟨r, hr.trans ?_⟩
  rw [← h]
  show Out.ok (EntryStat.mk [] _ _ _ _ _, r) = _
  rw [← hn]

theorem goCopy_all {dst src : Bytes} (h : src.length ≤ dst.length) :
    (goCopy dst src).take (min dst.length src.length) = src := by
  unfold goCopy
  rw [Nat.min_eq_right h, List.take_of_length_le h, List.take_left' rfl]

theorem arr_length {n : Nat} (a : Arr n) : (wArr a).length = n := by simp [wArr]

/-- C69 for responses: unmarshalling the wire form of a response gives the response. -/
theorem C69_responses_partial (q : Resp) (h : q.Complete) (old : Bytes) :
    (respDecoder old q).run q.marshal = .ok q := by
  cases q with
  | bind p => exact ((reads_u8 p).map (fun p => Resp.bind p)).run
  | raw d =>
    exact (readsLast_remaining (f := fun n => rMake n >>= fun d => Rd.pure (Resp.raw d))
      ((reads_make d).map (fun d => Resp.raw d)).last).run
  | read d =>
    apply ReadsLast.run
    refine readsLast_remaining (f := fun n => rRest >>= fun src =>
      Rd.pure (Resp.read ((goCopy (if n > old.length then List.replicate n.toNat 0 else old) src).take
        (min (if n > old.length then List.replicate n.toNat 0 else old).length src.length)))) ?_
    have e : (goCopy (if (d.length : Int) > old.length then List.replicate (d.length : Int).toNat 0 else old) d).take
        (min (if (d.length : Int) > old.length then List.replicate (d.length : Int).toNat 0 else old).length d.length) = d := by
      apply goCopy_all
      by_cases hl : (d.length : Int) > old.length
      · rw [if_pos hl]; simp
      · rw [if_neg hl]; omega
    have := (readsLast_rest d).bindPure (fun src =>
      Resp.read ((goCopy (if (d.length : Int) > old.length then List.replicate (d.length : Int).toNat 0 else old) src).take
        (min (if (d.length : Int) > old.length then List.replicate (d.length : Int).toNat 0 else old).length src.length)))
    rw [e] at this
    exact this
  | login s i =>
    exact ((reads_arr' s).bindLast (f := fun s => rRest >>= fun i => Rd.pure (Resp.login s i))
      ((readsLast_rest i).bindPure (fun i => Resp.login s i))).run
  | statx fs =>
    apply ReadsLast.run
    refine readsLast_remaining (f := fun n => dFlags n.toNat >>= fun fs => Rd.pure (Resp.statx fs)) ?_
    have := (reads_flags fs h).map (fun fs => Resp.statx fs)
    have el : ((List.length (Resp.statx fs).marshal : Nat) : Int).toNat = fs.length := by
      rw [Int.toNat_natCast]; exact length_marshalFlags fs
    rw [el]
    exact this.last
  | «open» hd c s =>
    cases c with
    | none =>
      cases s with
      | some s => exact absurd h (by simp [Resp.Complete])
      | none =>
        have hl : ReadsLast (rRemaining >>= fun n => if n = 0 then Rd.pure (Resp.open hd none none)
            else dCompression >>= fun c => dOpenStat hd c) [] (Resp.open hd none none) := by
          apply readsLast_remaining
          simp only [List.length_nil, Int.ofNat_zero, if_true]
          exact readsLast_pure _ _
        have := (reads_arr' hd).bindLast (f := fun h => rRemaining >>= fun n => if n = 0 then Rd.pure (Resp.open h none none)
            else dCompression >>= fun c => dOpenStat h c) hl
        rw [List.append_nil] at this
        exact this.run
    | some c =>
      have hc : c.marshal.length = 8 := by simp [Compression.marshal, wI32, length_beEnc, arr_length]
      have main : ∀ (bs : Bytes) (v : Resp), ReadsLast (dOpenStat hd c) bs v →
          dOpenResp.run (wArr hd ++ (c.marshal ++ bs)) = .ok v := by
        intro bs v hb
        refine ((reads_arr' hd).bindLast (f := fun h => rRemaining >>= fun n => if n = 0 then Rd.pure (Resp.open h none none)
            else dCompression >>= fun c => dOpenStat h c) ?_).run
        apply readsLast_remaining
        rw [if_neg (by simp only [List.length_append, hc]; omega)]
        exact (reads_compression c).bindLast (f := fun c => dOpenStat hd c) hb
      cases s with
      | none =>
        have := main [] (Resp.open hd (some c) none) (by
          unfold dOpenStat
          apply readsLast_remaining
          simp only [List.length_nil, Int.ofNat_zero, if_true]
          exact readsLast_pure _ _)
        rw [List.append_nil] at this
        exact this
      | some s =>
        obtain ⟨h1, h2⟩ := h s rfl
        refine main s.marshal (Resp.open hd (some c) (some s)) ?_
        unfold dOpenStat
        apply readsLast_remaining
        rw [if_neg (by
          have := List.length_pos_iff.mpr (marshal_ne_nil h1)
          omega)]
        exact (readsLast_stat s h1 h2).bindPure (fun s => Resp.open hd (some c) (some s))
  | protocol v f has sv so sl os =>
    obtain ⟨hn, hz⟩ := h
    cases has with
    | false =>
      obtain ⟨rfl, rfl, rfl, rfl⟩ := hz rfl
      have hl : ReadsLast (rRemaining >>= fun n => if n = 0 then Rd.pure (Resp.protocol v f false 0#8 0#8 0#8 [])
          else dSecurity v f) [] (Resp.protocol v f false 0#8 0#8 0#8 []) := by
        apply readsLast_remaining
        simp only [List.length_nil, Int.ofNat_zero, if_true]
        exact readsLast_pure _ _
      have h2 := (reads_i32 f).bindLast (f := fun f => rRemaining >>= fun n =>
        if n = 0 then Rd.pure (Resp.protocol v f false 0#8 0#8 0#8 []) else dSecurity v f) hl
      rw [List.append_nil] at h2
      exact ((reads_i32 v).bindLast (f := fun v => rI32 >>= fun f => rRemaining >>= fun n =>
        if n = 0 then Rd.pure (Resp.protocol v f false 0#8 0#8 0#8 []) else dSecurity v f) h2).run
    | true =>
      refine ((reads_i32 v).bindLast (f := fun v => rI32 >>= fun f => rRemaining >>= fun n =>
        if n = 0 then Rd.pure (Resp.protocol v f false 0#8 0#8 0#8 []) else dSecurity v f)
        ((reads_i32 f).bindLast (f := fun f => rRemaining >>= fun n =>
        if n = 0 then Rd.pure (Resp.protocol v f false 0#8 0#8 0#8 []) else dSecurity v f) ?_)).run
      apply readsLast_remaining
      rw [if_neg (by simp only [List.length_append, wU8, List.length_cons, List.length_nil]; omega)]
      unfold dSecurity
      have e : (BitVec.ofNat 8 os.length).toNat = os.length := by simp; omega
      refine Reads.last (Reads.bind (reads_skip' (by simp [wU8])) (Reads.bind (reads_skip 1) (Reads.bind (reads_u8 sv)
        (Reads.bind (reads_u8 so) (Reads.bind (reads_u8 sl) (Reads.bind (reads_u8 (BitVec.ofNat 8 os.length)) ?_))))))
      rw [e]
      exact (reads_overrides os).map (fun os => Resp.protocol v f true sv so sl os)
  | handshake v t =>
    exact ((reads_i32 v).bind (f := fun v => rI32 >>= fun t => Rd.pure (Resp.handshake v t))
      ((reads_i32 t).map (fun t => Resp.handshake v t))).run
  | hello a b c d e =>
    exact (Reads.bind (reads_i32 a) (Reads.bind (reads_i32 b) (Reads.bind (reads_i32 c) (Reads.bind (reads_i32 d)
      ((reads_i32 e).map (fun e => Resp.hello a b c d e)))))).run
  | error c m =>
    have hr : ReadsLast (rRest >>= fun d => errorOf c d) (m ++ [0]) (Resp.error c m) := by
      intro pre
      obtain ⟨r, hr⟩ := readsLast_rest (m ++ [0]) pre
      refine ⟨r, ?_⟩
      show Rd.bind rRest (fun d => errorOf c d) _ = _
      unfold Rd.bind
      rw [hr]
      simp only [errorOf]
      rw [if_neg (by simp), List.dropLast_concat]
      rfl
    exact ((reads_i32 c).bindLast (f := fun c => rRest >>= fun d => errorOf c d) hr).run
  | wait s => exact ((reads_i32 s).map (fun s => Resp.wait s)).run
  | stat e =>
    obtain ⟨h1, h2⟩ := h
    exact ((readsLast_stat e h1 h2).bindPure (fun s => Resp.stat s)).run
  | vfs v =>
    have : ReadsLast dVirtual v.marshal v := by
      intro pre
      obtain ⟨r, hr⟩ := C43_virtual v pre [] (Or.inl rfl)
      rw [List.append_nil] at hr
      exact ⟨r, hr⟩
    exact (this.bindPure (fun v => Resp.vfs v)).run

example : (respDecoder [1, 2] (.open ⟨#[1, 2, 3, 4], rfl⟩ (some ⟨5, ⟨#[0, 0, 0, 0], rfl⟩⟩)
      (some ⟨[], true, 1, 2, 3, 4⟩))).run
    (Resp.open ⟨#[1, 2, 3, 4], rfl⟩ (some ⟨5, ⟨#[0, 0, 0, 0], rfl⟩⟩) (some ⟨[], true, 1, 2, 3, 4⟩)).marshal
    = .ok (.open ⟨#[1, 2, 3, 4], rfl⟩ (some ⟨5, ⟨#[0, 0, 0, 0], rfl⟩⟩) (some ⟨[], true, 1, 2, 3, 4⟩)) :=
  C69_responses_partial _ (by intro e he; cases he; exact ⟨rfl, rfl⟩) _

example : Resp.Complete (.protocol 1 2 true 0 0 4 [⟨1, 2⟩]) := by simp [Resp.Complete]

/-- C69 fails for the response to an open request which asked for the status and for compression:
as the server makes it (xrootd/fshandler.go:88-177 (`Open`)) the status is not written. -/
theorem C69_open_stat_counterexample (h : Arr 4) (s : EntryStat) :
    (respDecoder [] (.open h none (some s))).run (Resp.open h none (some s)).marshal = .ok (.open h none none) :=
  C69_responses_partial (.open h none none) rfl []

/-- C69 fails for 256 security overrides: none is read back. -/
theorem C69_overrides_counterexample (v f : BitVec 32) (sv so sl : BitVec 8) (os : List Override) (hl : os.length = 256) :
    (respDecoder [] (.protocol v f true sv so sl os)).run (Resp.protocol v f true sv so sl os).marshal
      = .ok (.protocol v f true sv so sl []) := by
  refine ((reads_i32 v).bindLast (f := fun v => rI32 >>= fun f => rRemaining >>= fun n =>
    if n = 0 then Rd.pure (Resp.protocol v f false 0#8 0#8 0#8 []) else dSecurity v f)
    ((reads_i32 f).bindLast (f := fun f => rRemaining >>= fun n =>
    if n = 0 then Rd.pure (Resp.protocol v f false 0#8 0#8 0#8 []) else dSecurity v f) ?_)).run
  apply readsLast_remaining
  rw [if_neg (by simp only [List.length_append, wU8, List.length_cons, List.length_nil]; omega)]
  unfold dSecurity
  refine Reads.bindLast (reads_skip' (by simp [wU8])) (Reads.bindLast (reads_skip 1) (Reads.bindLast (reads_u8 sv)
    (Reads.bindLast (reads_u8 so) (Reads.bindLast (reads_u8 sl) (Reads.bindLast (reads_u8 (BitVec.ofNat 8 os.length)) ?_)))))
  rw [hl]
  exact readsLast_pure _ _

end Verif.Xrootd
