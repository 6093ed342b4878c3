import Verif.Xrootd.Resp

/-!
# Opaque data, redirections, signing requirements and signatures (C44, C46, C71, C72)
-/

namespace Verif.Xrootd

/-! ## Opaque data and redirections -/

/-- `strings.LastIndex` for one byte (Go standard library). -/
def lastIdx (c : UInt8) : Bytes → Option Nat
  | [] => none
  | b :: bs => match lastIdx c bs with
    | some k => some (k + 1)
    | none => if b = c then some 0 else none

/-- xrootd/xrdproto/xrdproto.go:315-321 (`SetOpaque`); 63 is `?`. -/
def setOpaque (path opq : Bytes) : Bytes :=
  match lastIdx 63 path with
  | some pos => path.take pos ++ 63 :: opq
  | none => path ++ 63 :: opq

/-- xrootd/xrdproto/xrdproto.go:324-327 (`Opaque`): without `?` the position is -1. -/
def opaqueOf (path : Bytes) : Bytes :=
  match lastIdx 63 path with
  | some pos => path.drop (pos + 1)
  | none => path

/-- xrootd/internal/mux/mux.go:66-77 (`Redirection`). -/
structure Redirection where
  addr : Bytes
  opq : Bytes
  token : Bytes
deriving DecidableEq

/-- xrootd/internal/mux/mux.go:81-97 (`ParseRedirection`); 58 is `:`. -/
def parseRedirection (raw : Bytes) : Out Redirection :=
  if raw.length < 4 then .panic
  else
    let port := beDec (raw.take 4)
    match splitOn 63 (raw.drop 4) with
    | [] => .err
    | [h] => .ok ⟨h ++ 58 :: decEnc port, [], []⟩
    | [h, o] => .ok ⟨h ++ 58 :: decEnc port, o, []⟩
    | h :: o :: t :: _ => .ok ⟨h ++ 58 :: decEnc port, o, t⟩

/-- The `SetOpaque` methods of the requests with a path:
xrootd/xrdproto/stat/stat.go:88-90 (`SetOpaque`), xrootd/xrdproto/truncate/truncate.go:58-64
(`SetOpaque`), and likewise for the others; `none` if the request is no `FilepathRequest`. -/
def Req.setOpaque : Req → Bytes → Option Req
  | .open m o p, q => some (.open m o (Verif.Xrootd.setOpaque p q))
  | .dirlist o p, q => some (.dirlist o (Verif.Xrootd.setOpaque p q))
  | .rm p, q => some (.rm (Verif.Xrootd.setOpaque p q))
  | .rmdir p, q => some (.rmdir (Verif.Xrootd.setOpaque p q))
  | .truncate h s p, q => some (.truncate h s (if p = [] then p else Verif.Xrootd.setOpaque p q))
  | .mv a b, q => some (.mv a (Verif.Xrootd.setOpaque b q))
  | .mkdir o m p, q => some (.mkdir o m (Verif.Xrootd.setOpaque p q))
  | .chmod m p, q => some (.chmod m (Verif.Xrootd.setOpaque p q))
  | .stat o h p, q => some (.stat o h (Verif.Xrootd.setOpaque p q))
  | _, _ => none

/-- What a session answers to a request: xrootd/session.go:344-389 (`Send`). -/
inductive Answer
  | ok
  | err
  | redirect (r : Redirection)

/-- What happened during a call of `sendSession`: the requests sent, in order, each with the
address of its session and the token used to obtain it; and whether the call succeeded. -/
structure Sent where
  sends : List (Bytes × Bytes × Req)
  ok : Bool

/-- The loop of xrootd/client.go:131-165 (`Client.sendSession`): `n` redirections may still be
followed; `net` gives the answer to each request sent (the history decides), or says that there is no
session with the address. -/
def follow (net : List (Bytes × Bytes × Req) → Bytes → Bytes → Req → Option Answer) :
    Nat → List (Bytes × Bytes × Req) → Req → Redirection → Sent
  | 0, hist, _, _ => ⟨hist, false⟩
  | n + 1, hist, q, r =>
    let q' := (q.setOpaque r.opq).getD q
    match net hist r.addr r.token q' with
    | none => ⟨hist, false⟩
    | some .err => ⟨hist ++ [(r.addr, r.token, q')], false⟩
    | some .ok => ⟨hist ++ [(r.addr, r.token, q')], true⟩
    | some (.redirect r') => follow net n (hist ++ [(r.addr, r.token, q')]) q' r'

/-- xrootd/client.go:131-165 (`Client.sendSession`), with `maxRedirections` 10 as set by
xrootd/client.go:65-95 (`NewClient`). -/
def sendSession (net : List (Bytes × Bytes × Req) → Bytes → Bytes → Req → Option Answer) (addr : Bytes) (q : Req) : Sent :=
  match net [] addr [] q with
  | none => ⟨[], false⟩
  | some .err => ⟨[(addr, [], q)], false⟩
  | some .ok => ⟨[(addr, [], q)], true⟩
  | some (.redirect r) => follow net 10 [(addr, [], q)] q r

/-! ### C46 -/

theorem follow_length (net) : ∀ (n : Nat) (hist : List (Bytes × Bytes × Req)) (q : Req) (r : Redirection),
    (follow net n hist q r).sends.length ≤ hist.length + n
  | 0, hist, q, r => by simp [follow]
  | n + 1, hist, q, r => by
    simp only [follow]
    split
    · simp
    · simp
    · simp
    · refine Nat.le_trans (follow_length net n _ _ _) ?_
      simp; omega

/-- C46: whatever the servers answer, a request is sent at most eleven times: once, and after each
of at most ten redirections. -/
theorem C46_bounded (net) (addr : Bytes) (q : Req) : (sendSession net addr q).sends.length ≤ 11 := by
  unfold sendSession
  split
  · simp
  · simp
  · simp
  · have := follow_length net 10 [(addr, [], q)] q ‹_›
    simpa [Nat.add_comm] using this

theorem follow_all (net) (h : ∀ hist a t q, ∃ r, net hist a t q = some (.redirect r)) : ∀ (n : Nat)
    (hist : List (Bytes × Bytes × Req)) (q : Req) (r : Redirection),
    (follow net n hist q r).ok = false ∧ (follow net n hist q r).sends.length = hist.length + n
  | 0, hist, q, r => by simp [follow]
  | n + 1, hist, q, r => by
    obtain ⟨r', hr⟩ := h hist r.addr r.token ((q.setOpaque r.opq).getD q)
    simp only [follow, hr]
    have := follow_all net h n (hist ++ [(r.addr, r.token, (q.setOpaque r.opq).getD q)]) ((q.setOpaque r.opq).getD q) r'
    refine ⟨this.1, ?_⟩
    rw [this.2]; simp; omega

/-- C46: if every server redirects, the request fails after ten redirections were followed. -/
theorem C46_endless (net) (h : ∀ hist a t q, ∃ r, net hist a t q = some (.redirect r)) (addr : Bytes) (q : Req) :
    (sendSession net addr q).ok = false ∧ (sendSession net addr q).sends.length = 11 := by
  obtain ⟨r, hr⟩ := h [] addr [] q
  unfold sendSession
  rw [hr]
  have := follow_all net h 10 [(addr, [], q)] q r
  exact ⟨this.1, by rw [this.2]; rfl⟩

theorem follow_ok (net) : ∀ (n : Nat) (hist : List (Bytes × Bytes × Req)) (q : Req) (r : Redirection),
    (follow net n hist q r).ok = true → ∃ pre a t q', (follow net n hist q r).sends = pre ++ [(a, t, q')] ∧
      net pre a t q' = some .ok
  | 0, hist, q, r, h => by simp [follow] at h
  | n + 1, hist, q, r, h => by
    simp only [follow] at h ⊢
    split at h
    · simp at h
    · simp at h
    · rename_i heq
      exact ⟨hist, _, _, _, rfl, heq⟩
    · rename_i r' heq
      exact follow_ok net n _ _ r' h

/-- C46: a call succeeds only if the last server to which the request was sent answered it. -/
theorem C46_success (net) (addr : Bytes) (q : Req) (h : (sendSession net addr q).ok = true) :
    ∃ pre a t q', (sendSession net addr q).sends = pre ++ [(a, t, q')] ∧ net pre a t q' = some .ok := by
  unfold sendSession at h ⊢
  split at h
  · simp at h
  · simp at h
  · rename_i heq
    exact ⟨[], _, _, _, rfl, heq⟩
  · rename_i r heq
    exact follow_ok net _ _ _ r h

/-- `sends` is a chain: the first request goes to `addr`; each of the others to the server, and with
the token, which the previous server redirected to, and differs from the previous request only by
the opaque data. -/
structure Chained (net : List (Bytes × Bytes × Req) → Bytes → Bytes → Req → Option Answer) (addr : Bytes) (q : Req)
    (sends : List (Bytes × Bytes × Req)) : Prop where
  first : ∀ x rest, sends = x :: rest → x = (addr, [], q)
  next : ∀ pre x y post, sends = pre ++ x :: y :: post → ∃ r, net pre x.1 x.2.1 x.2.2 = some (.redirect r) ∧
    y.1 = r.addr ∧ y.2.1 = r.token ∧ y.2.2 = (x.2.2.setOpaque r.opq).getD x.2.2

theorem chained_snoc {net addr q hist} {x : Bytes × Bytes × Req} {r : Redirection} (h : Chained net addr q (hist ++ [x]))
    (hn : net hist x.1 x.2.1 x.2.2 = some (.redirect r)) :
    Chained net addr q ((hist ++ [x]) ++ [(r.addr, r.token, (x.2.2.setOpaque r.opq).getD x.2.2)]) := by
  constructor
  · intro y rest he
    cases hist with
    | nil =>
      simp only [List.nil_append, List.cons_append, List.cons.injEq] at he
      exact he.1 ▸ h.first x [] rfl
    | cons z zs =>
      simp only [List.cons_append, List.cons.injEq] at he
      exact he.1 ▸ h.first z (zs ++ [x]) rfl
  · intro pre a b post he
    rcases List.eq_nil_or_concat post with rfl | ⟨post', c, rfl⟩
    · have h2 : hist ++ [x] ++ [(r.addr, r.token, (x.2.2.setOpaque r.opq).getD x.2.2)] = (pre ++ [a]) ++ [b] := by
        rw [he]; simp
      have h3 := List.append_inj' h2 rfl
      have h4 := List.append_inj' h3.1 rfl
      obtain ⟨rfl, h5⟩ := h4
      cases h5
      have hb := h3.2
      cases hb
      exact ⟨r, hn, rfl, rfl, rfl⟩
    · have h2 : hist ++ [x] ++ [(r.addr, r.token, (x.2.2.setOpaque r.opq).getD x.2.2)] = (pre ++ a :: b :: post') ++ [c] := by
        rw [he]; simp
      have h3 := List.append_inj' h2 rfl
      exact h.next pre a b post' h3.1

theorem follow_chained (net) (addr : Bytes) (q₀ : Req) : ∀ (n : Nat) (hist : List (Bytes × Bytes × Req))
    (x : Bytes × Bytes × Req) (r : Redirection), Chained net addr q₀ (hist ++ [x]) →
    net hist x.1 x.2.1 x.2.2 = some (.redirect r) →
    Chained net addr q₀ (follow net n (hist ++ [x]) x.2.2 r).sends
  | 0, hist, x, r, h, _ => by simpa [follow] using h
  | n + 1, hist, x, r, h, hn => by
    have hc := chained_snoc h hn
    simp only [follow]
    split
    · exact h
    · exact hc
    · exact hc
    · rename_i r' heq
      exact follow_chained net addr q₀ n _ _ r' hc heq

/-- C46: whatever the servers answer, each request is sent where the previous answer redirected to,
with its token and opaque data. -/
theorem C46_hops (net) (addr : Bytes) (q : Req) : Chained net addr q (sendSession net addr q).sends := by
  have h1 : Chained net addr q [(addr, [], q)] := by
    constructor
    · intro x rest h; cases h; rfl
    · intro pre x y post h
      have := congrArg List.length h
      simp at this; omega
  have h0 : Chained net addr q [] := by
    constructor
    · intro x rest h; cases h
    · intro pre x y post h
      have := congrArg List.length h
      simp at this
  unfold sendSession
  split
  · exact h0
  · exact h1
  · exact h1
  · rename_i r heq
    exact follow_chained net addr q 10 [] (addr, [], q) r h1 heq

example : (sendSession (fun hist _ _ _ => some (if hist.length = 2 then .ok else .redirect ⟨[104], [111], []⟩)) [97] (.rm [120])).ok
    = true ∧ (sendSession (fun hist _ _ _ => some (if hist.length = 2 then .ok else .redirect ⟨[104], [111], []⟩)) [97]
      (.rm [120])).sends.length = 3 := by decide

/-! ### C71 -/

theorem lastIdx_none {c : UInt8} : ∀ {p : Bytes}, c ∉ p → lastIdx c p = none
  | [], _ => rfl
  | b :: bs, h => by
    simp only [List.mem_cons, not_or] at h
    simp only [lastIdx, lastIdx_none h.2]
    rw [if_neg (fun e => h.1 e.symm)]

theorem lastIdx_append {c : UInt8} : ∀ {p s : Bytes}, c ∉ s → lastIdx c (p ++ c :: s) = some p.length
  | [], s, h => by simp [lastIdx, lastIdx_none h]
  | b :: bs, s, h => by
    simp only [List.cons_append, lastIdx, lastIdx_append (p := bs) h, List.length_cons]

theorem exists_last {c : UInt8} : ∀ {p : Bytes}, c ∈ p → ∃ a b, p = a ++ c :: b ∧ c ∉ b
  | [], h => by cases h
  | x :: xs, h => by
    by_cases hx : c ∈ xs
    · obtain ⟨a, b, hab, hb⟩ := exists_last hx
      exact ⟨x :: a, b, by simp [hab], hb⟩
    · rcases List.mem_cons.mp h with rfl | h
      · exact ⟨[], xs, rfl, hx⟩
      · exact absurd h hx

/-- The part of a path before its opaque data: everything before the last `?`. -/
def IsBase (path base : Bytes) : Prop := (63 ∉ path ∧ base = path) ∨ ∃ o, 63 ∉ o ∧ path = base ++ 63 :: o

theorem isBase_exists (path : Bytes) : ∃ b, IsBase path b := by
  by_cases h : 63 ∈ path
  · obtain ⟨a, b, hab, hb⟩ := exists_last h
    exact ⟨a, Or.inr ⟨b, hb, hab⟩⟩
  · exact ⟨path, Or.inl ⟨h, rfl⟩⟩

theorem setOpaque_base {path base : Bytes} (h : IsBase path base) (o : Bytes) : setOpaque path o = base ++ 63 :: o := by
  unfold setOpaque
  rcases h with ⟨h, rfl⟩ | ⟨o', h, rfl⟩
  · rw [lastIdx_none h]
  · rw [lastIdx_append h]
    simp

theorem splitOn_no_mem (sep : UInt8) : ∀ (bs : Bytes), ∀ p ∈ splitOn sep bs, sep ∉ p
  | [], p, h => by simp [splitOn] at h; subst h; simp
  | b :: bs, p, h => by
    have ih := splitOn_no_mem sep bs
    unfold splitOn at h
    by_cases hb : b = sep
    · rw [if_pos hb] at h
      rcases List.mem_cons.mp h with rfl | h
      · simp
      · exact ih p h
    · rw [if_neg hb] at h
      cases hs : splitOn sep bs with
      | nil =>
        rw [hs] at h
        simp only [List.mem_cons, List.not_mem_nil, or_false] at h
        subst h
        simp [Ne.symm hb]
      | cons q qs =>
        rw [hs] at h
        rcases List.mem_cons.mp h with rfl | h
        · have := ih q (by rw [hs]; simp)
          simp [Ne.symm hb, this]
        · exact ih p (by rw [hs]; simp [h])

/-- The opaque data and the token of a redirection have no `?`. -/
theorem parseRedirection_opaque {raw : Bytes} {r : Redirection} (h : parseRedirection raw = .ok r) :
    63 ∉ r.opq ∧ 63 ∉ r.token := by
  have hs := splitOn_no_mem 63 (raw.drop 4)
  unfold parseRedirection at h
  split at h
  · cases h
  · simp only at h
    split at h
    · cases h
    · cases h; simp
    · rename_i heq
      cases h
      rw [heq] at hs
      exact ⟨hs _ (by simp), by simp⟩
    · rename_i heq
      cases h
      rw [heq] at hs
      exact ⟨hs _ (by simp), hs _ (by simp)⟩

/-- C71: following any number of redirections sent by servers, the path is the part before the
opaque data of the first path, followed by the opaque data of the last redirection only. -/
theorem C71_chain (path base : Bytes) (h : IsBase path base) (raws : List Bytes) (rs : List Redirection)
    (hr : raws.map parseRedirection = rs.map .ok) (last : Redirection) (hl : rs.getLast? = some last) :
    rs.foldl (fun p r => setOpaque p r.opq) path = base ++ 63 :: last.opq ∧
      opaqueOf (rs.foldl (fun p r => setOpaque p r.opq) path) = last.opq := by
  have hno : ∀ r ∈ rs, 63 ∉ r.opq := by
    intro r hmem
    have : Out.ok r ∈ raws.map parseRedirection := by rw [hr]; exact List.mem_map.mpr ⟨r, hmem, rfl⟩
    obtain ⟨raw, _, he⟩ := List.mem_map.mp this
    exact (parseRedirection_opaque he).1
  have key : ∀ (rs : List Redirection) (p : Bytes), IsBase p base → (∀ r ∈ rs, 63 ∉ r.opq) → rs.getLast? = some last →
      rs.foldl (fun p r => setOpaque p r.opq) p = base ++ 63 :: last.opq := by
    intro rs
    induction rs with
    | nil => intro p _ _ hc; cases hc
    | cons r rs ih =>
      intro p hp hn hc
      rw [List.foldl_cons, setOpaque_base hp]
      cases rs with
      | nil => cases hc; rfl
      | cons r2 rs =>
        exact ih _ (Or.inr ⟨r.opq, hn r (by simp), rfl⟩) (fun x hx => hn x (by simp [hx])) (by simpa using hc)
  have e := key rs path h hno hl
  refine ⟨e, ?_⟩
  have hlast : 63 ∉ last.opq := hno last (List.mem_of_getLast? hl)
  rw [e]
  unfold opaqueOf
  rw [lastIdx_append hlast]
  simp

/-- C71: opaque data without `?` are got back as they were set, and the part of the path before them
is unchanged. -/
theorem C71_set_get_partial (path base o : Bytes) (h : IsBase path base) (ho : 63 ∉ o) :
    opaqueOf (setOpaque path o) = o ∧ setOpaque path o = base ++ 63 :: o ∧ IsBase (setOpaque path o) base := by
  have e := setOpaque_base h o
  refine ⟨?_, e, Or.inr ⟨o, ho, e⟩⟩
  rw [e]
  unfold opaqueOf
  rw [lastIdx_append ho]
  simp

/-- The path to which opaque data belong: of a renaming, the new path. -/
def Req.target : Req → Option Bytes
  | .open _ _ p | .dirlist _ p | .rm p | .rmdir p | .truncate _ _ p | .mkdir _ _ p | .chmod _ p | .stat _ _ p => some p
  | .mv _ n => some n
  | _ => none

/-- The request with another such path. -/
def Req.withTarget : Req → Bytes → Req
  | .open m o _, p => .open m o p
  | .dirlist o _, p => .dirlist o p
  | .rm _, p => .rm p
  | .rmdir _, p => .rmdir p
  | .truncate h s _, p => .truncate h s p
  | .mkdir o m _, p => .mkdir o m p
  | .chmod m _, p => .chmod m p
  | .stat o h _, p => .stat o h p
  | .mv o _, p => .mv o p
  | q, _ => q

/-- C71: setting the opaque data of a request whose path is not empty replaces the opaque data of
its path, and changes nothing else. -/
theorem C71_requests_partial (q : Req) (path base o : Bytes) (ht : q.target = some path) (hp : path ≠ [])
    (h : IsBase path base) : q.setOpaque o = some (q.withTarget (base ++ 63 :: o)) := by
  have e := setOpaque_base h o
  cases q <;> simp only [Req.target, Option.some.injEq, reduceCtorEq] at ht <;> subst ht <;>
    simp only [Req.setOpaque, Req.withTarget, e, if_neg hp]

example : (Req.mv [97] [98, 63, 99]).target = some [98, 63, 99] ∧ IsBase [98, 63, 99] [98] :=
  ⟨rfl, Or.inr ⟨[99], by decide, rfl⟩⟩

/-- C71: requests without a path are sent again as they were. -/
theorem C71_requests_other (q : Req) (o : Bytes) (h : q.target = none) : q.setOpaque o = none := by
  cases q <;> first | rfl | (simp [Req.target] at h)

example : (Req.close #v[0, 0, 0, 1] 0#64).target = none := rfl

/-- C71: a server's redirection is parsed into its parts. -/
theorem C71_parse (port : BitVec 32) (host o t : Bytes) (hh : 63 ∉ host) (ho : 63 ∉ o) (ht : 63 ∉ t) :
    parseRedirection (wI32 port ++ host) = .ok ⟨host ++ 58 :: decEnc port.toNat, [], []⟩ ∧
    parseRedirection (wI32 port ++ (host ++ 63 :: o)) = .ok ⟨host ++ 58 :: decEnc port.toNat, o, []⟩ ∧
    parseRedirection (wI32 port ++ (host ++ 63 :: (o ++ 63 :: t))) = .ok ⟨host ++ 58 :: decEnc port.toNat, o, t⟩ := by
  have hp : beDec (wI32 port) = port.toNat := by
    have hv := port.isLt
    unfold wI32
    rw [beDec_beEnc_of_lt (by simpa using hv)]
  have hl : (wI32 port).length = 4 := length_beEnc ..
  have key : ∀ bs, parseRedirection (wI32 port ++ bs) = match splitOn 63 bs with
    | [] => .err
    | [h] => .ok ⟨h ++ 58 :: decEnc port.toNat, [], []⟩
    | [h, o] => .ok ⟨h ++ 58 :: decEnc port.toNat, o, []⟩
    | h :: o :: t :: _ => .ok ⟨h ++ 58 :: decEnc port.toNat, o, t⟩ := by
    intro bs
    unfold parseRedirection
    rw [if_neg (by simp only [List.length_append, hl]; omega)]
    simp only [List.take_left' hl, List.drop_left' hl, hp]
  refine ⟨?_, ?_, ?_⟩
  · rw [key, splitOn_no_sep _ _ hh]
  · rw [key, splitOn_append _ _ _ hh, splitOn_no_sep _ _ ho]
  · rw [key, splitOn_append _ _ _ hh, splitOn_append _ _ _ ho, splitOn_no_sep _ _ ht]

example : IsBase [47, 97, 63, 120] [47, 97] := Or.inr ⟨[120], by decide, rfl⟩

/-- C71 fails for a path without opaque data: the whole path is returned. -/
theorem C71_no_opaque_counterexample (path : Bytes) (h : 63 ∉ path) : opaqueOf path = path := by
  unfold opaqueOf; rw [lastIdx_none h]

/-- C71 fails for opaque data with `?`: only the part after the last one is returned, and the
rest is kept when the data are replaced. -/
theorem C71_question_counterexample :
    opaqueOf (setOpaque [47, 97] [120, 63, 121]) = [121] ∧
    setOpaque (setOpaque [47, 97] [120, 63, 121]) [122] = [47, 97, 63, 120, 63, 122] := by decide

/-- C71: a status request by file handle has an empty path; after a redirection it has the path `?…`,
and is no longer about the handle (xrootd/fshandler.go:271-303 (`Stat`) looks at the length of the path). -/
theorem C71_stat_handle_counterexample (o : BitVec 8) (h : Arr 4) (q : Bytes) :
    (Req.stat o h []).setOpaque q = some (.stat o h (63 :: q)) := rfl

/-- C71: a redirection of fewer than four bytes makes the client panic. -/
theorem C71_short_counterexample (raw : Bytes) (h : raw.length < 4) : parseRedirection raw = .panic := by
  unfold parseRedirection; rw [if_pos h]

/-! ## Signing requirements -/

/-- xrootd/xrdproto/signing/signing.go:31-33 (`Requirements`): the map, as a function. -/
abbrev Requirements := BitVec 16 → Option (BitVec 8)

/-- Assignment to an element of the map. -/
def Requirements.set (m : Requirements) (id : BitVec 16) (l : BitVec 8) : Requirements :=
  fun i => if i = id then some l else m i

/-- `Requirements.set` for several requests with one level. -/
def Requirements.setAll (m : Requirements) (l : BitVec 8) : List (BitVec 16) → Requirements
  | [] => m
  | id :: ids => (m.set id l).setAll l ids

/-- Compatible level, xrootd/xrdproto/signing/signing.go:54-92 (`New`): chmod, mv, rm, rmdir, truncate, open. -/
def reqCompatible (level : BitVec 8) (m : Requirements) : Requirements :=
  if level ≥ 1#8 then ((m.setAll 2#8 [3002#16, 3009#16]).set 3010#16 1#8).setAll 2#8 [3014#16, 3015#16, 3028#16] else m

/-- Standard level, xrootd/xrdproto/signing/signing.go:54-92 (`New`): mkdir, open. -/
def reqStandard (level : BitVec 8) (m : Requirements) : Requirements :=
  if level ≥ 2#8 then m.setAll 2#8 [3008#16, 3010#16] else m

/-- Intense level, xrootd/xrdproto/signing/signing.go:54-92 (`New`): close, verifyw, write. -/
def reqIntense (level : BitVec 8) (m : Requirements) : Requirements :=
  if level ≥ 3#8 then m.setAll 2#8 [3003#16, 3026#16, 3019#16] else m

/-- Pedantic level, xrootd/xrdproto/signing/signing.go:54-92 (`New`): dirlist, read, stat, statx, sync. -/
def reqPedantic (level : BitVec 8) (m : Requirements) : Requirements :=
  if level ≥ 4#8 then m.setAll 2#8 [3004#16, 3013#16, 3017#16, 3022#16, 3016#16] else m

/-- The last loop of xrootd/xrdproto/signing/signing.go:54-92 (`New`). -/
def applyOverrides (m : Requirements) : List Override → Requirements
  | [] => m
  | o :: os => applyOverrides (m.set (3000#16 + o.index.setWidth 16) o.level) os

/-- xrootd/xrdproto/signing/signing.go:54-92 (`New`). -/
def newRequirements (level : BitVec 8) (os : List Override) : Requirements :=
  applyOverrides (reqPedantic level (reqIntense level (reqStandard level (reqCompatible level fun _ => none)))) os

/-- The `ShouldSign` methods: xrootd/xrdproto/open/open.go:115-123 (`ShouldSign`); for all other
requests it is false. The options are `Delete`, `New`, `OpenUpdate`, `MkPath` and `OpenAppend` of
xrootd/xrdfs/fs.go:84-117 (`OpenOptionsDelete`). -/
def Req.shouldSign : Req → Bool
  | .open _ o _ => o &&& 2#16 ≠ 0#16 ∨ o &&& 8#16 ≠ 0#16 ∨ o &&& 32#16 ≠ 0#16 ∨ o &&& 256#16 ≠ 0#16 ∨ o &&& 512#16 ≠ 0#16
  | _ => false

/-- xrootd/xrdproto/signing/signing.go:37-46 (`Requirements.Needed`). -/
def needed (m : Requirements) (q : Req) : Bool :=
  match m q.id with
  | none => false
  | some v => if v = 0#8 then false else if v = 1#8 ∧ !q.shouldSign then false else true

/-! ### C44 -/

/-- The lowest level at which a request is signed, from the table of the protocol
specification (p. 75-76): 1 compatible, 2 standard, 3 intense, 4 pedantic; 0 if it is never signed. -/
def signedFrom : Req → Nat
  | .chmod .. | .mv .. | .rm .. | .rmdir .. | .truncate .. => 1
  | .open _ o _ => if o &&& 0x32a#16 = 0#16 then 2 else 1
  | .mkdir .. => 2
  | .close .. | .verifyw .. | .write .. => 3
  | .dirlist .. | .read .. | .stat .. | .statx .. | .sync .. => 4
  | _ => 0

theorem open_mask (o : BitVec 16) : (o &&& 2#16 ≠ 0#16 ∨ o &&& 8#16 ≠ 0#16 ∨ o &&& 32#16 ≠ 0#16 ∨ o &&& 256#16 ≠ 0#16 ∨
    o &&& 512#16 ≠ 0#16) ↔ o &&& 0x32a#16 ≠ 0#16 := by
  have key : o &&& 0x32a#16 = 0#16 ↔ (o &&& 2#16 = 0#16 ∧ o &&& 8#16 = 0#16 ∧ o &&& 32#16 = 0#16 ∧ o &&& 256#16 = 0#16 ∧
      o &&& 512#16 = 0#16) := by
    have e : (0x32a#16 : BitVec 16) = 2#16 ||| (8#16 ||| (32#16 ||| (256#16 ||| 512#16))) := by decide
    have d : ∀ a b c : BitVec 16, a &&& (b ||| c) = 0#16 ↔ (a &&& b = 0#16 ∧ a &&& c = 0#16) := by
      intro a b c
      constructor
      · intro h
        constructor <;> apply BitVec.eq_of_getLsbD_eq <;> intro i hi <;>
          have := congrArg (fun v => v.getLsbD i) h <;> simp at this ⊢ <;> intro h1 <;> simp_all
      · rintro ⟨h1, h2⟩
        apply BitVec.eq_of_getLsbD_eq
        intro i hi
        have g1 := congrArg (fun v => v.getLsbD i) h1
        have g2 := congrArg (fun v => v.getLsbD i) h2
        simp at g1 g2 ⊢
        intro h
        simp_all
    rw [e, d, d, d, d]
  have k2 := not_congr key
  simp only [Classical.not_and_iff_not_or_not] at k2
  exact k2.symm

/-- The last override of a list for a request, if any. -/
def lastOverride (os : List Override) (q : Req) : Option (BitVec 8) :=
  (os.reverse.find? fun o => 3000 + o.index.toNat = q.id.toNat).map Override.level

theorem set_apply (m : Requirements) (a l i) : (m.set a l) i = if i = a then some l else m i := rfl

theorem applyOverrides_eq (os : List Override) (m : Requirements) (q : Req) :
    applyOverrides m os q.id = (lastOverride os q).or (m q.id) := by
  have hidx : ∀ o : Override, (q.id = 3000#16 + o.index.setWidth 16) ↔ (3000 + o.index.toNat = q.id.toNat) := by
    intro o
    have := o.index.isLt
    rw [← BitVec.toNat_inj]
    simp only [BitVec.toNat_add, BitVec.toNat_ofNat, BitVec.toNat_setWidth]
    omega
  induction os generalizing m with
  | nil => simp [applyOverrides, lastOverride]
  | cons o os ih =>
    simp only [applyOverrides, ih, set_apply]
    unfold lastOverride
    rw [List.reverse_cons, List.find?_append]
    cases hf : os.reverse.find? (fun o => decide (3000 + o.index.toNat = q.id.toNat)) with
    | some x => simp
    | none =>
      by_cases h : 3000 + o.index.toNat = q.id.toNat
      · have := (hidx o).mpr h
        simp only [Option.map_none, Option.none_or]
        rw [if_pos this, List.find?_cons, decide_eq_true h]
        rfl
      · have : ¬ q.id = 3000#16 + o.index.setWidth 16 := fun e => h ((hidx o).mp e)
        simp only [Option.map_none, Option.none_or]
        rw [if_neg this, List.find?_cons, decide_eq_false h]
        rfl

theorem level_le (level : BitVec 8) (n : Nat) (hn : n < 256) : level ≥ BitVec.ofNat 8 n ↔ n ≤ level.toNat := by
  rw [ge_iff_le, BitVec.le_def]; simp; omega

/-- C44: without overrides, exactly the requests of the table are signed. -/
theorem C44_levels (level : BitVec 8) (q : Req) :
    needed (newRequirements level []) q = true ↔ (signedFrom q ≠ 0 ∧ signedFrom q ≤ level.toNat) := by
  have h1 := level_le level 1 (by decide)
  have h2 := level_le level 2 (by decide)
  have h3 := level_le level 3 (by decide)
  have h4 := level_le level 4 (by decide)
  unfold needed newRequirements applyOverrides reqPedantic reqIntense reqStandard reqCompatible
  by_cases c1 : level ≥ 1#8 <;> by_cases c2 : level ≥ 2#8 <;> by_cases c3 : level ≥ 3#8 <;> by_cases c4 : level ≥ 4#8 <;>
    (try (exfalso; rw [h1] at c1; rw [h2] at c2; rw [h3] at c3; rw [h4] at c4; omega)) <;>
    simp only [c1, c2, c3, c4, if_true, if_false, Requirements.setAll] <;>
    rw [h1] at c1 <;> rw [h2] at c2 <;> rw [h3] at c3 <;> rw [h4] at c4 <;>
    cases q <;> simp [set_apply, Req.id, signedFrom, Req.shouldSign] <;> (try omega) <;>
    (rename_i o _; have := open_mask o; by_cases hm : o &&& 0x32a#16 = 0#16) <;> simp_all <;> omega

/-- C44: an override takes precedence over the level, and the last one for a request decides:
whether a request is signed depends on the level only if no override names it. -/
theorem C44_overrides (level : BitVec 8) (os : List Override) (q : Req) :
    needed (newRequirements level os) q = match lastOverride os q with
      | some l => decide (l ≠ 0#8) && (decide (l ≠ 1#8) || q.shouldSign)
      | none => needed (newRequirements level []) q := by
  have e0 : ∀ m : Requirements, applyOverrides m [] = m := fun _ => rfl
  unfold needed newRequirements
  rw [applyOverrides_eq, e0]
  cases lastOverride os q with
  | none => rfl
  | some l =>
    simp only [Option.some_or]
    by_cases h0 : l = 0#8
    · simp [h0]
    · by_cases h1 : l = 1#8
      · subst h1; cases q.shouldSign <;> simp
      · simp [h0, h1]

/-- C44: with the same overrides, raising the level never drops a signature. -/
theorem C44_monotone (l1 l2 : BitVec 8) (h : l1.toNat ≤ l2.toNat) (os : List Override) (q : Req)
    (hn : needed (newRequirements l1 os) q = true) : needed (newRequirements l2 os) q = true := by
  rw [C44_overrides] at hn ⊢
  cases ho : lastOverride os q with
  | some l => rw [ho] at hn; exact hn
  | none =>
    rw [ho] at hn
    simp only at hn ⊢
    rw [C44_levels] at hn ⊢
    omega

example : needed (newRequirements 1 []) (.open 0 0x20 []) = true ∧ needed (newRequirements 1 []) (.open 0 0x10 []) = false
    ∧ needed (newRequirements 2 []) (.open 0 0x10 []) = true
    ∧ needed (newRequirements 4 [⟨17, 2⟩, ⟨17, 0⟩]) (.stat 0 ⟨#[0, 0, 0, 0], rfl⟩ []) = false := by decide

/-! ## Signatures -/

/-- xrootd/xrdproto/sigver/sigver.go:71-91 (`NewRequest`); `hash` is SHA-256. `data[:24]` panics if there are fewer
bytes, which no request has. -/
def newSigver (hash : Bytes → Bytes) (id : BitVec 16) (seq : BitVec 64) (data : Bytes) : Req :=
  let signature := hash (wI64 seq ++ if id = 3019#16 ∨ id = 3026#16 then data.take 24 else data)
  .sigver id 0#8 (if id = 3019#16 then 1#8 else 0#8) seq 1#8 signature

/-- xrootd/session.go:431-446 (`cliSession.sign`): the new counter and the bytes. -/
def sign (hash : Bytes → Bytes) (stream : Arr 2) (counter : BitVec 64) (q : Req) : BitVec 64 × Bytes :=
  let seq := counter + 1#64
  (seq, (newSigver hash q.id seq (q.wire stream)).wire stream ++ q.wire stream)

/-- The outgoing bytes of a session which signs the requests `qs` one after the other (the counter is
incremented atomically), each request with the number of times the server answers it with `Wait` before
it answers: xrootd/session.go:193-219 (`handleWaitResponse`) then writes the same bytes again. -/
def signAll (hash : Bytes → Bytes) (stream : Arr 2) : BitVec 64 → List (Req × Nat) → List Bytes
  | _, [] => []
  | c, (q, waits) :: qs =>
    List.replicate (waits + 1) (sign hash stream c q).2 ++ signAll hash stream (sign hash stream c q).1 qs

/-- What a server checks (protocol specification, p. 75): the hash of the sequence number, of the
header of the request, and of its data unless the flag `NoData` is set. -/
def Verifies (hash : Bytes → Bytes) (sig : Req) (wire : Bytes) : Prop :=
  match sig with
  | .sigver _ _ flags seq _ s => s = hash (wI64 seq ++ if flags &&& 1#8 = 0#8 then wire else wire.take 24)
  | _ => False

/-- C72: the signature of a request other than `verifyw` is accepted by a server following the
specification. -/
theorem C72_verifies_partial (hash : Bytes → Bytes) (seq : BitVec 64) (q : Req) (stream : Arr 2)
    (h : ∀ hd off p v d, q ≠ .verifyw hd off p v d) :
    Verifies hash (newSigver hash q.id seq (q.wire stream)) (q.wire stream) := by
  unfold newSigver Verifies
  cases q with
  | verifyw hd off p v d => exact absurd rfl (h hd off p v d)
  | _ => simp [Req.id]

example : Verifies (fun b => b) (newSigver (fun b => b) (Req.id (.rm [97])) 7 ((Req.rm [97]).wire ⟨#[0, 1], rfl⟩))
    ((Req.rm [97]).wire ⟨#[0, 1], rfl⟩) := C72_verifies_partial _ _ _ _ (by intros; simp)

/-- C72 fails for `verifyw`: its data are not in the hash, and the flag `NoData` is not set, so that with
an injective hash the signature of no request with data is accepted. -/
theorem C72_verifyw_counterexample (hash : Bytes → Bytes) (hinj : ∀ a b, hash a = hash b → a = b) (seq : BitVec 64)
    (hd : Arr 4) (off : BitVec 64) (p v : BitVec 8) (b : UInt8) (d : Bytes) (stream : Arr 2) :
    ¬ Verifies hash (newSigver hash (Req.id (.verifyw hd off p v (b :: d))) seq ((Req.verifyw hd off p v (b :: d)).wire stream))
      ((Req.verifyw hd off p v (b :: d)).wire stream) := by
  intro h
  have hlen : ((Req.verifyw hd off p v (b :: d)).wire stream).length = 24 + (d.length + 1) := by
    simp [Req.wire, wReqHeader, Req.marshal, arr_length, wU16, wI64, wU8, wNext, wLen, wI32, length_beEnc]
    omega
  have h2 : hash (wI64 seq ++ ((Req.verifyw hd off p v (b :: d)).wire stream).take 24)
      = hash (wI64 seq ++ (Req.verifyw hd off p v (b :: d)).wire stream) := by
    simpa [Verifies, newSigver, Req.id] using h
  have h3 := congrArg List.length (hinj _ _ h2)
  simp only [List.length_append, List.length_take, hlen] at h3
  omega

/-- C72: the signed message is the signature request followed by the request, and a server takes
exactly these two from the stream. -/
theorem C72_message (hash : Bytes → Bytes) (hh : ∀ b, (hash b).length = 32) (stream : Arr 2) (counter : BitVec 64) (q : Req)
    (hq : q.Sendable) (rest : Bytes) :
    ∃ sig : Req, readRequest ((sign hash stream counter q).2 ++ rest) = .ok (sig.wire stream) (q.wire stream ++ rest) ∧
      readRequest (q.wire stream ++ rest) = .ok (q.wire stream) rest ∧
      sig = .sigver q.id 0#8 (if q.id = 3019#16 then 1#8 else 0#8) (counter + 1#64) 1#8
        (hash (wI64 (counter + 1#64) ++ if q.id = 3019#16 ∨ q.id = 3026#16 then (q.wire stream).take 24 else q.wire stream)) := by
  refine ⟨newSigver hash q.id (counter + 1#64) (q.wire stream), ?_, ?_, rfl⟩
  · have hs : (newSigver hash q.id (counter + 1#64) (q.wire stream)).Sendable := by
      refine ⟨?_, trivial⟩
      show (hash _).length < 2 ^ 31
      rw [hh]; decide
    obtain ⟨p, hp, hlen⟩ := wire_frame stream _ hs
    have := readRequest_frame hlen hs.1 (q.wire stream ++ rest)
    rw [← hp] at this
    simp only [sign, List.append_assoc]
    exact this
  · obtain ⟨p, hp, hlen⟩ := wire_frame stream _ hq
    have := readRequest_frame hlen hq.1 rest
    rw [← hp] at this
    exact this

example : (Req.rm [97]).Sendable := ⟨by decide, trivial⟩

/-- The sequence number in the bytes of a signed message: after the header (4 bytes), the id, the
version and the flags (4 bytes). -/
def seqOf (m : Bytes) : Nat := beDec ((m.drop 8).take 8)

theorem seqOf_sign (hash : Bytes → Bytes) (stream : Arr 2) (c : BitVec 64) (q : Req) :
    seqOf (sign hash stream c q).2 = (c + 1#64).toNat := by
  have hx : ∃ x y : Bytes, (sign hash stream c q).2 = x ++ (wI64 (c + 1#64) ++ y) ∧ x.length = 8 := by
    refine ⟨wReqHeader stream 3029#16 ++ (wU16 q.id ++ (wU8 0#8 ++ wU8 (if q.id = 3019#16 then 1#8 else 0#8))), ?_, ?_, ?_⟩
    rotate_left
    · simp only [sign, newSigver, Req.wire, Req.marshal, Req.id, List.append_assoc]
      rfl
    · simp [wReqHeader, arr_length, wU16, wU8, length_beEnc]
  obtain ⟨x, y, e, hl⟩ := hx
  have h8 : (wI64 (c + 1#64)).length = 8 := length_beEnc ..
  unfold seqOf
  rw [e, List.drop_left' hl, List.take_left' h8]
  unfold wI64
  rw [beDec_beEnc_of_lt (by have := (c + 1#64).isLt; simpa using this)]

/-- C72: if the server never answers `Wait`, the sequence numbers of the messages of a session are
strictly increasing, as long as there are fewer than 2^63 of them. -/
theorem C72_sequence_partial (hash : Bytes → Bytes) (stream : Arr 2) (qs : List Req) (c : BitVec 64)
    (h : c.toNat + qs.length < 2 ^ 63) :
    ((signAll hash stream c (qs.map fun q => (q, 0))).map seqOf).Pairwise (· < ·) := by
  have key : ∀ (qs : List Req) (c : BitVec 64), c.toNat + qs.length < 2 ^ 63 →
      ((signAll hash stream c (qs.map fun q => (q, 0))).map seqOf).Pairwise (· < ·) ∧
      ∀ n ∈ (signAll hash stream c (qs.map fun q => (q, 0))).map seqOf, c.toNat < n := by
    intro qs
    induction qs with
    | nil => intro c _; simp [signAll]
    | cons q qs ih =>
      intro c hc
      simp only [List.length_cons] at hc
      have hn : (c + 1#64).toNat = c.toNat + 1 := by simp [BitVec.toNat_add]; omega
      have ⟨i1, i2⟩ := ih (c + 1#64) (by omega)
      have e : (signAll hash stream c ((q :: qs).map fun q => (q, 0))).map seqOf
          = seqOf (sign hash stream c q).2 :: (signAll hash stream (c + 1#64) (qs.map fun q => (q, 0))).map seqOf := rfl
      rw [e, seqOf_sign]
      refine ⟨List.pairwise_cons.mpr ⟨fun n hm => i2 n hm, i1⟩, ?_⟩
      intro n hm
      rcases List.mem_cons.mp hm with rfl | hm
      · omega
      · have := i2 n hm; omega
  exact (key qs c h).1

/-- C72 fails when a server answers `Wait`: the message is repeated with the same sequence number. -/
theorem C72_wait_counterexample (hash : Bytes → Bytes) (stream : Arr 2) (c : BitVec 64) (q : Req) :
    ∃ a b, signAll hash stream c [(q, 1)] = [a, b] ∧ seqOf a = seqOf b :=
  ⟨_, _, rfl, rfl⟩

/-- Concurrent signed requests: a request takes a sequence number (`take`), and sends its message later
(`send i` for the `i`-th message not yet sent). -/
inductive SignEvent
  | take (q : Req)
  | send (i : Nat)

/-- xrootd/session.go:344-389 (`Send`) by several goroutines: `sign` is atomic, and the message is written
later. The last part are the messages written. -/
def signRun (hash : Bytes → Bytes) (stream : Arr 2) : BitVec 64 × List Bytes → List SignEvent → List Bytes
  | _, [] => []
  | (c, pending), .take q :: es =>
    signRun hash stream ((sign hash stream c q).1, pending ++ [(sign hash stream c q).2]) es
  | (c, pending), .send i :: es =>
    match pending[i]? with
    | none => signRun hash stream (c, pending) es
    | some m => m :: signRun hash stream (c, pending.eraseIdx i) es

/-- C72 fails for concurrent requests: a message can be sent after one with a greater number. -/
theorem C72_race_counterexample (hash : Bytes → Bytes) (stream : Arr 2) (q q' : Req) :
    (signRun hash stream (0#64, []) [.take q, .take q', .send 1, .send 0]).map seqOf = [2, 1] := by
  have h : signRun hash stream (0#64, []) [.take q, .take q', .send 1, .send 0]
      = [(sign hash stream 1#64 q').2, (sign hash stream 0#64 q).2] := rfl
  rw [h, List.map_cons, List.map_cons, seqOf_sign, seqOf_sign]
  rfl

end Verif.Xrootd
