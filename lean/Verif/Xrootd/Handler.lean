import Verif.Xrootd.Proto

/-!
# Model and properties of the file-system handler (C41, C45, C70)

Paths are modelled after `path.Clean` by their components; the file system itself (in particular
symbolic links) is not modelled.  A file is a natural number.
-/

namespace Verif.Xrootd

/-! ## Paths -/

/-- A cleaned path: whether it starts with a slash, and its components. -/
structure FPath where
  rooted : Bool
  comps : List Bytes
deriving DecidableEq

def dot : Bytes := [46]
def dotdot : Bytes := [46, 46]

/-- One component in `path.Clean` (Go standard library): `acc` are the components so far, last
first. -/
def cleanStep (rooted : Bool) (acc : List Bytes) (c : Bytes) : List Bytes :=
  if c = [] ∨ c = dot then acc
  else if c = dotdot then
    match acc with
    | [] => if rooted then [] else [dotdot]
    | a :: as => if a = dotdot then dotdot :: acc else as
  else c :: acc

/-- `path.Clean` (Go standard library); the result stands for its components. -/
def clean (s : Bytes) : FPath :=
  let rooted := s.head? == some 47
  ⟨rooted, ((splitOn 47 s).foldl (cleanStep rooted) []).reverse⟩

/-- `path.Join` of two elements (Go standard library): an empty first one is ignored. -/
def join (base p : Bytes) : FPath := if base = [] then clean p else clean (base ++ 47 :: p)

/-- `path.Dir` of a cleaned path (Go standard library). -/
def FPath.dir (p : FPath) : FPath := ⟨p.rooted, p.comps.dropLast⟩

/-- The paths which the methods of the handler with the base directory `base` give to functions of
package `os`:
xrootd/fshandler.go:57-85 (`Dirlist`), xrootd/fshandler.go:88-177 (`Open`),
xrootd/fshandler.go:271-303 (`Stat`), xrootd/fshandler.go:306-329 (`Truncate`),
xrootd/fshandler.go:352-361 (`Rename`), xrootd/fshandler.go:364-377 (`Mkdir`),
xrootd/fshandler.go:380-388 (`Remove`), xrootd/fshandler.go:391-399 (`RemoveDir`). -/
def touched (base : Bytes) : Req → List FPath
  | .dirlist _ p => [join base p]
  | .open _ o p => if o &&& 256#16 ≠ 0#16 then [(join base p).dir, join base p] else [join base p]
  | .stat o _ p => if o &&& 1#8 ≠ 0#8 then [] else if p = [] then [] else [join base p]
  | .truncate _ _ p => if p = [] then [] else [join base p]
  | .mv o n => [join base o, join base n]
  | .mkdir _ _ p => [join base p]
  | .rm p => [join base p]
  | .rmdir p => [join base p]
  | _ => []

/-! ### C41 -/

/-- A path lies inside a directory: it continues the directory with ordinary names. -/
def Inside (base p : FPath) : Prop :=
  p.rooted = base.rooted ∧ ∃ ext, p.comps = base.comps ++ ext ∧ dotdot ∉ ext

/-- The request path never climbs above its start: among any first components there are at least as
many names as `..`. -/
def Contained (p : Bytes) : Prop :=
  ∀ k, ((splitOn 47 p).take k).count dotdot ≤
    ((splitOn 47 p).take k).countP fun c => c ≠ [] ∧ c ≠ dot ∧ c ≠ dotdot

/-- The paths of a request. -/
def Req.paths : Req → List Bytes
  | .dirlist _ p | .open _ _ p | .stat _ _ p | .truncate _ _ p | .mkdir _ _ p | .rm p | .rmdir p => [p]
  | .mv o n => [o, n]
  | _ => []

theorem splitOn_append_any (sep : UInt8) : ∀ (a b : Bytes), splitOn sep (a ++ sep :: b) = splitOn sep a ++ splitOn sep b
  | [], b => by simp [splitOn]
  | x :: xs, b => by
    have ih := splitOn_append_any sep xs b
    by_cases hx : x = sep
    · simp only [List.cons_append, splitOn, if_pos hx, ih]
    · simp only [List.cons_append, splitOn, if_neg hx, ih]
      cases hs : splitOn sep xs with
      | nil =>
        exfalso
        clear ih
        cases xs with
        | nil => simp [splitOn] at hs
        | cons y ys =>
          unfold splitOn at hs
          split at hs
          · cases hs
          · split at hs <;> cases hs
      | cons p ps => rfl

theorem clean_contained (rooted : Bool) (base : List Bytes) : ∀ (cs ext : List Bytes), dotdot ∉ ext →
    (∀ k, (cs.take k).count dotdot ≤ ext.length + (cs.take k).countP fun c => c ≠ [] ∧ c ≠ dot ∧ c ≠ dotdot) →
    ∃ ext', dotdot ∉ ext' ∧ cs.foldl (cleanStep rooted) (ext ++ base) = ext' ++ base
  | [], ext, he, _ => ⟨ext, he, rfl⟩
  | c :: cs, ext, he, h => by
    rw [List.foldl_cons]
    by_cases h1 : c = [] ∨ c = dot
    · have e : cleanStep rooted (ext ++ base) c = ext ++ base := by unfold cleanStep; rw [if_pos h1]
      rw [e]
      refine clean_contained rooted base cs ext he ?_
      intro k
      have := h (k + 1)
      have hc : c ≠ dotdot := by rcases h1 with rfl | rfl <;> decide
      rw [List.take_succ_cons, List.count_cons_of_ne hc, List.countP_cons_of_neg (by simp; intro a b; simp_all)] at this
      exact this
    · by_cases h2 : c = dotdot
      · subst h2
        have h0 := h 1
        rw [List.take_succ_cons, List.take_zero, List.count_cons_self, List.countP_cons_of_neg (by simp)] at h0
        simp only [List.count_nil, List.countP_nil] at h0
        cases ext with
        | nil => simp at h0
        | cons a as =>
          have ha : a ≠ dotdot := fun e => he (by simp [e])
          have e : cleanStep rooted ((a :: as) ++ base) dotdot = as ++ base := by
            unfold cleanStep
            rw [if_neg (by decide), if_pos rfl]
            simp only [List.cons_append]
            rw [if_neg ha]
          rw [e]
          refine clean_contained rooted base cs as (fun hm => he (by simp [hm])) ?_
          intro k
          have := h (k + 1)
          rw [List.take_succ_cons, List.count_cons_self, List.countP_cons_of_neg (by simp)] at this
          simp only [List.length_cons] at this
          omega
      · have e : cleanStep rooted (ext ++ base) c = (c :: ext) ++ base := by
          unfold cleanStep
          rw [if_neg h1, if_neg h2]; rfl
        rw [e]
        refine clean_contained rooted base cs (c :: ext) (by simp [he, Ne.symm h2]) ?_
        intro k
        have := h (k + 1)
        rw [List.take_succ_cons, List.count_cons_of_ne h2, List.countP_cons_of_pos (by
          simp only [not_or] at h1; simp [h1, h2])] at this
        simp only [List.length_cons]
        omega

theorem join_inside (base p : Bytes) (hb : base ≠ []) (hp : Contained p) : Inside (clean base) (join base p) := by
  have hr : (base ++ 47 :: p).head? = base.head? := by
    cases base with
    | nil => exact absurd rfl hb
    | cons x xs => rfl
  unfold join
  rw [if_neg hb]
  refine ⟨by simp only [clean, hr], ?_⟩
  simp only [clean, hr, splitOn_append_any, List.foldl_append]
  obtain ⟨ext, he, e⟩ := clean_contained (base.head? == some 47)
    ((splitOn 47 base).foldl (cleanStep (base.head? == some 47)) []) (splitOn 47 p) [] (by simp) (by
      intro k; simpa using hp k)
  rw [List.nil_append] at e
  rw [e]
  exact ⟨ext.reverse, by simp, by simpa using he⟩

/-- C41: with a non-empty base directory, and if the paths of a request do not climb above their start
with `..`, the handler only touches paths inside the base directory; for a request to open a file and make
its directories, if the path is not the base directory itself. -/
theorem C41_inside_partial (base : Bytes) (hb : base ≠ []) (q : Req) (h : ∀ p ∈ q.paths, Contained p)
    (hm : ∀ m o p, q = .open m o p → o &&& 256#16 ≠ 0#16 → join base p ≠ clean base) :
    ∀ p ∈ touched base q, Inside (clean base) p := by
  have one : ∀ r : Bytes, Contained r → ∀ p ∈ [join base r], Inside (clean base) p := by
    intro r hr p hp
    simp only [List.mem_cons, List.not_mem_nil, or_false] at hp
    subst hp
    exact join_inside base r hb hr
  intro p hp
  cases q with
  | dirlist o r => exact one r (h r (by simp [Req.paths])) p hp
  | mkdir o m r => exact one r (h r (by simp [Req.paths])) p hp
  | rm r => exact one r (h r (by simp [Req.paths])) p hp
  | rmdir r => exact one r (h r (by simp [Req.paths])) p hp
  | mv o n =>
    rcases List.mem_cons.mp hp with rfl | hp
    · exact join_inside base o hb (h o (by simp [Req.paths]))
    · exact one n (h n (by simp [Req.paths])) p hp
  | stat o hd r =>
    simp only [touched] at hp
    split at hp
    · cases hp
    · split at hp
      · cases hp
      · exact one r (h r (by simp [Req.paths])) p hp
  | truncate hd s r =>
    simp only [touched] at hp
    split at hp
    · cases hp
    · exact one r (h r (by simp [Req.paths])) p hp
  | «open» m o r =>
    have hj := join_inside base r hb (h r (by simp [Req.paths]))
    simp only [touched] at hp
    split at hp
    · rename_i ho
      rcases List.mem_cons.mp hp with rfl | hp
      · obtain ⟨h1, ext, h2, h3⟩ := hj
        refine ⟨h1, ext.dropLast, ?_, fun hc => h3 (List.dropLast_subset _ hc)⟩
        have hne : ext ≠ [] := by
          rintro rfl
          apply hm m o r rfl ho
          rw [List.append_nil] at h2
          cases hx : join base r with
          | mk a b =>
            cases hy : clean base with
            | mk c d => rw [hx, hy] at h1 h2; simp only at h1 h2; rw [h1, h2]
        show (join base r).comps.dropLast = _
        rw [h2, List.dropLast_append_of_ne_nil hne]
      · exact one r (h r (by simp [Req.paths])) p hp
    · exact one r (h r (by simp [Req.paths])) p hp
  | _ => cases hp

/-- `/srv` and `a/../b`. -/
example : Contained [97, 47, 46, 46, 47, 98] ∧ touched [47, 115, 114, 118] (.rm [97, 47, 46, 46, 47, 98])
    = [⟨true, [[115, 114, 118], [98]]⟩] := by
  constructor
  · intro k
    have hs : splitOn 47 [97, 47, 46, 46, 47, 98] = [[97], dotdot, [98]] := by decide
    rw [hs]
    match k with
    | 0 => decide
    | 1 => decide
    | 2 => decide
    | k + 3 => simp [dotdot, dot]
  · decide +kernel

/-- C41 fails for paths with `..`: with the base directory `/srv/d` the request to remove `../../e`
removes `/e`. -/
theorem C41_dotdot_counterexample :
    touched [47, 115, 114, 118, 47, 100] (.rm [46, 46, 47, 46, 46, 47, 101]) = [⟨true, [[101]]⟩] ∧
    ¬ Inside (clean [47, 115, 114, 118, 47, 100]) ⟨true, [[101]]⟩ := by
  refine ⟨by decide +kernel, ?_⟩
  have hc : clean [47, 115, 114, 118, 47, 100] = ⟨true, [[115, 114, 118], [100]]⟩ := by decide +kernel
  rw [hc]
  rintro ⟨_, ext, h, _⟩
  simp at h

/-- C41 fails for an empty base directory: absolute paths are served. -/
theorem C41_empty_base_counterexample (p : Bytes) : touched [] (.rm (47 :: p)) = [clean (47 :: p)] ∧
    ¬ Inside (clean []) (clean (47 :: p)) := by
  refine ⟨rfl, ?_⟩
  rintro ⟨h, _⟩
  simp [clean] at h

/-! ## Sessions and handles -/

/-- xrootd/fshandler.go:32-40 (`fshandler`) and xrootd/fshandler.go:42-45 (`srvSession`). A session struct is
identified by a number (its address); `owner` is not in the code, it records for which session id the
struct was made. -/
structure Sessions (S H : Type) where
  table : S → Option Nat
  handles : Nat → H → Option Nat
  owner : Nat → Option S
  next : Nat

variable {S H : Type} [DecidableEq S] [DecidableEq H]

/-- xrootd/fshandler.go:48-54 (`NewFSHandler`). -/
def Sessions.empty : Sessions S H := ⟨fun _ => none, fun _ _ => none, fun _ => none, 0⟩

/-- The second part of xrootd/fshandler.go:88-177 (`Open`): find the session or make one; under `h.mu`. -/
def Sessions.find (s : Sessions S H) (id : S) : Nat × Sessions S H :=
  match s.table id with
  | some k => (k, s)
  | none => (s.next, { s with
      table := fun i => if i = id then some s.next else s.table i
      handles := fun k h => if k = s.next then none else s.handles k h
      owner := fun k => if k = s.next then some id else s.owner k
      next := s.next + 1 })

/-- The last part of xrootd/fshandler.go:88-177 (`Open`): at most a hundred random handles `tries` are
tried; under `sess.mu`. The file is known as `f`; `none` is "handle limit exceeded". -/
def Sessions.register (s : Sessions S H) (k : Nat) (f : Nat) : List H → Option (H × Sessions S H)
  | [] => none
  | h :: tries =>
    match s.handles k h with
    | some _ => s.register k f tries
    | none => some (h, { s with handles := fun k' h' => if k' = k ∧ h' = h then some f else s.handles k' h' })

/-- The last part of xrootd/fshandler.go:180-209 (`Close`), under `sess.mu`. -/
def Sessions.drop (s : Sessions S H) (k : Nat) (h : H) : Sessions S H :=
  { s with handles := fun k' h' => if k' = k ∧ h' = h then none else s.handles k' h' }

/-- The first part of xrootd/fshandler.go:402-422 (`CloseSession`), under `h.mu`; the files are closed
after it, which changes no map. -/
def Sessions.closeSession (s : Sessions S H) (id : S) : Sessions S H :=
  { s with table := fun i => if i = id then none else s.table i }

/-- xrootd/fshandler.go:254-268 (`getFile`), used by `Read`, `Write`, `Stat`, `Truncate` and `Sync`. -/
def Sessions.getFile (s : Sessions S H) (id : S) (h : H) : Option Nat :=
  match s.table id with
  | none => none
  | some k => s.handles k h

/-- What the server did, one request after the other. -/
inductive Event (S H : Type)
  | opened (id : S) (h : H) (f : Nat)
  | openFailed (id : S)
  | closed (id : S) (h : H)
  | sessionClosed (id : S)

/-- A request: to open the file `f` with the random handles `tries`, to close a handle, or the end of a session. -/
inductive Op (S H : Type)
  | open (id : S) (f : Nat) (tries : List H)
  | close (id : S) (h : H)
  | closeSession (id : S)

/-- A request, undisturbed by others. -/
def Sessions.step (s : Sessions S H) : Op S H → Sessions S H × Event S H
  | .open id f tries =>
    match (s.find id).2.register (s.find id).1 f tries with
    | some (h, s') => (s', .opened id h f)
    | none => ((s.find id).2, .openFailed id)
  | .close id h =>
    match s.table id with
    | none => (s, .closed id h)
    | some k => (s.drop k h, .closed id h)
  | .closeSession id => (s.closeSession id, .sessionClosed id)

/-- Any number of requests, one after the other: the last state and the events, last first. -/
def Sessions.runOps (s : Sessions S H) (hist : List (Event S H)) : List (Op S H) → Sessions S H × List (Event S H)
  | [] => (s, hist)
  | op :: ops => (s.step op).1.runOps ((s.step op).2 :: hist) ops

/-! ### C45 -/

/-- The file meant by a handle of a session, by the history (last event first): that of the last successful
open that returned this handle to this session, unless the handle or the session was closed since. -/
def meaning (id : S) (h : H) : List (Event S H) → Option Nat
  | [] => none
  | .opened id' h' f :: rest => if id' = id ∧ h' = h then some f else meaning id h rest
  | .closed id' h' :: rest => if id' = id ∧ h' = h then none else meaning id h rest
  | .sessionClosed id' :: rest => if id' = id then none else meaning id h rest
  | .openFailed _ :: rest => meaning id h rest

/-- Session structs in the table are different, and those not yet made are empty. -/
structure Sessions.Ok (s : Sessions S H) : Prop where
  below : ∀ id k, s.table id = some k → k < s.next
  inj : ∀ id id' k, s.table id = some k → s.table id' = some k → id = id'
  fresh : ∀ k, s.next ≤ k → ∀ h, s.handles k h = none
  owned : ∀ id k, s.table id = some k → s.owner k = some id

omit [DecidableEq H] in
theorem find_ok (s : Sessions S H) (hs : s.Ok) (id : S) : (s.find id).2.Ok ∧ (s.find id).2.table id = some (s.find id).1 ∧
    (∀ i h, (s.find id).2.getFile i h = s.getFile i h) ∧ (∀ i, i ≠ id → (s.find id).2.table i = s.table i) := by
  unfold Sessions.find
  cases ht : s.table id with
  | some k => exact ⟨hs, ht, fun _ _ => rfl, fun _ _ => rfl⟩
  | none =>
    refine ⟨⟨?_, ?_, ?_, ?_⟩, by simp, ?_, ?_⟩
    · intro i k h
      simp only at h ⊢
      by_cases hi : i = id
      · rw [if_pos hi] at h; cases h; omega
      · rw [if_neg hi] at h; have := hs.below i k h; omega
    · intro i i' k h h'
      simp only at h h'
      by_cases hi : i = id <;> by_cases hi' : i' = id
      · rw [hi, hi']
      · rw [if_pos hi] at h; rw [if_neg hi'] at h'; cases h; have := hs.below i' _ h'; omega
      · rw [if_neg hi] at h; rw [if_pos hi'] at h'; cases h'; have := hs.below i _ h; omega
      · rw [if_neg hi] at h; rw [if_neg hi'] at h'; exact hs.inj i i' k h h'
    · intro k hk h
      simp only at hk ⊢
      split
      · rfl
      · exact hs.fresh k (by omega) h
    · intro i k h
      simp only at h ⊢
      by_cases hi : i = id
      · rw [if_pos hi] at h; cases h; rw [if_pos rfl, hi]
      · rw [if_neg hi] at h
        have := hs.below i k h
        rw [if_neg (by omega)]; exact hs.owned i k h
    · intro i h
      unfold Sessions.getFile
      simp only
      by_cases hi : i = id
      · rw [if_pos hi, hi, ht]; simp
      · rw [if_neg hi]
        cases hti : s.table i with
        | none => rfl
        | some k =>
          have := hs.below i k hti
          simp only
          rw [if_neg (by omega)]
    · intro i hi
      simp only
      rw [if_neg hi]

omit [DecidableEq S] in
theorem register_spec (s : Sessions S H) (k f : Nat) : ∀ (tries : List H) (h : H) (s' : Sessions S H),
    s.register k f tries = some (h, s') → s.handles k h = none ∧
      s' = { s with handles := fun k' h' => if k' = k ∧ h' = h then some f else s.handles k' h' }
  | [], h, s', e => by simp [Sessions.register] at e
  | t :: ts, h, s', e => by
    unfold Sessions.register at e
    cases hk : s.handles k t with
    | some _ => rw [hk] at e; exact register_spec s k f ts h s' e
    | none =>
      rw [hk] at e
      simp only [Option.some.injEq, Prod.mk.injEq] at e
      obtain ⟨rfl, rfl⟩ := e
      exact ⟨hk, rfl⟩

/-- The state agrees with the history. -/
structure Agrees (s : Sessions S H) (hist : List (Event S H)) : Prop where
  ok : s.Ok
  same : ∀ id h, s.getFile id h = meaning id h hist

/-- Opens in a history (last event first) returned handles which had no meaning at the time. -/
def Unique : List (Event S H) → Prop
  | [] => True
  | .opened id h _ :: rest => meaning id h rest = none ∧ Unique rest
  | _ :: rest => Unique rest

theorem step_agrees (s : Sessions S H) (hist : List (Event S H)) (ha : Agrees s hist) (hu : Unique hist) (op : Op S H) :
    Agrees (s.step op).1 ((s.step op).2 :: hist) ∧ Unique ((s.step op).2 :: hist) := by
  obtain ⟨ok, same⟩ := ha
  cases op with
  | «open» id f tries =>
    have ⟨ok1, t1, g1, _⟩ := find_ok s ok id
    simp only [Sessions.step]
    cases hr : (s.find id).2.register (s.find id).1 f tries with
    | none =>
      simp only
      exact ⟨⟨ok1, fun i h => by rw [g1, same]; rfl⟩, hu⟩
    | some p =>
      obtain ⟨h, s'⟩ := p
      obtain ⟨hn, rfl⟩ := register_spec _ _ _ _ _ _ hr
      simp only
      refine ⟨⟨⟨ok1.below, ok1.inj, ?_, ok1.owned⟩, ?_⟩, ?_, hu⟩
      · intro k hk x
        simp only
        rw [if_neg]
        · exact ok1.fresh k hk x
        · rintro ⟨rfl, _⟩
          have h1 := ok1.below _ _ t1
          have h2 : (s.find id).2.next ≤ (s.find id).1 := hk
          omega
      · intro i x
        have gi : meaning i x hist = (s.find id).2.getFile i x := by rw [g1, same]
        unfold meaning
        rw [gi]
        unfold Sessions.getFile
        simp only
        cases hti : (s.find id).2.table i with
        | none =>
          rw [if_neg]
          rintro ⟨rfl, _⟩
          rw [t1] at hti; cases hti
        | some k =>
          simp only
          by_cases hk : k = (s.find id).1
          · have hi : i = id := ok1.inj i id k hti (hk ▸ t1)
            subst hi
            by_cases hx : x = h
            · subst hx; rw [if_pos ⟨hk, rfl⟩, if_pos ⟨rfl, rfl⟩]
            · rw [if_neg (fun c => hx c.2), if_neg (fun c => hx c.2.symm)]
          · rw [if_neg (fun c => hk c.1), if_neg]
            rintro ⟨rfl, _⟩
            rw [t1] at hti; cases hti; exact hk rfl
      · rw [← same id h, ← g1]
        unfold Sessions.getFile
        rw [t1]; exact hn
  | close id h =>
    simp only [Sessions.step]
    cases ht : s.table id with
    | none =>
      simp only
      refine ⟨⟨ok, fun i x => ?_⟩, hu⟩
      unfold meaning
      rw [← same]
      split
      · rename_i hc
        obtain ⟨rfl, rfl⟩ := hc
        unfold Sessions.getFile
        rw [ht]
      · rfl
    | some k =>
      simp only
      refine ⟨⟨⟨ok.below, ok.inj, ?_, ok.owned⟩, fun i x => ?_⟩, hu⟩
      · intro j hj x
        simp only [Sessions.drop]
        split
        · rfl
        · exact ok.fresh j hj x
      · unfold meaning
        rw [← same]
        unfold Sessions.getFile Sessions.drop
        simp only
        cases hti : s.table i with
        | none =>
          simp only [ite_self]
        | some j =>
          simp only
          by_cases hj : j = k
          · have hi : i = id := ok.inj i id j hti (hj ▸ ht)
            subst hi
            by_cases hx : x = h
            · subst hx; rw [if_pos ⟨hj, rfl⟩, if_pos ⟨rfl, rfl⟩]
            · rw [if_neg (fun c => hx c.2), if_neg (fun c => hx c.2.symm)]
          · rw [if_neg (fun c => hj c.1), if_neg]
            rintro ⟨rfl, _⟩
            rw [ht] at hti; cases hti; exact hj rfl
  | closeSession id =>
    simp only [Sessions.step]
    refine ⟨⟨⟨?_, ?_, ok.fresh, ?_⟩, fun i x => ?_⟩, hu⟩
    · intro i k h
      simp only [Sessions.closeSession] at h
      split at h
      · cases h
      · exact ok.below i k h
    · intro i i' k h h'
      simp only [Sessions.closeSession] at h h'
      split at h
      · cases h
      · split at h'
        · cases h'
        · exact ok.inj i i' k h h'
    · intro i k h
      simp only [Sessions.closeSession] at h
      split at h
      · cases h
      · exact ok.owned i k h
    · unfold meaning
      rw [← same]
      unfold Sessions.getFile Sessions.closeSession
      simp only
      by_cases hi : i = id
      · rw [if_pos hi, if_pos hi.symm]
      · rw [if_neg hi, if_neg (fun c => hi c.symm)]

/-- C45: for any number of requests of any sessions, one after the other, and any random choices:
every handle in every session is served exactly as the history says (the file of the last open which
returned it to this session, unless it or the session was closed since), and no open returned a
handle which was open in its session. -/
theorem C45_sequential (ops : List (Op S H)) (id : S) (h : H) :
    (Sessions.empty.runOps [] ops).1.getFile id h = meaning id h (Sessions.empty.runOps [] ops).2 ∧
    Unique (Sessions.empty.runOps [] ops).2 := by
  have key : ∀ (ops : List (Op S H)) (s : Sessions S H) (hist : List (Event S H)), Agrees s hist → Unique hist →
      Agrees (s.runOps hist ops).1 (s.runOps hist ops).2 ∧ Unique (s.runOps hist ops).2 := by
    intro ops
    induction ops with
    | nil => intro s hist ha hu; exact ⟨ha, hu⟩
    | cons op ops ih =>
      intro s hist ha hu
      have := step_agrees s hist ha hu op
      exact ih _ _ this.1 this.2
  have h0 : Agrees (Sessions.empty : Sessions S H) [] := by
    refine ⟨⟨?_, ?_, ?_, ?_⟩, ?_⟩ <;> intros <;> simp_all [Sessions.empty, Sessions.getFile, meaning]
  have := key ops Sessions.empty [] h0 trivial
  exact ⟨this.1.same id h, this.2⟩

example : (Sessions.empty.runOps [] [Op.open 1 10 [5], Op.open 1 11 [5, 6], Op.open 2 12 [5], Op.close 1 5]).1.getFile 1 6
    = some 11 := by decide

/-! ### Interleaved requests -/

/-- The states reachable by interleaved requests, with all opens which succeeded (session, handle and file).
The steps are those of xrootd/fshandler.go between the locks. A step of `Open` or `Close` which uses a session
struct found before may use any struct made for its session; `drop` is allowed for any struct at all. -/
inductive Reachable : Sessions S H → List (S × H × Nat) → Prop
  | start : Reachable Sessions.empty []
  | find {s log} (id : S) : Reachable s log → Reachable (s.find id).2 log
  | register {s log} (id : S) (k f : Nat) (tries : List H) (h : H) (s' : Sessions S H) :
      Reachable s log → s.owner k = some id → s.register k f tries = some (h, s') → Reachable s' ((id, h, f) :: log)
  | drop {s log} (k : Nat) (h : H) : Reachable s log → Reachable (s.drop k h) log
  | closeSession {s log} (id : S) : Reachable s log → Reachable (s.closeSession id) log

theorem reachable_inv {s : Sessions S H} {log : List (S × H × Nat)} (hr : Reachable s log) :
    (∀ id k, s.table id = some k → s.owner k = some id) ∧ (∀ k, s.owner k ≠ none → k < s.next) ∧
    (∀ k h f, s.handles k h = some f → ∃ id, s.owner k = some id ∧ (id, h, f) ∈ log) := by
  induction hr with
  | start => refine ⟨?_, ?_, ?_⟩ <;> intros <;> simp_all [Sessions.empty]
  | @find s log id _ ih =>
    obtain ⟨h1, h2, h3⟩ := ih
    unfold Sessions.find
    cases ht : s.table id with
    | some k => exact ⟨h1, h2, h3⟩
    | none =>
      refine ⟨?_, ?_, ?_⟩
      · intro i k h
        simp only at h ⊢
        by_cases hi : i = id
        · rw [if_pos hi] at h; cases h; rw [if_pos rfl, hi]
        · rw [if_neg hi] at h
          have := h2 k (by rw [h1 i k h]; simp)
          rw [if_neg (by omega)]; exact h1 i k h
      · intro k hk
        simp only at hk ⊢
        by_cases hkn : k = s.next
        · omega
        · rw [if_neg hkn] at hk; have := h2 k hk; omega
      · intro k h f hf
        simp only at hf ⊢
        by_cases hkn : k = s.next
        · rw [if_pos hkn] at hf; cases hf
        · rw [if_neg hkn] at hf ⊢; exact h3 k h f hf
  | @register s log id k f tries h s' _ ho hreg ih =>
    obtain ⟨h1, h2, h3⟩ := ih
    obtain ⟨hn, rfl⟩ := register_spec _ _ _ _ _ _ hreg
    refine ⟨h1, h2, ?_⟩
    intro k' h' f' hf
    simp only at hf
    by_cases hc : k' = k ∧ h' = h
    · rw [if_pos hc] at hf; cases hf
      obtain ⟨rfl, rfl⟩ := hc
      exact ⟨id, ho, by simp⟩
    · rw [if_neg hc] at hf
      obtain ⟨i, hi, hm⟩ := h3 k' h' f' hf
      exact ⟨i, hi, by simp [hm]⟩
  | @drop s log k h _ ih =>
    obtain ⟨h1, h2, h3⟩ := ih
    refine ⟨h1, h2, ?_⟩
    intro k' h' f' hf
    simp only [Sessions.drop] at hf
    split at hf
    · cases hf
    · exact h3 k' h' f' hf
  | @closeSession s log id _ ih =>
    obtain ⟨h1, h2, h3⟩ := ih
    refine ⟨?_, h2, h3⟩
    intro i k h
    simp only [Sessions.closeSession] at h
    split at h
    · cases h
    · exact h1 i k h

/-- C45: however requests of any sessions interleave, a handle given by a session is served with a file
only if this session opened this file and got this handle. -/
theorem C45_private {s : Sessions S H} {log : List (S × H × Nat)} (hr : Reachable s log) (id : S) (h : H) (f : Nat)
    (hg : s.getFile id h = some f) : (id, h, f) ∈ log := by
  obtain ⟨h1, _, h3⟩ := reachable_inv hr
  unfold Sessions.getFile at hg
  cases ht : s.table id with
  | none => rw [ht] at hg; cases hg
  | some k =>
    rw [ht] at hg
    obtain ⟨i, hi, hm⟩ := h3 k h f hg
    rw [h1 id k ht] at hi
    cases hi
    exact hm

/-- C45 fails for an open which is overtaken by the end of its session: it succeeds, but its handle is never
served, and the file remains in a struct that no longer belongs to the handler. -/
theorem C45_race_counterexample (id : S) (h : H) (f : Nat) : ∃ s : Sessions S H, Reachable s [(id, h, f)] ∧
    s.handles 0 h = some f ∧ s.getFile id h = none ∧ s.table id = none := by
  have r1 := Reachable.find (H := H) id Reachable.start
  have r2 := Reachable.closeSession id r1
  have ho : ((Sessions.empty (S := S) (H := H)).find id).2.owner 0 = some id := by
    simp [Sessions.find, Sessions.empty]
  have hn : (((Sessions.empty (S := S) (H := H)).find id).2.closeSession id).handles 0 h = none := by
    simp [Sessions.find, Sessions.empty, Sessions.closeSession]
  have hreg : (((Sessions.empty (S := S) (H := H)).find id).2.closeSession id).register 0 f [h]
      = some (h, { ((Sessions.empty (S := S) (H := H)).find id).2.closeSession id with
        handles := fun k' h' => if k' = 0 ∧ h' = h then some f
          else (((Sessions.empty (S := S) (H := H)).find id).2.closeSession id).handles k' h' }) := by
    unfold Sessions.register; rw [hn]
  refine ⟨_, Reachable.register id 0 f [h] h _ r2 ho hreg, by simp, ?_, ?_⟩
  · simp [Sessions.getFile, Sessions.closeSession]
  · simp [Sessions.closeSession]

/-! ### C70: reading -/

/-- xrootd/fshandler.go:212-231 (`Read`): `make([]byte, request.Length)`; `readAt` is the file system, and
cannot panic. -/
def handleRead (s : Sessions S H) (id : S) (h : H) (length : BitVec 32) (readAt : Nat → Nat → Option Bytes) : Out Bytes :=
  match s.getFile id h with
  | none => .err
  | some f => if length.toInt < 0 then .panic
    else match readAt f length.toInt.toNat with
      | some d => .ok d
      | none => .err

omit [DecidableEq S] [DecidableEq H] in
/-- C70: reading panics only for a negative length. -/
theorem C70_read_partial (s : Sessions S H) (id : S) (h : H) (length : BitVec 32) (hl : 0 ≤ length.toInt)
    (readAt : Nat → Nat → Option Bytes) : handleRead s id h length readAt ≠ .panic := by
  unfold handleRead
  split
  · simp
  · rw [if_neg (by omega)]
    split <;> simp

/-- C70 fails: a client which opened any file makes the server panic by reading a negative number of bytes;
the request itself is parsed. -/
theorem C70_read_counterexample (id : S) (h : H) (f : Nat) (readAt : Nat → Nat → Option Bytes) :
    handleRead (Sessions.empty.runOps [] [Op.open id f [h]]).1 id h (-1) readAt = .panic := by
  have hg : (Sessions.empty.runOps [] [Op.open id f [h]]).1.getFile id h = some f := by
    rw [(C45_sequential _ id h).1]
    simp [Sessions.runOps, Sessions.step, Sessions.find, Sessions.empty, Sessions.register, meaning]
  unfold handleRead
  rw [hg]
  rfl

end Verif.Xrootd
