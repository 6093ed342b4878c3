/-!
# C19: the read-ahead pipeline of baskets

`groot/rtree/bkreader.go` as a step machine.  Two goroutines: the prefetcher (`run`) and the
consumer (`read`, `close`), communicating through the channels `reuse` and `ready`, both of
capacity `n`, the unbuffered channel `exit` and the channels closed by the prefetcher.
Buffers are numbered; what a buffer holds is the number of the basket which was last read
into it.
-/

namespace Verif.RTree.BkReader

/-- The prefetcher: groot/rtree/bkreader.go:168-180 (`run`). -/
inductive Prod where
  /-- at the `select`, the next basket to fetch is number `i` -/
  | sel (i : Nat)
  /-- reading basket `i` into buffer `b` (`inflate`) -/
  | fill (i b : Nat)
  /-- sending buffer `b` on `ready` -/
  | send (i b : Nat)
  /-- returned: `ready` and `closed` are closed -/
  | gone
deriving DecidableEq, Repr

/-- The consumer: groot/rtree/bkreader.go:182-203 (`read`, `close`). -/
inductive Cons where
  /-- outside of the reader, free to use the current buffer -/
  | idle
  /-- in `read`, about to give the current buffer back -/
  | give
  /-- in `read`, receiving from `ready` -/
  | recv
  /-- in `close`, at the `select` -/
  | close
  /-- in `close`, waiting for the prefetcher to return -/
  | wait
deriving DecidableEq, Repr

structure State where
  n     : Nat               -- number of buffers, capacity of the channels
  last  : Nat               -- one past the last basket to fetch
  prod  : Prod
  cons  : Cons
  reuse : List Nat          -- the channel `reuse`: buffers
  ready : List Nat          -- the channel `ready`: buffers
  cur   : Option Nat        -- the buffer being served
  buf   : Nat → Option Nat  -- what the buffers hold
  /-- what `read` returned so far: the basket, `none` for the end -/
  got   : List (Option Nat)
  stopped : Bool            -- the prefetcher was told to stop

/-- groot/rtree/bkreader.go:37-146 (`newBkReader`), the number of buffers: `ncpu` is
`runtime.NumCPU()`, `m` the number of baskets of the branch. -/
def nbuf (ncpu : Nat) (n : Int) (m : Nat) : Nat :=
  let a := if n < 0 then ncpu + 1 else n.toNat
  let b := if a = 0 then 1 else a
  if b > m ∧ m ≠ 0 then m else b

/-- groot/rtree/bkreader.go:37-146 (`newBkReader`): the buffers `0 … n-1` are in `reuse`, the
prefetcher starts at the first basket `beg`, unless the range is empty (`run` false). -/
def init (n beg last : Nat) (run : Bool) : State :=
  { n := n, last := last, prod := if run then .sel beg else .gone, cons := .idle,
    reuse := List.range n, ready := [], cur := none, buf := fun _ => none, got := [], stopped := false }

/-- What can happen next. -/
inductive Ev where
  | fetch    -- the prefetcher receives a buffer from `reuse`
  | inflate  -- it has filled the buffer
  | push     -- it sends the buffer on `ready`
  | over     -- the loop ends: `ready` and `closed` are closed
  | callRead | giveBack | receive | eof
  | callClose | sawClosed | handshake | seen
deriving DecidableEq, Repr

/-- One step; `none` if it cannot happen.  The two goroutines run
groot/rtree/bkreader.go:168-180 (`run`) and
groot/rtree/bkreader.go:182-203 (`read`); a buffer which could not be inflated is handed over
like the others, with its error. -/
def exec (s : State) : Ev → Option State
  | .fetch =>
    match s.prod, s.reuse with
    | .sel i, b :: rest => if i < s.last then some { s with prod := .fill i b, reuse := rest } else none
    | _, _ => none
  | .inflate =>
    match s.prod with
    | .fill i b => some { s with prod := .send i b, buf := fun x => if x = b then some i else s.buf x }
    | _ => none
  | .push =>
    match s.prod with
    | .send i b =>
      if s.ready.length < s.n then
        some { s with prod := .sel (i + 1), ready := s.ready ++ [b] }
      else none
    | _ => none
  | .over =>
    match s.prod with
    | .sel i => if s.last ≤ i then some { s with prod := .gone } else none
    | _ => none
  | .callRead =>
    if s.cons = .idle then
      some { s with cons := if s.cur = none then .recv else .give }
    else none
  | .giveBack =>
    match s.cons, s.cur with
    | .give, some b =>
      if s.reuse.length < s.n then
        some { s with cons := .recv, cur := none, reuse := s.reuse ++ [b] }
      else none
    | _, _ => none
  | .receive =>
    match s.cons, s.ready with
    | .recv, b :: rest =>
      some { s with cons := .idle, cur := some b, ready := rest, got := s.got ++ [s.buf b] }
    | _, _ => none
  | .eof =>
    if s.cons = .recv ∧ s.ready = [] ∧ s.prod = .gone then
      some { s with cons := .idle, got := s.got ++ [none] }
    else none
  | .callClose => if s.cons = .idle then some { s with cons := .close } else none
  | .sawClosed =>
    if s.cons = .close ∧ s.prod = .gone then some { s with cons := .idle } else none
  | .handshake =>
    match s.cons, s.prod with
    | .close, .sel i => if i < s.last then some { s with cons := .wait, prod := .gone, stopped := true }
      else none
    | _, _ => none
  | .seen => if s.cons = .wait ∧ s.prod = .gone then some { s with cons := .idle } else none

/-- An execution. -/
def run : List Ev → State → Option State
  | [], s => some s
  | e :: es, s =>
    match exec s e with
    | none => none
    | some s' => run es s'

/-- The buffer the prefetcher is working on. -/
def Prod.buf : Prod → List Nat
  | .fill _ b => [b]
  | .send _ b => [b]
  | _ => []

/-- The next basket to be put on `ready`, while the prefetcher runs. -/
def Prod.next : Prod → Option Nat
  | .sel i => some i
  | .fill i _ => some i
  | .send i _ => some i
  | .gone => none

/-- All buffers, wherever they are. -/
def State.all (s : State) : List Nat := s.reuse ++ s.prod.buf ++ s.ready ++ s.cur.toList

/-- The baskets `beg, beg+1, …`, `k` of them. -/
def seqFrom (beg k : Nat) : List (Option Nat) := (List.range' beg k).map some

/-- What holds in every reachable state. -/
structure Inv (beg : Nat) (s : State) : Prop where
  perm : s.all.Perm (List.range s.n)
  npos : 0 < s.n
  /-- the baskets handed out, then those waiting in `ready`, are the first ones in order -/
  order : ∃ g e, s.got = seqFrom beg g ++ List.replicate e none ∧
    s.ready.map s.buf = seqFrom (beg + g) s.ready.length ∧
    (e ≠ 0 → s.ready = [] ∧ s.prod = .gone) ∧
    (∀ i, s.prod.next = some i → i = beg + g + s.ready.length) ∧
    beg + g + s.ready.length ≤ s.last ∧
    (s.prod = .gone → s.stopped = false → beg + g + s.ready.length = s.last)
  /-- the buffer in use holds the basket `read` returned last -/
  cur : ∀ b, s.cur = some b → s.got.getLast? = some (s.buf b)
  fill : ∀ i b, s.prod = .send i b → s.buf b = some i
  lt : ∀ i b, s.prod = .fill i b ∨ s.prod = .send i b → i < s.last
  give : s.cons = .give → s.cur ≠ none
  recv : s.cons = .recv → s.cur = none
  wait : s.cons = .wait → s.prod = .gone

theorem seqFrom_succ (b k : Nat) : seqFrom b (k + 1) = seqFrom b k ++ [some (b + k)] := by
  simp [seqFrom, List.range'_concat]

theorem seqFrom_cons (b k : Nat) : seqFrom b (k + 1) = some b :: seqFrom (b + 1) k := by
  simp [seqFrom, List.range'_succ]

theorem seqFrom_length (b k : Nat) : (seqFrom b k).length = k := by simp [seqFrom]

theorem Inv.nodup {beg : Nat} {s : State} (h : Inv beg s) : s.all.Nodup :=
  h.perm.nodup_iff.mpr List.nodup_range

theorem Inv.lengths {beg : Nat} {s : State} (h : Inv beg s) :
    s.reuse.length + s.prod.buf.length + s.ready.length + s.cur.toList.length = s.n := by
  have := h.perm.length_eq
  simpa [State.all, Nat.add_assoc] using this

theorem init_inv (n beg last : Nat) (r : Bool) (hn : 0 < n) (hl : beg ≤ last)
    (hr : r = false → last = beg) : Inv beg (init n beg last r) where
  perm := by
    cases r <;> simp [State.all, init, Prod.buf]
  npos := hn
  order := by
    refine ⟨0, 0, rfl, rfl, by simp, ?_, by simpa [init] using hl, ?_⟩
    · intro i hi
      cases r <;> simp [init, Prod.next] at hi
      simp [init, hi]
    · intro h1 _
      cases r
      · simp [init, hr rfl]
      · simp [init] at h1
  cur := by simp [init]
  fill := by cases r <;> simp [init]
  lt := by cases r <;> simp [init]
  give := by simp [init]
  recv := by simp [init]
  wait := by simp [init]

theorem exec_inv {beg : Nat} {s s' : State} {e : Ev} (h : Inv beg s) (hs : exec s e = some s') :
    Inv beg s' := by
  have hnd := h.nodup
  have hperm := h.perm
  obtain ⟨g, ne, o1, o2, o3, o4, o5, o6⟩ := h.order
  cases e with
  | fetch =>
    simp only [exec] at hs
    split at hs
    · next i b rest hp hr =>
      split at hs
      · next hlt =>
        cases hs
        refine ⟨?_, h.npos, ⟨g, ne, o1, o2, ?_, ?_, o5, by simp⟩, h.cur, by simp, ?_, h.give,
          h.recv, ?_⟩
        · refine List.Perm.trans ?_ hperm
          simp only [State.all, hp, hr, Prod.buf]
          rw [List.perm_iff_count]
          intro a; simp [List.count_cons]; omega
        · intro he; have := (o3 he).2; rw [hp] at this; exact absurd this (by simp)
        · intro j hj; simp only [Prod.next] at hj; exact o4 j (by rw [hp]; exact hj)
        · intro j b' hj
          rcases hj with hj | hj
          · cases hj; exact hlt
          · exact absurd hj (by simp)
        · intro hw; have := h.wait hw; rw [hp] at this; exact absurd this (by simp)
      · exact absurd hs (by simp)
    · exact absurd hs (by simp)
  | inflate =>
    simp only [exec] at hs
    split at hs
    · next i b hp =>
      cases hs
      have hb1 : b ∉ s.ready := by
        intro hm
        simp only [State.all, hp, Prod.buf] at hnd
        rw [List.nodup_append] at hnd
        have := hnd.1
        rw [List.nodup_append] at this
        exact this.2.2 b (by simp) b hm rfl
      have hb2 : s.cur ≠ some b := by
        intro hm
        simp only [State.all, hp, Prod.buf] at hnd
        rw [List.nodup_append] at hnd
        exact hnd.2.2 b (by simp) b (by simp [hm]) rfl
      refine ⟨?_, h.npos, ⟨g, ne, o1, ?_, ?_, ?_, o5, by simp⟩, ?_, ?_, ?_, h.give, h.recv, ?_⟩
      · refine List.Perm.trans ?_ hperm
        simp only [State.all, hp, Prod.buf]
        exact List.Perm.refl _
      · rw [← o2]
        apply List.map_congr_left
        intro x hx
        have : x ≠ b := by rintro rfl; exact hb1 hx
        simp [this]
      · intro he; have := (o3 he).2; rw [hp] at this; exact absurd this (by simp)
      · intro j hj; simp only [Prod.next] at hj; exact o4 j (by rw [hp]; exact hj)
      · intro c hc
        simp only at hc ⊢
        have : c ≠ b := by rintro rfl; exact hb2 hc
        rw [h.cur c hc]; simp [this]
      · intro j c hc; simp only [Prod.send.injEq] at hc; simp [hc.1, hc.2]
      · intro j c hc
        rcases hc with hc | hc
        · exact absurd hc (by simp)
        · simp only [Prod.send.injEq] at hc
          rw [← hc.1]; exact h.lt i b (Or.inl hp)
      · intro hw; have := h.wait hw; rw [hp] at this; exact absurd this (by simp)
    · exact absurd hs (by simp)
  | push =>
    simp only [exec] at hs
    split at hs
    · next i b hp =>
      split at hs
      · cases hs
        have hi := o4 i (by rw [hp]; rfl)
        have hbuf := h.fill i b hp
        have hilt := h.lt i b (Or.inr hp)
        refine ⟨?_, h.npos, ⟨g, ne, o1, ?_, ?_, ?_, ?_, by simp⟩, h.cur, by simp, by simp, h.give,
          h.recv, ?_⟩
        · refine List.Perm.trans ?_ hperm
          simp only [State.all, hp, Prod.buf]
          rw [List.perm_iff_count]
          intro a; simp [List.count_cons]; omega
        · simp only [List.map_append, List.map_cons, List.map_nil, List.length_append,
            List.length_singleton]
          rw [seqFrom_succ, o2, hbuf, hi]
        · intro he; have := (o3 he).2; rw [hp] at this; exact absurd this (by simp)
        · intro j hj
          simp only [Prod.next, Option.some.injEq] at hj
          simp only [List.length_append, List.length_singleton]; omega
        · simp only [List.length_append, List.length_singleton]; omega
        · intro hw; have := h.wait hw; rw [hp] at this; exact absurd this (by simp)
      · exact absurd hs (by simp)
    · exact absurd hs (by simp)
  | over =>
    simp only [exec] at hs
    split at hs
    · next i hp =>
      split at hs
      · next hle =>
        cases hs
        have hi := o4 i (by rw [hp]; rfl)
        refine ⟨?_, h.npos, ⟨g, ne, o1, o2, ?_, by simp [Prod.next], o5, ?_⟩, h.cur, by simp,
          by simp, h.give, h.recv, by simp⟩
        · refine List.Perm.trans ?_ hperm
          simp only [State.all, hp, Prod.buf]; exact List.Perm.refl _
        · intro he; have := (o3 he).2; rw [hp] at this; exact absurd this (by simp)
        · intro _ _; simp only; omega
      · exact absurd hs (by simp)
    · exact absurd hs (by simp)
  | callRead =>
    simp only [exec] at hs
    split at hs
    · next hc =>
      cases hs
      refine ⟨hperm, h.npos, ⟨g, ne, o1, o2, o3, o4, o5, o6⟩, h.cur, h.fill, h.lt, ?_, ?_, ?_⟩
      · intro h1; simp only at h1 ⊢
        split at h1
        · exact absurd h1 (by simp)
        · assumption
      · intro h1; simp only at h1 ⊢
        split at h1
        · assumption
        · exact absurd h1 (by simp)
      · intro h1; simp only at h1; split at h1 <;> exact absurd h1 (by simp)
    · exact absurd hs (by simp)
  | giveBack =>
    simp only [exec] at hs
    split at hs
    · next b hc hcur =>
      split at hs
      · cases hs
        refine ⟨?_, h.npos, ⟨g, ne, o1, o2, o3, o4, o5, o6⟩, by simp, h.fill, h.lt, by simp,
          by simp, by simp⟩
        refine List.Perm.trans ?_ hperm
        simp only [State.all, hcur]
        rw [List.perm_iff_count]
        intro a; simp [List.count_cons]; omega
      · exact absurd hs (by simp)
    · exact absurd hs (by simp)
  | receive =>
    simp only [exec] at hs
    split at hs
    · next b rest hc hr =>
      cases hs
      have hcur := h.recv hc
      have hne : ne = 0 := by
        by_cases h0 : ne = 0
        · exact h0
        · have := (o3 h0).1; rw [hr] at this; exact absurd this (by simp)
      subst hne
      rw [hr] at o2 o5 o6 o4
      simp only [List.length_cons, List.map_cons] at o2 o5 o6 o4
      rw [seqFrom_cons] at o2
      simp only [List.cons.injEq] at o2
      refine ⟨?_, h.npos, ⟨g + 1, 0, ?_, ?_, by simp, ?_, ?_, ?_⟩, ?_, h.fill, h.lt, by simp,
        by simp, by simp⟩
      · refine List.Perm.trans ?_ hperm
        simp only [State.all, hcur, hr]
        rw [List.perm_iff_count]
        intro a; simp [List.count_cons]
      · simp only [o1, o2.1, List.replicate_zero, List.append_nil]
        rw [seqFrom_succ]
      · simp only; rw [o2.2]; rfl
      · intro j hj; have := o4 j hj; simp only; omega
      · simp only; omega
      · intro h1 h2; have := o6 h1 h2; simp only; omega
      · intro c hc; simp only [Option.some.injEq] at hc; subst hc; simp
    · exact absurd hs (by simp)
  | eof =>
    simp only [exec] at hs
    split at hs
    · next hc =>
      cases hs
      refine ⟨hperm, h.npos, ⟨g, ne + 1, ?_, o2, ?_, o4, o5, o6⟩, ?_, h.fill, h.lt, by simp,
        by simp, by simp⟩
      · simp only [o1, List.append_assoc]
        rw [← List.replicate_succ']
      · intro _; exact hc.2
      · intro c hcc
        have := h.recv hc.1
        simp only at hcc
        rw [this] at hcc; exact absurd hcc (by simp)
    · exact absurd hs (by simp)
  | callClose =>
    simp only [exec] at hs
    split at hs
    · cases hs
      exact ⟨hperm, h.npos, ⟨g, ne, o1, o2, o3, o4, o5, o6⟩, h.cur, h.fill, h.lt, by simp, by simp,
        by simp⟩
    · exact absurd hs (by simp)
  | sawClosed =>
    simp only [exec] at hs
    split at hs
    · cases hs
      exact ⟨hperm, h.npos, ⟨g, ne, o1, o2, o3, o4, o5, o6⟩, h.cur, h.fill, h.lt, by simp, by simp,
        by simp⟩
    · exact absurd hs (by simp)
  | handshake =>
    simp only [exec] at hs
    split at hs
    · next i hc hp =>
      split at hs
      · cases hs
        refine ⟨?_, h.npos, ⟨g, ne, o1, o2, ?_, by simp [Prod.next], o5, by simp⟩, h.cur, by simp,
          by simp, by simp, by simp, by simp⟩
        · refine List.Perm.trans ?_ hperm
          simp only [State.all, hp, Prod.buf]; exact List.Perm.refl _
        · intro he; have := (o3 he).2; rw [hp] at this; exact absurd this (by simp)
      · exact absurd hs (by simp)
    · exact absurd hs (by simp)
  | seen =>
    simp only [exec] at hs
    split at hs
    · cases hs
      exact ⟨hperm, h.npos, ⟨g, ne, o1, o2, o3, o4, o5, o6⟩, h.cur, h.fill, h.lt, by simp, by simp,
        by simp⟩
    · exact absurd hs (by simp)

theorem exec_const {s s' : State} {e : Ev} (h : exec s e = some s') :
    s'.n = s.n ∧ s'.last = s.last := by
  cases e <;> simp only [exec] at h <;> (try split at h) <;> (try split at h) <;>
    first | (cases h; exact ⟨rfl, rfl⟩) | exact absurd h (by simp)

theorem run_inv {beg : Nat} {es : List Ev} {s s' : State} (h : Inv beg s)
    (hr : run es s = some s') : Inv beg s' ∧ s'.n = s.n ∧ s'.last = s.last := by
  induction es generalizing s with
  | nil => simp only [run, Option.some.injEq] at hr; subst hr; exact ⟨h, rfl, rfl⟩
  | cons e es ih =>
    simp only [run] at hr
    split at hr
    · exact absurd hr (by simp)
    · next s1 h1 =>
      obtain ⟨h2, h3, h4⟩ := ih (exec_inv h h1) hr
      obtain ⟨h5, h6⟩ := exec_const h1
      exact ⟨h2, by rw [h3, h5], by rw [h4, h6]⟩

/-- A state some execution leads to: a reader with `n` buffers for the baskets
`beg … last-1`, none of them if the range is empty. -/
def Reachable (n beg last : Nat) (s : State) : Prop :=
  ∃ es r, (r = false → last = beg) ∧ run es (init n beg last r) = some s

theorem Reachable.inv {n beg last : Nat} {s : State} (h : Reachable n beg last s) (hn : 0 < n)
    (hl : beg ≤ last) : Inv beg s ∧ s.n = n ∧ s.last = last := by
  obtain ⟨es, r, hr, h⟩ := h
  exact run_inv (init_inv n beg last r hn hl hr) h

/-- **C19, order.**  In every execution, with any number of buffers, the successive calls of
`read` return the baskets `beg, beg+1, …` one after the other, each once, and then the end;
and if the end was reached without closing the reader, they returned all of them. -/
theorem C19_order (n beg last : Nat) (hn : 0 < n) (hl : beg ≤ last) (s : State)
    (h : Reachable n beg last s) :
    ∃ g e, s.got = (List.range' beg g).map some ++ List.replicate e none ∧ beg + g ≤ last ∧
      (e ≠ 0 → s.stopped = false → beg + g = last) := by
  obtain ⟨hi, _, h2⟩ := h.inv hn hl
  obtain ⟨g, e, o1, _, o3, _, o5, o6⟩ := hi.order
  refine ⟨g, e, o1, by omega, fun he hs => ?_⟩
  obtain ⟨h3, h4⟩ := o3 he
  have := o6 h4 hs
  rw [h3] at this
  simp only [List.length_nil] at this
  omega

/-- **C19, the buffer in use.**  The buffer the consumer works with holds the basket `read`
returned last; it is in no channel, the prefetcher does not work on it, and no step changes it
until the consumer gives it back. -/
theorem C19_in_use (n beg last : Nat) (hn : 0 < n) (hl : beg ≤ last) (s : State)
    (h : Reachable n beg last s) (b : Nat) (hb : s.cur = some b) :
    s.got.getLast? = some (s.buf b) ∧ b ∉ s.reuse ∧ b ∉ s.ready ∧ b ∉ s.prod.buf ∧
      ∀ e s', exec s e = some s' → s'.cur = some b → s'.buf b = s.buf b := by
  obtain ⟨hi, _, _⟩ := h.inv hn hl
  have hnd := hi.nodup
  have hnd' := hnd
  simp only [State.all] at hnd'
  rw [List.nodup_append] at hnd'
  have hdis := hnd'.2.2
  have hno : ∀ x ∈ s.reuse ++ s.prod.buf ++ s.ready, x ≠ b := fun x hx =>
    hdis x hx b (by simp [hb])
  refine ⟨hi.cur b hb, fun hm => hno b (by simp [hm]) rfl, fun hm => hno b (by simp [hm]) rfl,
    fun hm => hno b (by simp [hm]) rfl, fun e s' he _ => ?_⟩
  cases e with
  | inflate =>
    simp only [exec] at he
    split at he
    · next i c hp =>
      cases he
      have : b ≠ c := by
        rintro rfl
        exact hno b (by simp [hp, Prod.buf]) rfl
      simp [this]
    · exact absurd he (by simp)
  | _ =>
    simp only [exec] at he
    (try split at he) <;> (try split at he) <;> first | (cases he; rfl) | exact absurd he (by simp)

/-- The events of the two goroutines themselves; the others are calls by the user. -/
def Ev.internal : Ev → Bool
  | .callRead => false
  | .callClose => false
  | _ => true

/-- **C19, no deadlock.**  Whenever a call of `read` or `close` has not returned, something can
happen. -/
theorem C19_progress (n beg last : Nat) (hn : 0 < n) (hl : beg ≤ last) (s : State)
    (h : Reachable n beg last s) (hc : s.cons ≠ .idle) :
    ∃ e, e.internal = true ∧ (exec s e).isSome = true := by
  obtain ⟨hi, h1, _⟩ := h.inv hn hl
  have hlen := hi.lengths
  have hpos := hi.npos
  cases hcc : s.cons with
  | idle => exact absurd hcc hc
  | give =>
    cases hcur : s.cur with
    | none => exact absurd hcur (hi.give hcc)
    | some b =>
      refine ⟨.giveBack, rfl, ?_⟩
      simp only [exec, hcc, hcur]
      rw [hcur] at hlen
      simp only [Option.toList_some, List.length_singleton] at hlen
      rw [if_pos (by omega)]; rfl
  | recv =>
    have hcur := hi.recv hcc
    rw [hcur] at hlen
    simp only [Option.toList_none, List.length_nil] at hlen
    cases hr : s.ready with
    | cons b rest => exact ⟨.receive, rfl, by simp only [exec, hcc, hr, Option.isSome_some]⟩
    | nil =>
      rw [hr] at hlen
      simp only [List.length_nil] at hlen
      cases hp : s.prod with
      | gone => exact ⟨.eof, rfl, by simp only [exec]; rw [if_pos ⟨hcc, hr, hp⟩]; rfl⟩
      | fill i b => exact ⟨.inflate, rfl, by simp only [exec, hp, Option.isSome_some]⟩
      | send i b =>
        refine ⟨.push, rfl, ?_⟩
        simp only [exec, hp, hr, List.length_nil]
        rw [if_pos (by omega)]; rfl
      | sel i =>
        by_cases hil : i < s.last
        · cases hre : s.reuse with
          | nil => rw [hre, hp] at hlen; simp only [Prod.buf, List.length_nil] at hlen; omega
          | cons b rest =>
            refine ⟨.fetch, rfl, ?_⟩
            simp only [exec, hp, hre]
            rw [if_pos hil]; rfl
        · refine ⟨.over, rfl, ?_⟩
          simp only [exec, hp]
          rw [if_pos (by omega)]; rfl
  | close =>
    cases hp : s.prod with
    | gone => exact ⟨.sawClosed, rfl, by simp only [exec]; rw [if_pos ⟨hcc, hp⟩]; rfl⟩
    | fill i b => exact ⟨.inflate, rfl, by simp only [exec, hp, Option.isSome_some]⟩
    | send i b =>
      refine ⟨.push, rfl, ?_⟩
      rw [hp] at hlen
      simp only [Prod.buf, List.length_singleton] at hlen
      simp only [exec, hp]
      rw [if_pos (by omega)]; rfl
    | sel i =>
      by_cases hil : i < s.last
      · refine ⟨.handshake, rfl, ?_⟩
        simp only [exec, hcc, hp]
        rw [if_pos hil]; rfl
      · refine ⟨.over, rfl, ?_⟩
        simp only [exec, hp]
        rw [if_pos (by omega)]; rfl
  | wait => exact ⟨.seen, rfl, by simp only [exec]; rw [if_pos ⟨hcc, hi.wait hcc⟩]; rfl⟩

/-- What is left to do. -/
def measure (s : State) : Nat :=
  (match s.prod with
    | .sel i => 4 * (s.last - i) + 1
    | .fill i _ => 4 * (s.last - i)
    | .send i _ => 4 * (s.last - i) - 1
    | .gone => 0) +
  (match s.cons with
    | .idle => 0 | .give => 2 | .recv => 1 | .close => 2 | .wait => 1)

/-- **C19, termination.**  No infinite run without new calls: every internal step leaves less to
do.  With `C19_progress`, every call of `read` and `close` returns, whatever the schedule. -/
theorem C19_measure (n beg last : Nat) (hn : 0 < n) (hl : beg ≤ last) (s s' : State) (e : Ev)
    (h : Reachable n beg last s) (he : e.internal = true) (hs : exec s e = some s') :
    measure s' < measure s := by
  obtain ⟨hi, _, _⟩ := h.inv hn hl
  cases e with
  | callRead => simp [Ev.internal] at he
  | callClose => simp [Ev.internal] at he
  | fetch =>
    simp only [exec] at hs
    split at hs
    · next hp hr =>
      split at hs
      · cases hs; simp only [measure, hp]; omega
      · exact absurd hs (by simp)
    · exact absurd hs (by simp)
  | inflate =>
    simp only [exec] at hs
    split at hs
    · next i b hp => cases hs; have := hi.lt i b (Or.inl hp); simp only [measure, hp]; omega
    · exact absurd hs (by simp)
  | push =>
    simp only [exec] at hs
    split at hs
    · next i b hp =>
      split at hs
      · cases hs; have := hi.lt i b (Or.inr hp); simp only [measure, hp]; omega
      · exact absurd hs (by simp)
    · exact absurd hs (by simp)
  | over =>
    simp only [exec] at hs
    split at hs
    · next hp =>
      split at hs
      · cases hs; simp only [measure, hp]; omega
      · exact absurd hs (by simp)
    · exact absurd hs (by simp)
  | giveBack =>
    simp only [exec] at hs
    split at hs
    · next hc _ =>
      split at hs
      · cases hs; simp only [measure, hc]; omega
      · exact absurd hs (by simp)
    · exact absurd hs (by simp)
  | receive =>
    simp only [exec] at hs
    split at hs
    · next hc _ => cases hs; simp only [measure, hc]; omega
    · exact absurd hs (by simp)
  | eof =>
    simp only [exec] at hs
    split at hs
    · next hc => cases hs; simp only [measure, hc.1]; omega
    · exact absurd hs (by simp)
  | sawClosed =>
    simp only [exec] at hs
    split at hs
    · next hc => cases hs; simp only [measure, hc.1]; omega
    · exact absurd hs (by simp)
  | handshake =>
    simp only [exec] at hs
    split at hs
    · next hc hp =>
      split at hs
      · cases hs; simp only [measure, hc, hp]; omega
      · exact absurd hs (by simp)
    · exact absurd hs (by simp)
  | seen =>
    simp only [exec] at hs
    split at hs
    · next hc => cases hs; simp only [measure, hc.1]; omega
    · exact absurd hs (by simp)

theorem gone_stays {es : List Ev} {s s' : State} (h : s.prod = .gone)
    (hr : run es s = some s') : s'.prod = .gone := by
  induction es generalizing s with
  | nil => simp only [run, Option.some.injEq] at hr; subst hr; exact h
  | cons e es ih =>
    simp only [run] at hr
    split at hr
    · exact absurd hr (by simp)
    · next s1 h1 =>
      refine ih ?_ hr
      cases e <;> simp only [exec, h] at h1 <;> (try split at h1) <;> (try split at h1) <;>
        first | (cases h1; first | exact h | rfl) | exact absurd h1 (by simp)

/-- **C19, close.**  When `close` returns, the prefetching goroutine has returned, and it stays
so: from a state in `close`, any execution after which the consumer is outside of the reader
again has ended the prefetcher. -/
theorem C19_close (s s' : State) (es : List Ev) (hc : s.cons = .close ∨ s.cons = .wait)
    (hr : run es s = some s') (hi : s'.cons = .idle) : s'.prod = .gone := by
  induction es generalizing s with
  | nil =>
    simp only [run, Option.some.injEq] at hr; subst hr
    rcases hc with hc | hc <;> rw [hc] at hi <;> exact absurd hi (by simp)
  | cons e es ih =>
    simp only [run] at hr
    split at hr
    · exact absurd hr (by simp)
    · next s1 h1 =>
      by_cases hc1 : s1.cons = .close ∨ s1.cons = .wait
      · exact ih s1 hc1 hr
      · apply gone_stays ?_ hr
        rcases hc with hc | hc <;> cases e <;> simp only [exec, hc] at h1 <;>
          (try split at h1) <;> (try split at h1) <;> simp_all
        all_goals (try (subst h1; simp_all))

/-- **C19, buffers.**  Whatever read-ahead was asked for, there is at least one buffer, and not
more than there are baskets. -/
theorem C19_buffers (ncpu : Nat) (n : Int) (m : Nat) :
    0 < nbuf ncpu n m ∧ (m ≠ 0 → nbuf ncpu n m ≤ m) := by
  unfold nbuf
  dsimp only
  split <;> split <;> (try split) <;> omega

/-- An execution with two buffers and three baskets, up to the end of the input, and a
`close`. -/
def sched : List Ev :=
  [.fetch, .callRead, .inflate, .push, .receive, .fetch, .inflate, .push,
   .callRead, .giveBack, .receive, .fetch, .callRead, .giveBack, .inflate, .push, .over, .receive,
   .callRead, .giveBack, .eof, .callClose, .sawClosed]

example : (run sched (init 2 4 7 true)).map (fun s => (s.got, s.cons, s.prod))
    = some ([some 4, some 5, some 6, none], .idle, .gone) := by decide +kernel

/-- Closing in the middle. -/
example : (run [.fetch, .callRead, .inflate, .push, .receive, .fetch, .callClose, .inflate, .push,
      .handshake, .seen] (init 3 4 9 true)).map (fun s => (s.got, s.cons, s.prod))
    = some ([some 4], .idle, .gone) := by decide +kernel

example : Reachable 2 4 7 ((run sched (init 2 4 7 true)).get (by decide +kernel)) :=
  ⟨sched, true, by simp, by simp⟩

end Verif.RTree.BkReader
