import Verif.Remote.Span

/-!
# Model of the read cache of `groot/riofs/plugin/http`

Any number of `ReadAt` calls run at the same time.  Each takes the parts it misses under the read
lock, starts a goroutine for every one of them, waits for all, and reads the local copy.  A step is one
operation of one goroutine; the copy is written byte by byte, so that a reader may see any part of it.

Simplifications: the last read of the local copy is one step; the calls do not share their buffers;
offsets are not negative.  The goroutines of one call get disjoint parts of its buffer and nothing but
the length of it is used afterwards, so every goroutine has its own part in the model.
-/

namespace Verif.Remote

/-- Where the goroutine fetching one span is, groot/riofs/plugin/http/rcache.go:97-112 (`fetch`). -/
inductive FPh
  | todo
  /-- writing `data` to the local copy, `k` bytes are written -/
  | writing (data : List UInt8) (k : Nat)
  /-- before `r.sps.add(sp)` -/
  | adding
  | done
  | failed
deriving DecidableEq, Repr

/-- One goroutine: the span and the part of the caller's buffer it was given. -/
structure Fetch where
  sp : Span
  buf : List UInt8
  ph : FPh
deriving DecidableEq, Repr

/-- Where a call is, groot/riofs/plugin/http/rcache.go:62-88 (`ReadAt`). -/
inductive CPh
  | idle
  | fetching (l : List Fetch)
  /-- before the last read of the local copy -/
  | reading
  /-- returned, with an error if `none` -/
  | ret (r : Option (List UInt8))
deriving DecidableEq, Repr

/-- A call of `ReadAt`: the span asked for, what the buffer holds before, where it is. -/
structure Call where
  sp : Span
  p : List UInt8
  ph : CPh
deriving DecidableEq, Repr

/-- groot/riofs/plugin/http/rcache.go:31-37 (`rcache`) and the calls. -/
structure St where
  sps : List Span
  store : List UInt8
  calls : List Call
deriving DecidableEq, Repr

/-- `WriteAt` of one byte of a file (package `os`): a gap is filled with zeros. -/
def put (f : List UInt8) (y : Nat) (b : UInt8) : List UInt8 :=
  if y < f.length then f.set y b else f ++ List.replicate (y - f.length) 0 ++ [b]

/-- `len` bytes from `off` on, fewer at the end of the file (`ReadAt`, package `os`). -/
def slice (f : List UInt8) (off len : Nat) : List UInt8 := (f.drop off).take len

/-- The goroutines of groot/riofs/plugin/http/rcache.go:62-88 (`ReadAt`): the parts of the buffer are
taken one after the other from `ii` on, wherever the spans lie. -/
def place (p : List UInt8) : Nat → List Span → List Fetch
  | _, [] => []
  | ii, spa :: oo => ⟨spa, slice p ii spa.len, .todo⟩ :: place p (ii + spa.len) oo

/-- The steps; `err` tells whether the remote reader reported an error. -/
inductive Act
  | start (t : Nat)
  | answer (t i : Nat) (bs : List UInt8) (err : Bool)
  | write (t i : Nat)
  /-- the local copy refuses to be written to -/
  | wfail (t i : Nat)
  | add (t i : Nat)
  | join (t : Nat)
  | read (t : Nat)

def FPh.over : FPh → Bool
  | .done => true
  | .failed => true
  | _ => false

def FPh.bad : FPh → Bool
  | .failed => true
  | _ => false

/-- The call number `t` comes to `ph`. -/
def St.goto (s : St) (t : Nat) (c : Call) (ph : CPh) : St := { s with calls := s.calls.set t { c with ph := ph } }

/-- Goroutine `i` of the call comes to `ph`. -/
def St.fgoto (s : St) (t : Nat) (c : Call) (l : List Fetch) (i : Nat) (f : Fetch) (ph : FPh) : St :=
  s.goto t c (.fetching (l.set i { f with ph := ph }))

/-- What the goroutine does next: groot/riofs/plugin/http/rcache.go:97-112 (`fetch`).  The number of
bytes `bs` the remote reader returned is not looked at: all of the buffer is written. -/
def fstep (s : St) (t : Nat) (c : Call) (l : List Fetch) (i : Nat) (f : Fetch) : Act → Option St
  | .answer _ _ bs err => match f.ph with
    | .todo =>
      if bs.length > f.sp.len then none
      else if err then some (s.fgoto t c l i f .failed)
      else some (s.fgoto t c l i f (.writing (bs ++ f.buf.drop bs.length) 0))
    | _ => none
  | .write _ _ => match f.ph with
    | .writing data k => match data[k]? with
      | some b => some ({ s with store := put s.store (f.sp.off + k) b }.fgoto t c l i f (.writing data (k + 1)))
      | none => some (s.fgoto t c l i f .adding)
    | _ => none
  | .wfail _ _ => match f.ph with
    | .writing _ _ => some (s.fgoto t c l i f .failed)
    | _ => none
  | .add _ _ => match f.ph with
    | .adding => some ({ s with sps := addSpan s.sps f.sp }.fgoto t c l i f .done)
    | _ => none
  | _ => none

/-- What a call does next: groot/riofs/plugin/http/rcache.go:62-88 (`ReadAt`),
groot/riofs/plugin/http/rcache.go:90-95 (`split`). -/
def cstep (s : St) (t : Nat) (c : Call) : Act → Option St
  | .start _ => match c.ph with
    | .idle =>
      let oo := split c.sp s.sps
      if oo.length = 0 then some (s.goto t c .reading) else some (s.goto t c (.fetching (place c.p 0 oo)))
    | _ => none
  | .join _ => match c.ph with
    | .fetching l =>
      if l.all (fun f => f.ph.over) then
        if l.any (fun f => f.ph.bad) then some (s.goto t c (.ret none)) else some (s.goto t c .reading)
      else none
    | _ => none
  | .read _ => match c.ph with
    | .reading => some (s.goto t c (.ret (some (slice s.store c.sp.off c.sp.len))))
    | _ => none
  | _ => none

def Act.thread : Act → Nat
  | .start t => t
  | .answer t _ _ _ => t
  | .write t _ => t
  | .wfail t _ => t
  | .add t _ => t
  | .join t => t
  | .read t => t

def Act.fetch? : Act → Option Nat
  | .answer _ i _ _ => some i
  | .write _ i => some i
  | .wfail _ i => some i
  | .add _ i => some i
  | _ => none

/-- One step, `none` if it is not possible. -/
def step (s : St) (a : Act) : Option St :=
  match s.calls[a.thread]? with
  | none => none
  | some c => match a.fetch? with
    | none => cstep s a.thread c a
    | some i => match c.ph with
      | .fetching l => match l[i]? with
        | some f => fstep s a.thread c l i f a
        | none => none
      | _ => none

/-- groot/riofs/plugin/http/rcache.go:39-46 (`rcacheOf`), and the calls to come: span and buffer. -/
def initSt (calls : List (Span × List UInt8)) : St := ⟨[], [], calls.map fun c => ⟨c.1, c.2, .idle⟩⟩

/-! ### Specification -/

/-- The remote file answers a goroutine with the bytes it asked for, or with an error. -/
def Honest (file : List UInt8) (s : St) (a : Act) : Prop :=
  ∀ t i bs, a = .answer t i bs false → ∀ (c : Call) l (f : Fetch), s.calls[t]? = some c → c.ph = .fetching l →
    l[i]? = some f → bs = slice file f.sp.off f.sp.len

/-- The states reached from the empty cache by any interleaving, `ok` telling which steps may happen. -/
inductive Run (file : List UInt8) (calls : List (Span × List UInt8)) (ok : Act → Prop) : St → Prop
  | init : Run file calls ok (initSt calls)
  | step {s t : St} {a : Act} : Run file calls ok s → Honest file s a → ok a → step s a = some t → Run file calls ok t

/-- The calls ask for bytes the file has, for as many as their buffers can hold. -/
def InRange (file : List UInt8) (calls : List (Span × List UInt8)) : Prop :=
  ∀ c ∈ calls, c.1.off + c.1.len ≤ file.length ∧ c.2.length = c.1.len

/-! ### Invariant -/

variable {file : List UInt8} {calls : List (Span × List UInt8)} {ok : Act → Prop} {s t : St}

theorem slice_get (f : List UInt8) (off len j : Nat) : (slice f off len)[j]? = if j < len then f[off + j]? else none := by
  simp only [slice, List.getElem?_take, List.getElem?_drop]

theorem slice_length (f : List UInt8) (off len : Nat) : (slice f off len).length = min len (f.length - off) := by
  simp [slice]

theorem put_self (f : List UInt8) (y : Nat) (b : UInt8) : (put f y b)[y]? = some b := by
  simp only [put]
  split
  · rename_i h
    simp [h]
  · rename_i h
    rw [List.getElem?_append_right (by simp; omega)]
    simp only [List.length_append, List.length_replicate]
    rw [show y - (f.length + (y - f.length)) = 0 by omega]
    rfl

theorem put_other (f : List UInt8) (y : Nat) (b c : UInt8) (x : Nat) (hx : x ≠ y) (h : f[x]? = some c) :
    (put f y b)[x]? = some c := by
  have hl : x < f.length := (List.getElem?_eq_some_iff.mp h).1
  simp only [put]
  split
  · rw [List.getElem?_set_ne (by omega)]
    exact h
  · rw [List.getElem?_append_left (by simp; omega), List.getElem?_append_left hl]
    exact h

/-- The local copy holds the byte of the file at `x`. -/
def Good (file store : List UInt8) (x : Nat) : Prop := ∃ b, file[x]? = some b ∧ store[x]? = some b

theorem Good.put {store : List UInt8} {x : Nat} (h : Good file store x) {y : Nat} {b : UInt8} (hb : file[y]? = some b) :
    Good file (put store y b) x := by
  obtain ⟨c, h1, h2⟩ := h
  by_cases e : x = y
  · subst e
    exact ⟨b, hb, put_self _ _ _⟩
  · exact ⟨c, h1, put_other _ _ _ _ _ e h2⟩

def PhOk (file : List UInt8) (sps : List Span) (store : List UInt8) (sp : Span) : FPh → Prop
  | .todo => True
  | .writing data k => data = slice file sp.off sp.len ∧ k ≤ sp.len ∧ ∀ j < k, Good file store (sp.off + j)
  | .adding => ∀ j < sp.len, Good file store (sp.off + j)
  | .done => ∀ x, sp.has x → Cov sps x
  | .failed => True

def CPhOk (file : List UInt8) (sps : List Span) (store : List UInt8) (sp : Span) : CPh → Prop
  | .idle => True
  | .fetching l => (∀ x, sp.has x → Cov sps x ∨ ∃ f ∈ l, f.sp.has x) ∧
      ∀ f ∈ l, f.sp.off + f.sp.len ≤ sp.off + sp.len ∧ f.buf.length ≤ f.sp.len ∧ PhOk file sps store f.sp f.ph
  | .reading => ∀ x, sp.has x → Cov sps x
  | .ret none => True
  | .ret (some bs) => bs = slice file sp.off sp.len ∧ ∀ x, sp.has x → Cov sps x

structure Inv (file : List UInt8) (s : St) : Prop where
  ord : Ordered s.sps
  cached : ∀ x, Cov s.sps x → Good file s.store x
  call : ∀ c ∈ s.calls, c.sp.off + c.sp.len ≤ file.length ∧ CPhOk file s.sps s.store c.sp c.ph

theorem PhOk.mono {sps sps' : List Span} {st st' : List UInt8} (h1 : ∀ x, Cov sps x → Cov sps' x)
    (h2 : ∀ x, Good file st x → Good file st' x) {sp : Span} {ph : FPh} (h : PhOk file sps st sp ph) :
    PhOk file sps' st' sp ph := by
  cases ph with
  | todo => trivial
  | writing data k => exact ⟨h.1, h.2.1, fun j hj => h2 _ (h.2.2 j hj)⟩
  | adding => exact fun j hj => h2 _ (h j hj)
  | done => exact fun x hx => h1 _ (h x hx)
  | failed => trivial

theorem CPhOk.mono {sps sps' : List Span} {st st' : List UInt8} (h1 : ∀ x, Cov sps x → Cov sps' x)
    (h2 : ∀ x, Good file st x → Good file st' x) {sp : Span} {ph : CPh} (h : CPhOk file sps st sp ph) :
    CPhOk file sps' st' sp ph := by
  cases ph with
  | idle => trivial
  | fetching l =>
    refine ⟨fun x hx => (h.1 x hx).imp (h1 x) id, fun f hf => ?_⟩
    exact ⟨(h.2 f hf).1, (h.2 f hf).2.1, (h.2 f hf).2.2.mono h1 h2⟩
  | reading => exact fun x hx => h1 _ (h x hx)
  | ret r =>
    cases r with
    | none => trivial
    | some bs => exact ⟨h.1, fun x hx => h1 _ (h.2 x hx)⟩

theorem mem_set'' {α : Type} {l : List α} {i : Nat} {b p : α} (h : p ∈ l.set i b) : p ∈ l ∨ p = b :=
  List.mem_or_eq_of_mem_set h

/-- A step of one call: the shared state grows, the call itself stays right. -/
theorem Inv.goto (h : Inv file s) {k : Nat} {c : Call} (hc : s.calls[k]? = some c) {sps' : List Span} {st' : List UInt8}
    {ph : CPh} (ho : Ordered sps') (h1 : ∀ x, Cov s.sps x → Cov sps' x) (h2 : ∀ x, Good file s.store x → Good file st' x)
    (h3 : ∀ x, Cov sps' x → Good file st' x) (h4 : CPhOk file sps' st' c.sp ph) :
    Inv file (St.goto { s with sps := sps', store := st' } k c ph) := by
  refine ⟨ho, h3, fun d hd => ?_⟩
  rcases mem_set'' hd with hd | rfl
  · exact ⟨(h.call d hd).1, (h.call d hd).2.mono h1 h2⟩
  · exact ⟨(h.call c (List.mem_of_getElem? hc)).1, h4⟩

theorem Inv.fgoto (h : Inv file s) {k : Nat} {c : Call} {l : List Fetch} {i : Nat} {f : Fetch}
    (hc : s.calls[k]? = some c) (hp : c.ph = .fetching l) (hf : l[i]? = some f) {sps' : List Span} {st' : List UInt8}
    {ph : FPh} (ho : Ordered sps') (h1 : ∀ x, Cov s.sps x → Cov sps' x) (h2 : ∀ x, Good file s.store x → Good file st' x)
    (h3 : ∀ x, Cov sps' x → Good file st' x) (h4 : PhOk file sps' st' f.sp ph) :
    Inv file (St.fgoto { s with sps := sps', store := st' } k c l i f ph) := by
  have hcp := (h.call c (List.mem_of_getElem? hc)).2
  rw [hp] at hcp
  have hm := CPhOk.mono h1 h2 hcp
  refine h.goto hc ho h1 h2 h3 ⟨fun x hx => ?_, fun g hg => ?_⟩
  · rcases hm.1 x hx with hx' | ⟨g, hg, hx'⟩
    · exact .inl hx'
    · right
      by_cases e : g = f
      · subst e
        exact ⟨{ g with ph := ph }, List.mem_of_getElem? (i := i) (by
          rw [List.getElem?_set_self (List.getElem?_eq_some_iff.mp hf).1]), hx'⟩
      · obtain ⟨j, hj⟩ := List.mem_iff_getElem?.mp hg
        refine ⟨g, List.mem_of_getElem? (i := j) ?_, hx'⟩
        rw [List.getElem?_set_ne, hj]
        rintro rfl
        rw [hf] at hj
        exact e (Option.some.inj hj).symm
  · rcases mem_set'' hg with hg | rfl
    · exact hm.2 g hg
    · have := hm.2 f (List.mem_of_getElem? hf)
      exact ⟨this.1, this.2.1, h4⟩

theorem place_mem (p : List UInt8) (ii : Nat) (oo : List Span) {f : Fetch} (h : f ∈ place p ii oo) :
    f.sp ∈ oo ∧ f.buf.length ≤ f.sp.len ∧ f.ph = .todo := by
  induction oo generalizing ii with
  | nil => cases h
  | cons a oo ih =>
    rcases List.mem_cons.mp h with rfl | h
    · refine ⟨List.mem_cons_self, ?_, rfl⟩
      simp only [slice_length]
      omega
    · exact ⟨List.mem_cons_of_mem _ (ih _ h).1, (ih _ h).2⟩

theorem place_has (p : List UInt8) (ii : Nat) (oo : List Span) {x : Nat} (h : Cov oo x) :
    ∃ f ∈ place p ii oo, f.sp.has x := by
  induction oo generalizing ii with
  | nil => simp at h
  | cons a oo ih =>
    rcases (cov_cons a oo x).mp h with h | h
    · exact ⟨_, List.mem_cons_self, h⟩
    · obtain ⟨f, hf, hx⟩ := ih (ii + a.len) h
      exact ⟨f, List.mem_cons_of_mem _ hf, hx⟩

theorem Inv.step (h : Inv file s) {a : Act} (hh : Honest file s a) (hst : step s a = some t) : Inv file t := by
  simp only [Remote.step] at hst
  split at hst
  · cases hst
  rename_i c hc
  have hcm := h.call c (List.mem_of_getElem? hc)
  split at hst
  · -- a step of the call itself
    cases a <;> simp only [Act.fetch?, reduceCtorEq] at * <;> simp only [cstep] at hst <;> split at hst <;>
      try cases hst
    · rename_i hph
      obtain ⟨sa, -, sc⟩ := split_spec s.sps h.ord c.sp
      split at hst
      · rename_i hz
        cases hst
        refine h.goto hc h.ord (fun _ h => h) (fun _ h => h) h.cached fun x hx => ?_
        have hz' : split c.sp s.sps = [] := List.eq_nil_of_length_eq_zero hz
        by_contra hn
        have := (sa x).mpr ⟨hx, hn⟩
        rw [hz'] at this
        simp at this
      · cases hst
        refine h.goto hc h.ord (fun _ h => h) (fun _ h => h) h.cached ⟨fun x hx => ?_, fun f hf => ?_⟩
        · by_cases hn : Cov s.sps x
          · exact .inl hn
          · exact .inr (place_has _ _ _ ((sa x).mpr ⟨hx, hn⟩))
        · obtain ⟨q1, q2, q3⟩ := place_mem _ _ _ hf
          refine ⟨(sc _ q1).2, q2, ?_⟩
          rw [q3]
          trivial
    · rename_i l hph
      rw [hph] at hcm
      split at hst
      · rename_i hall
        split at hst
        · cases hst
          exact h.goto hc h.ord (fun _ h => h) (fun _ h => h) h.cached trivial
        · rename_i hany
          cases hst
          refine h.goto hc h.ord (fun _ h => h) (fun _ h => h) h.cached fun x hx => ?_
          rcases hcm.2.1 x hx with hx' | ⟨f, hf, hx'⟩
          · exact hx'
          · have h1 : f.ph.over = true := List.all_eq_true.mp hall f hf
            have h2 : f.ph.bad ≠ true := fun hb => hany (List.any_eq_true.mpr ⟨f, hf, hb⟩)
            have h3 := (hcm.2.2 f hf).2.2
            cases hfp : f.ph <;> rw [hfp] at h1 h2 h3
            all_goals first
              | exact h3 x hx'
              | exact absurd rfl h2
              | cases h1
      · cases hst
    · rename_i hph
      rw [hph] at hcm
      refine h.goto hc h.ord (fun _ h => h) (fun _ h => h) h.cached ⟨?_, hcm.2⟩
      show slice s.store c.sp.off c.sp.len = slice file c.sp.off c.sp.len
      apply List.ext_getElem?
      intro j
      rw [slice_get, slice_get]
      split
      · rename_i hj
        obtain ⟨b, q1, q2⟩ := h.cached _ (hcm.2 (c.sp.off + j) ⟨by omega, by omega⟩)
        rw [q1, q2]
      · rfl
  · rename_i i hi
    split at hst
    · rename_i l hph
      split at hst
      · rename_i f hf
        have hcp := hcm.2
        rw [hph] at hcp
        have hfo := hcp.2 f (List.mem_of_getElem? hf)
        have hr := hcm.1
        cases a <;> simp only [Act.fetch?, reduceCtorEq] at * <;> cases hi <;> simp only [fstep] at hst <;>
          split at hst <;> try cases hst
        · rename_i k bs err _ hfp
          split at hst
          · cases hst
          split at hst
          · cases hst
            exact h.fgoto hc hph hf h.ord (fun _ h => h) (fun _ h => h) h.cached trivial
          · rename_i he
            cases hst
            have herr : err = false := by simpa using he
            subst herr
            have hb := hh _ _ _ rfl c l f hc hph hf
            refine h.fgoto hc hph hf h.ord (fun _ h => h) (fun _ h => h) h.cached ⟨?_, by omega, fun j hj => by omega⟩
            have hlen : bs.length = f.sp.len := by
              rw [hb, slice_length]
              omega
            rw [List.drop_eq_nil_of_le (by omega), List.append_nil, hb]
        · rename_i data k hfp
          rw [hfp] at hfo
          obtain ⟨d1, d2, d3⟩ := hfo.2.2
          split at hst
          · rename_i b hb
            cases hst
            have hk : k < f.sp.len := by
              rw [d1, slice_get] at hb
              by_contra hn
              rw [if_neg hn] at hb
              cases hb
            have hfb : file[f.sp.off + k]? = some b := by
              rw [d1, slice_get, if_pos hk] at hb
              exact hb
            refine h.fgoto hc hph hf h.ord (fun _ h => h) (fun _ hg => hg.put hfb) (fun x hx => (h.cached x hx).put hfb)
              ⟨d1, hk, fun j hj => ?_⟩
            by_cases e : j = k
            · subst e
              exact ⟨b, hfb, put_self _ _ _⟩
            · exact (d3 j (by omega)).put hfb
          · rename_i hb
            cases hst
            refine h.fgoto hc hph hf h.ord (fun _ h => h) (fun _ h => h) h.cached fun j hj => d3 j ?_
            have : data.length ≤ k := List.getElem?_eq_none_iff.mp hb
            rw [d1, slice_length] at this
            omega
        · exact h.fgoto hc hph hf h.ord (fun _ h => h) (fun _ h => h) h.cached trivial
        · rename_i hfp
          rw [hfp] at hfo
          obtain ⟨q1, q2⟩ := addSpan_spec s.sps f.sp
          refine h.fgoto hc hph hf q2 (fun x hx => (q1 x).mpr (.inl hx)) (fun _ h => h) (fun x hx => ?_)
            fun x hx => (q1 x).mpr (.inr hx)
          rcases (q1 x).mp hx with hx | hx
          · exact h.cached x hx
          · have := hfo.2.2 (x - f.sp.off) (by have := hx.1; have := hx.2; omega)
            rwa [show f.sp.off + (x - f.sp.off) = x by have := hx.1; omega] at this
      · cases hst
    · cases hst

theorem Inv.init (h : InRange file calls) : Inv file (initSt calls) := by
  refine ⟨List.Pairwise.nil, fun x hx => by simp [initSt] at hx, fun c hc => ?_⟩
  simp only [initSt, List.mem_map] at hc
  obtain ⟨d, hd, rfl⟩ := hc
  exact ⟨(h d hd).1, trivial⟩

theorem Run.inv (hr : InRange file calls) (h : Run file calls ok s) : Inv file s := by
  induction h with
  | init => exact Inv.init hr
  | step _ hh _ hst ih => exact ih.step hh hst

/-! ### Properties -/

theorem step_calls {a : Act} (h : step s a = some t) :
    t.calls.map (fun c => (c.sp, c.p)) = s.calls.map (fun c => (c.sp, c.p)) := by
  have key : ∀ (k : Nat) (c : Call) (ph : CPh), s.calls[k]? = some c →
      (s.calls.set k { c with ph := ph }).map (fun c => (c.sp, c.p)) = s.calls.map (fun c => (c.sp, c.p)) := by
    intro k c ph hc
    apply List.ext_getElem?
    intro j
    rw [List.getElem?_map, List.getElem?_map]
    by_cases e : k = j
    · subst e
      rw [List.getElem?_set_self (List.getElem?_eq_some_iff.mp hc).1, hc]
      rfl
    · rw [List.getElem?_set_ne e]
  simp only [Remote.step] at h
  split at h
  · cases h
  rename_i c hc
  split at h
  · cases a <;> simp only [cstep] at h <;> (repeat' split at h) <;> cases h
    all_goals exact key _ _ _ hc
  · split at h
    · split at h
      · cases a <;> simp only [fstep] at h <;> (repeat' split at h) <;> cases h
        all_goals exact key _ _ _ hc
      · cases h
    · cases h

theorem Run.calls_eq (h : Run file calls ok s) : s.calls.map (fun c => (c.sp, c.p)) = calls := by
  induction h with
  | init => simp [initSt, Function.comp_def]
  | step _ _ _ hst ih => rw [step_calls hst, ih]

/-- C110: whatever the calls running at the same time, their interleaving and the requests that fail, a
call of `ReadAt` inside the file that returns without an error has read the bytes of the file, all of
them. -/
theorem C110_cached_read (hr : InRange file calls) (h : Run file calls ok s) {k off len : Nat} {p bs : List UInt8}
    (hk : calls[k]? = some (⟨off, len⟩, p)) {c : Call} (hc : s.calls[k]? = some c) (hret : c.ph = .ret (some bs)) :
    bs.length = len ∧ ∀ j < len, bs[j]? = file[off + j]? := by
  have h1 := (h.inv hr).call c (List.mem_of_getElem? hc)
  rw [hret] at h1
  have h2 := h.calls_eq
  have h3 : (s.calls.map fun c => (c.sp, c.p))[k]? = some (c.sp, c.p) := by rw [List.getElem?_map, hc]; rfl
  rw [h2, hk] at h3
  have h4 : c.sp = ⟨off, len⟩ := (congrArg Prod.fst (Option.some.inj h3)).symm
  rw [h4] at h1
  obtain ⟨h5, h6, -⟩ := h1
  simp only at h5 h6
  refine ⟨by rw [h6, slice_length]; omega, fun j hj => ?_⟩
  rw [h6, slice_get, if_pos hj]

/-- C110: the bytes a call has returned are not asked for again by the calls that start later, and no
call asks for a byte twice. -/
theorem C110_once (hr : InRange file calls) (h : Run file calls ok s) {k : Nat} {c : Call} {bs : List UInt8}
    (hc : s.calls[k]? = some c) (hret : c.ph = .ret (some bs)) {j : Nat} (hst : step s (.start j) = some t)
    {d : Call} {l : List Fetch} (hd : t.calls[j]? = some d) (hl : d.ph = .fetching l) :
    (∀ f ∈ l, ∀ x, f.sp.has x → d.sp.has x ∧ ¬ c.sp.has x) ∧
    l.Pairwise fun f g => ∀ x, ¬ (f.sp.has x ∧ g.sp.has x) := by
  have hi := h.inv hr
  have h1 := (hi.call c (List.mem_of_getElem? hc)).2
  rw [hret] at h1
  simp only [Remote.step, Act.thread, Act.fetch?, cstep] at hst
  split at hst
  · cases hst
  rename_i e he
  have hlt := (List.getElem?_eq_some_iff.mp he).1
  obtain ⟨sa, sb, sc⟩ := split_spec s.sps hi.ord e.sp
  split at hst
  · split at hst
    · cases hst
      rw [St.goto, List.getElem?_set_self hlt] at hd
      cases hd
      cases hl
    · cases hst
      rw [St.goto, List.getElem?_set_self hlt] at hd
      cases hd
      cases hl
      constructor
      · intro f hf x hx
        have hm := (place_mem _ _ _ hf).1
        have := (sa x).mp ⟨f.sp, hm, hx⟩
        exact ⟨this.1, fun hcx => this.2 (h1.2 x hcx)⟩
      · generalize split e.sp s.sps = oo at sb
        clear sa sc
        generalize 0 = ii
        induction oo generalizing ii with
        | nil => exact List.Pairwise.nil
        | cons a oo ih =>
          have hp := List.pairwise_cons.mp sb
          refine List.pairwise_cons.mpr ⟨fun g hg x hx => ?_, ih hp.2 _⟩
          have := hp.1 _ (place_mem _ _ _ hg).1
          simp only [Span.has] at hx
          omega
  · cases hst

/-- Neither the remote file nor the local copy fails. -/
def Act.fine : Act → Prop
  | .answer _ _ _ err => err = false
  | .wfail _ _ => False
  | _ => True

/-- No goroutine has failed. -/
def NoFail : CPh → Prop
  | .fetching l => ∀ f ∈ l, f.ph ≠ .failed
  | .ret r => r ≠ none
  | _ => True

/-- C110: without failures no call returns an error. -/
theorem C110_no_error (h : Run file calls Act.fine s) {c : Call} (hc : c ∈ s.calls) : c.ph ≠ .ret none := by
  suffices hs : ∀ c ∈ s.calls, NoFail c.ph by
    intro hn
    have := hs c hc
    rw [hn] at this
    exact this rfl
  clear hc
  induction h with
  | init =>
    intro c hc
    simp only [initSt, List.mem_map] at hc
    obtain ⟨d, -, rfl⟩ := hc
    trivial
  | @step s t a _ _ hok hst ih =>
    have key : ∀ (k : Nat) (c : Call) (ph : CPh), NoFail ph → ∀ d ∈ s.calls.set k { c with ph := ph }, NoFail d.ph := by
      intro k c ph hp d hd
      rcases mem_set'' hd with hd | rfl
      · exact ih d hd
      · exact hp
    simp only [Remote.step] at hst
    split at hst
    · cases hst
    rename_i c hc
    have hcm := ih c (List.mem_of_getElem? hc)
    split at hst
    · cases a <;> simp only [cstep, reduceCtorEq] at hst <;> split at hst <;> try cases hst
      · split at hst
        · cases hst
          exact key _ _ _ trivial
        · cases hst
          refine key _ _ _ fun f hf => ?_
          rw [(place_mem _ _ _ hf).2.2]
          simp
      · rename_i l hl
        rw [hl] at hcm
        split at hst
        · split at hst
          · rename_i hany
            obtain ⟨f, hf, hb⟩ := List.any_eq_true.mp hany
            have := hcm f hf
            exfalso
            cases hfp : f.ph <;> rw [hfp] at hb this <;> first | exact this rfl | cases hb
          · cases hst
            exact key _ _ _ trivial
        · cases hst
      · exact key _ _ _ (by simp [NoFail])
    · rename_i i hi
      split at hst
      · rename_i l hl
        rw [hl] at hcm
        have key2 : ∀ (k i : Nat) (f : Fetch) (ph : FPh), ph ≠ .failed →
            ∀ d ∈ s.calls.set k { c with ph := CPh.fetching (l.set i { f with ph := ph }) }, NoFail d.ph := by
          intro k i f ph hp
          refine key _ _ _ fun g hg => ?_
          rcases mem_set'' hg with hg | rfl
          · exact hcm g hg
          · exact hp
        split at hst
        · cases a <;> simp only [fstep, reduceCtorEq] at hst <;> split at hst <;> try cases hst
          · split at hst
            · cases hst
            split at hst
            · rename_i he
              simp only [Act.fine] at hok
              rw [hok] at he
              cases he
            · cases hst
              exact key2 _ _ _ _ (by simp)
          · split at hst
            · cases hst
              exact key2 _ _ _ _ (by simp)
            · cases hst
              exact key2 _ _ _ _ (by simp)
          · exact hok.elim
          · exact key2 _ _ _ _ (by simp)
        · cases hst
      · cases hst

/-- C110: as long as a call has not returned, there is a step it can take whatever the others do,
with an answer of the remote file if it waits for one. -/
theorem C110_progress (hr : InRange file calls) (h : Run file calls ok s) {k : Nat} {c : Call} (hc : s.calls[k]? = some c)
    (hn : ∀ r, c.ph ≠ .ret r) : ∃ a, a.thread = k ∧ Honest file s a ∧ a.fine ∧ (step s a).isSome = true := by
  have hi := (h.inv hr).call c (List.mem_of_getElem? hc)
  cases hp : c.ph with
  | idle =>
    refine ⟨.start k, rfl, (by intro _ _ _ h; cases h), trivial, ?_⟩
    simp only [Remote.step, Act.thread, Act.fetch?, hc, cstep, hp]
    split <;> rfl
  | reading =>
    refine ⟨.read k, rfl, (by intro _ _ _ h; cases h), trivial, ?_⟩
    · simp only [Remote.step, Act.thread, Act.fetch?, hc, cstep, hp]
      rfl
  | ret r => exact absurd hp (hn r)
  | fetching l =>
    rw [hp] at hi
    by_cases hall : l.all (fun f => f.ph.over) = true
    · refine ⟨.join k, rfl, (by intro _ _ _ h; cases h), trivial, ?_⟩
      simp only [Remote.step, Act.thread, Act.fetch?, hc, cstep, hp, hall, if_true]
      split <;> rfl
    · have : ∃ f ∈ l, f.ph.over ≠ true := by
        by_contra hno
        push Not at hno
        exact hall (List.all_eq_true.mpr hno)
      obtain ⟨f, hf, ho⟩ := this
      obtain ⟨i, hfi⟩ := List.mem_iff_getElem?.mp hf
      cases hfp : f.ph with
      | todo =>
        refine ⟨.answer k i (slice file f.sp.off f.sp.len) false, rfl, ?rfl, ?_⟩
        rotate_left
        · simp only [Remote.step, Act.thread, Act.fetch?, hc, hp, hfi, fstep, hfp]
          rw [if_neg (by rw [slice_length]; omega)]
          simp only [Bool.false_eq_true, if_false]
          exact ⟨rfl, rfl⟩
        · rintro t' i' bs h' c' l' f' h1 h2 h3
          cases h'
          rw [hc] at h1
          cases h1
          rw [hp] at h2
          cases h2
          rw [hfi] at h3
          cases h3
          rfl
      | writing data m =>
        cases hd : data[m]? with
        | none =>
          refine ⟨.write k i, rfl, (by intro _ _ _ h; cases h), trivial, ?_⟩
          simp only [Remote.step, Act.thread, Act.fetch?, hc, hp, hfi, fstep, hfp, hd]
          rfl
        | some b =>
          refine ⟨.write k i, rfl, (by intro _ _ _ h; cases h), trivial, ?_⟩
          simp only [Remote.step, Act.thread, Act.fetch?, hc, hp, hfi, fstep, hfp, hd]
          rfl
      | adding =>
        refine ⟨.add k i, rfl, (by intro _ _ _ h; cases h), trivial, ?_⟩
        simp only [Remote.step, Act.thread, Act.fetch?, hc, hp, hfi, fstep, hfp]
        rfl
      | done => rw [hfp] at ho; exact absurd rfl ho
      | failed => rw [hfp] at ho; exact absurd rfl ho

/-! ### What goes wrong -/

def exec (s : St) : List Act → Option St
  | [] => some s
  | a :: l => match step s a with
    | some t => exec t l
    | none => none

/-- C110: when the remote reader returns fewer bytes than asked for without an error, as it does when
the connection is lost or the file ends, the bytes the buffer held before are taken for bytes of the
file and kept: all later calls get them as well. -/
theorem C110_short_counterexample :
    ∃ (file : List UInt8) (acts : List Act) (s : St), file = [1, 2, 3] ∧
      exec (initSt [(⟨0, 3⟩, [9, 9, 9]), (⟨1, 2⟩, [0, 0])]) acts = some s ∧
      (∀ t i bs err, Act.answer t i bs err ∈ acts → bs <+: slice file 0 3) ∧
      s.calls.map (·.ph) = [.ret (some [1, 9, 9]), .ret (some [9, 9])] := by
  refine ⟨[1, 2, 3], [.start 0, .answer 0 0 [1] false, .write 0 0, .write 0 0, .write 0 0, .write 0 0, .add 0 0, .join 0,
    .read 0, .start 1, .read 1], ⟨[⟨0, 3⟩], [1, 9, 9],
      [⟨⟨0, 3⟩, [9, 9, 9], .ret (some [1, 9, 9])⟩, ⟨⟨1, 2⟩, [0, 0], .ret (some [9, 9])⟩]⟩, rfl, by decide +kernel, ?_, rfl⟩
  intro t i bs err h
  simp only [List.mem_cons, reduceCtorEq, false_or, or_false, List.not_mem_nil] at h
  cases h
  exact ⟨[2, 3], rfl⟩

/-! ### Examples -/

def file0 : List UInt8 := [10, 11, 12, 13, 14]
def calls0 : List (Span × List UInt8) := [(⟨1, 2⟩, [0, 0]), (⟨0, 4⟩, [7, 7, 7, 7])]
/-- The second call starts before the first is done, and fetches everything. -/
def acts0 : List Act := [.start 0, .answer 0 0 [11, 12] false, .start 1, .write 0 0, .answer 1 0 [10, 11, 12, 13] false,
  .write 1 0, .write 1 0, .write 0 0, .write 1 0, .write 0 0, .add 0 0, .join 0, .write 1 0, .read 0, .write 1 0, .add 1 0,
  .join 1, .read 1]
def st0 : St := ⟨[⟨0, 4⟩], [10, 11, 12, 13], [⟨⟨1, 2⟩, [0, 0], .ret (some [11, 12])⟩,
  ⟨⟨0, 4⟩, [7, 7, 7, 7], .ret (some [10, 11, 12, 13])⟩]⟩


/-- The answers a state may get are checked by computation. -/
def honestB (file : List UInt8) (s : St) : Act → Bool
  | .answer t i bs false => match s.calls[t]? with
    | some c => match c.ph with
      | .fetching l => match l[i]? with
        | some f => decide (bs = slice file f.sp.off f.sp.len)
        | none => true
      | _ => true
    | none => true
  | _ => true

theorem honest_of {a : Act} (h : honestB file s a = true) : Honest file s a := by
  rintro t i bs rfl c l f h1 h2 h3
  simp only [honestB, h1, h2, h3, decide_eq_true_eq] at h
  exact h

def execH (file : List UInt8) (s : St) : List Act → Option St
  | [] => some s
  | a :: l => if honestB file s a then match step s a with
      | some t => execH file t l
      | none => none
    else none

theorem run_of (acts : List Act) (h0 : Run file calls (fun _ => True) s) (h : execH file s acts = some t) :
    Run file calls (fun _ => True) t := by
  induction acts generalizing s with
  | nil => cases h; exact h0
  | cons a l ih =>
    simp only [execH] at h
    split at h
    · rename_i hb
      split at h
      · rename_i u hu
        exact ih (h0.step (honest_of hb) trivial hu) h
      · cases h
    · cases h

theorem st0_run : Run file0 calls0 (fun _ => True) st0 := run_of acts0 .init (by decide +kernel)
theorem calls0_range : InRange file0 calls0 := by unfold InRange; decide +kernel

example : ([10, 11, 12, 13] : List UInt8).length = 4 ∧ ∀ j < 4, ([10, 11, 12, 13] : List UInt8)[j]? = file0[0 + j]? :=
  C110_cached_read (off := 0) (len := 4) (p := [7, 7, 7, 7]) (c := ⟨⟨0, 4⟩, [7, 7, 7, 7], .ret (some [10, 11, 12, 13])⟩)
    calls0_range st0_run (k := 1) rfl rfl rfl

/-- The first call has returned, the second has not started. -/
def st1 : St := ⟨[⟨1, 2⟩], [0, 11, 12], [⟨⟨1, 2⟩, [0, 0], .ret (some [11, 12])⟩, ⟨⟨0, 4⟩, [7, 7, 7, 7], .idle⟩]⟩
def st2 : St := ⟨[⟨1, 2⟩], [0, 11, 12], [⟨⟨1, 2⟩, [0, 0], .ret (some [11, 12])⟩,
  ⟨⟨0, 4⟩, [7, 7, 7, 7], .fetching [⟨⟨0, 1⟩, [7], .todo⟩, ⟨⟨3, 1⟩, [7], .todo⟩]⟩]⟩

theorem st1_run : Run file0 calls0 (fun _ => True) st1 :=
  run_of [.start 0, .answer 0 0 [11, 12] false, .write 0 0, .write 0 0, .write 0 0, .add 0 0, .join 0, .read 0] .init
    (by decide +kernel)

example : ∀ f ∈ [(⟨⟨0, 1⟩, [7], .todo⟩ : Fetch), ⟨⟨3, 1⟩, [7], .todo⟩], ∀ x, f.sp.has x →
    Span.has ⟨0, 4⟩ x ∧ ¬ Span.has ⟨1, 2⟩ x :=
  (C110_once calls0_range st1_run (k := 0) (j := 1) (t := st2) (c := ⟨⟨1, 2⟩, [0, 0], .ret (some [11, 12])⟩) rfl rfl
    (by decide +kernel)
    (d := ⟨⟨0, 4⟩, [7, 7, 7, 7], .fetching [⟨⟨0, 1⟩, [7], .todo⟩, ⟨⟨3, 1⟩, [7], .todo⟩]⟩) rfl rfl).1
example : ∃ a, a.thread = 1 ∧ Honest file0 st1 a ∧ a.fine ∧ (step st1 a).isSome = true :=
  C110_progress calls0_range st1_run (c := ⟨⟨0, 4⟩, [7, 7, 7, 7], .idle⟩) rfl (by intro r h; cases h)
example {s : St} (h : Run file0 calls0 Act.fine s) {c : Call} (hc : c ∈ s.calls) : c.ph ≠ .ret none := C110_no_error h hc
example : Run file0 calls0 Act.fine (initSt calls0) := .init

end Verif.Remote
