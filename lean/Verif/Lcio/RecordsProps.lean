import Verif.Lcio.Records

/-!
# What a collection of `lcio` is after it was written and read

Specification (`keep`): what the flags of a collection say is not stored is zero; all else is
as it was.  The theorems say that every collection is read as that, pointers being the identifiers
of their objects.
-/

namespace Verif.Lcio

/-! ## Specification -/

/-- `x`, if it is stored. -/
def stored {α : Type} [Inhabited α] (c : Bool) (x : α) : α := if c then x else default

/-- Entries in the order of keys, no key twice: how this model gives a map. -/
def Sorted {V : Type} (m : List (Str × V)) : Prop := m.Pairwise fun a b => ltStr a.1 b.1 = true

/-- The number of elements fits in an `int32`. -/
def Fits {α : Type} (l : List α) : Prop := l.length < 2 ^ 31

structure MapOk {V : Type} [Bin V] (m : List (Str × V)) : Prop where
  sorted : Sorted m
  small : Bin.Small m

structure Params.Ok (p : Params) : Prop where
  ints : MapOk p.ints
  floats : MapOk p.floats
  strings : MapOk p.strings

/-- A `range` over a map goes over its entries, in some order. -/
def Env.Ok (E : Env) : Prop := ∀ {V : Type} (m : List (Str × V)), (E.ord m).Perm m

structure Cont.Ok {X : Type} (c : Cont X) (elem : X → Prop) : Prop where
  params : c.params.Ok
  fits : Fits c.elems
  elems : ∀ x ∈ c.elems, elem x

def CaloHit.keep {P : Type} (flags : W32) (h : CaloHit P) : CaloHit P :=
  { h with
    id1 := stored (test flags (bit 29)) h.id1
    energyErr := stored (test flags (bit 26)) h.energyErr
    time := stored (test flags (bit 27)) h.time
    pos := stored (test flags (bit 31)) h.pos }

def Contrib.keep {P : Type} (flags : W32) (c : Contrib P) : Contrib P :=
  { c with
    pdg := stored (test flags (bit 28)) c.pdg
    stepPos := stored (test flags (bit 28)) c.stepPos }

def SimCaloHit.keep {P : Type} (flags : W32) (h : SimCaloHit P) : SimCaloHit P :=
  { h with
    id1 := stored (test flags (bit 29)) h.id1
    pos := stored (test flags (bit 31)) h.pos
    contribs := h.contribs.map (Contrib.keep flags) }

def RawCaloHit.keep (flags : W32) (h : RawCaloHit) : RawCaloHit :=
  { h with
    id1 := stored (test flags (bit 29)) h.id1
    timeStamp := stored (test flags (bit 27)) h.timeStamp }

def Cluster.keep {P : Type} (flags : W32) (c : Cluster P) : Cluster P :=
  { c with
    hits := stored (test flags (bit 31)) c.hits
    weights := stored (test flags (bit 31)) (c.weights.take c.hits.length) }

/-- Some numbers are stored with 32 bits only; children are not stored. -/
def McPart.keep {P : Type} (E : Env) (m : McPart P) : McPart P :=
  { m with
    children := []
    p := m.p.map fun x => E.to64 (E.to32 x)
    mass := E.to64 (E.to32 m.mass)
    endPoint := stored (test m.simStatus (bit 31)) m.endPoint
    pEndPoint := stored (test m.simStatus (bit 31)) (m.pEndPoint.map fun x => E.to64 (E.to32 x)) }

def Track.keep {P : Type} (flags : W32) (t : Track P) : Track P :=
  { t with hits := stored (test flags (bit 31)) t.hits }

def SimTrkHit.keep {P : Type} (flags : W32) (h : SimTrkHit P) : SimTrkHit P :=
  { h with
    id1 := stored (test flags (bit 29)) h.id1
    momentum := stored (test flags (bit 30)) h.momentum
    pathLength := stored (test flags (bit 30)) h.pathLength }

def TrkData.keep (flags : W32) (d : TrkData) : TrkData :=
  { d with id1 := stored (test flags (bit 31)) d.id1 }

def TrkHit.keep {P : Type} (E : Env) (flags : W32) (h : TrkHit P) : TrkHit P :=
  { h with
    id1 := stored (test flags (bit 29)) h.id1
    cov := h.cov.map fun x => E.to64 (E.to32 x) }

def TrkHitPlane.keep {P : Type} (flags : W32) (h : TrkHitPlane P) : TrkHitPlane P :=
  { h with id1 := stored (test flags (bit 29)) h.id1 }

def TrkHitZCyl.keep {P : Type} (flags : W32) (h : TrkHitZCyl P) : TrkHitZCyl P :=
  { h with id1 := stored (test flags (bit 29)) h.id1 }

def TrkPulse.keep {P : Type} (flags : W32) (h : TrkPulse P) : TrkPulse P :=
  { h with
    id1 := stored (test flags (bit 31)) h.id1
    cov := stored (test flags (bit 30)) h.cov }

def TrkRaw.keep (flags : W32) (d : TrkRaw) : TrkRaw :=
  { d with id1 := stored (test flags (bit 31)) d.id1 }

def Relation.keep {P : Type} (flags : W32) (r : Relation P) : Relation P :=
  { r with weight := stored (test flags (bit 31)) r.weight }

structure PID.Ok (p : PID) : Prop where
  params : Fits p.params

structure SimCaloHit.Ok {P : Type} (h : SimCaloHit P) : Prop where
  contribs : Fits h.contribs

/-- All lengths fit, and every hit has a weight if hits are stored. -/
structure Cluster.Ok {P : Type} (flags : W32) (c : Cluster P) : Prop where
  shape : Fits c.shape
  pids : Fits c.pids
  pid : ∀ p ∈ c.pids, p.Ok
  clusters : Fits c.clusters
  hits : Fits c.hits
  weights : test flags (bit 31) = true → c.hits.length ≤ c.weights.length
  subDetEnes : Fits c.subDetEnes

structure McPart.Ok {P : Type} (m : McPart P) : Prop where
  parents : Fits m.parents

structure Track.Ok {P : Type} (t : Track P) : Prop where
  states : Fits t.states
  subDetHits : Fits t.subDetHits
  tracks : Fits t.tracks
  hits : Fits t.hits

structure RecPart.Ok {P : Type} (r : RecPart P) : Prop where
  pids : Fits r.pids
  pid : ∀ p ∈ r.pids, p.Ok
  recs : Fits r.recs
  tracks : Fits r.tracks
  clusters : Fits r.clusters

structure Vertex.Ok {P : Type} (v : Vertex P) : Prop where
  params : Fits v.params

structure TrkData.Ok (d : TrkData) : Prop where
  charges : Fits d.charges

structure TrkHit.Ok {P : Type} (h : TrkHit P) : Prop where
  rawHits : Fits h.rawHits

structure TrkHitPlane.Ok {P : Type} (h : TrkHitPlane P) : Prop where
  rawHits : Fits h.rawHits

structure TrkHitZCyl.Ok {P : Type} (h : TrkHitZCyl P) : Prop where
  rawHits : Fits h.rawHits

structure TrkRaw.Ok (d : TrkRaw) : Prop where
  adcs : Fits d.adcs

/-- The numbers of values fit, and are the same for all objects (`d` is the first) if the collection is said to be
of fixed size. -/
structure Generic.Ok (flags : W32) (d g : Generic) : Prop where
  i32s : Fits g.i32s
  f32s : Fits g.f32s
  f64s : Fits g.f64s
  fixed : test flags (bit 31) = true →
    g.i32s.length = d.i32s.length ∧ g.f32s.length = d.f32s.length ∧ g.f64s.length = d.f64s.length

/-! ## Parameters -/

theorem ltStr_irrefl (s : Str) : ltStr s s = false := by
  induction s with
  | nil => rfl
  | cons a s ih => simp [ltStr, ih]

theorem ltStr_trans {a b c : Str} (h1 : ltStr a b = true) (h2 : ltStr b c = true) : ltStr a c = true := by
  induction a generalizing b c with
  | nil =>
    cases c with
    | nil => cases b <;> simp [ltStr] at h2
    | cons z c => rfl
  | cons x a ih =>
    cases b with
    | nil => simp [ltStr] at h1
    | cons y b =>
      cases c with
      | nil => simp [ltStr] at h2
      | cons z c =>
        simp only [ltStr] at h1 h2 ⊢
        split at h1
        · split at h2
          · rw [if_pos (by omega)]
          · split at h2
            · cases h2
            · rw [if_pos (by omega)]
        · split at h1
          · cases h1
          · split at h2
            · rw [if_pos (by omega)]
            · split at h2
              · cases h2
              · rw [if_neg (by omega), if_neg (by omega)]
                exact ih h1 h2

theorem ltStr_total {a b : Str} (h1 : ltStr a b = false) (h2 : ltStr b a = false) : a = b := by
  induction a generalizing b with
  | nil =>
    cases b with
    | nil => rfl
    | cons y b => simp [ltStr] at h1
  | cons x a ih =>
    cases b with
    | nil => simp [ltStr] at h2
    | cons y b =>
      simp only [ltStr] at h1 h2
      split at h1
      · cases h1
      · split at h1
        · next hh => rw [if_pos hh] at h2; cases h2
        · next g1 g2 =>
          rw [if_neg g2, if_neg g1] at h2
          rw [ih h1 h2, UInt8.toNat_inj.1 (by omega : x.toNat = y.toNat)]

theorem insKey_perm {V : Type} (e : Str × V) (l : List (Str × V)) : (insKey e l).Perm (e :: l) := by
  induction l with
  | nil => exact .refl _
  | cons x l ih =>
    rw [insKey]
    split
    · exact (ih.cons x).trans (.swap e x l)
    · exact .refl _

theorem sortKeys_perm {V : Type} (l : List (Str × V)) : (sortKeys l).Perm l := by
  induction l with
  | nil => exact .refl _
  | cons e l ih => rw [sortKeys]; exact (insKey_perm e _).trans (ih.cons e)

/-- `a` is not after `b`. -/
def leKey {V : Type} (a b : Str × V) : Prop := ltStr b.1 a.1 = false

theorem leKey_trans {V : Type} {a b c : Str × V} (h1 : leKey a b) (h2 : leKey b c) : leKey a c := by
  unfold leKey at *
  cases h : ltStr c.1 a.1 with
  | false => rfl
  | true =>
    cases h3 : ltStr b.1 c.1 with
    | true => rw [ltStr_trans h3 h] at h1; cases h1
    | false => rw [← ltStr_total h3 h2] at h; rw [h] at h1; cases h1

theorem insKey_sorted {V : Type} (e : Str × V) (l : List (Str × V)) (h : l.Pairwise leKey) : (insKey e l).Pairwise leKey := by
  induction l with
  | nil => exact List.pairwise_singleton ..
  | cons x l ih =>
    rw [insKey]
    rw [List.pairwise_cons] at h
    split
    · next hx =>
      rw [List.pairwise_cons]
      refine ⟨?_, ih h.2⟩
      intro y hy
      rcases List.mem_cons.1 ((insKey_perm e l).mem_iff.1 hy) with rfl | hy
      · unfold leKey
        cases g : ltStr y.1 x.1 with
        | false => rfl
        | true => have := ltStr_trans hx g; rw [ltStr_irrefl] at this; cases this
      · exact h.1 y hy
    · next hx =>
      have hx' : leKey e x := by unfold leKey; simpa using hx
      rw [List.pairwise_cons]
      refine ⟨?_, List.pairwise_cons.2 h⟩
      intro y hy
      rcases List.mem_cons.1 hy with rfl | hy
      · exact hx'
      · exact leKey_trans hx' (h.1 y hy)

theorem sortKeys_sorted {V : Type} (l : List (Str × V)) : (sortKeys l).Pairwise leKey := by
  induction l with
  | nil => exact .nil
  | cons e l ih => rw [sortKeys]; exact insKey_sorted e _ ih

theorem sorted_unique {V : Type} {l m : List (Str × V)} (hm : Sorted m) (hl : l.Pairwise leKey) (hp : l.Perm m) : l = m := by
  induction l generalizing m with
  | nil => exact (List.Perm.nil_eq hp)
  | cons x l ih =>
    cases m with
    | nil => exact absurd hp.length_eq (by simp)
    | cons y m =>
      rw [List.pairwise_cons] at hl
      unfold Sorted at hm
      rw [List.pairwise_cons] at hm
      have hxy : x = y := by
        rcases List.mem_cons.1 (hp.mem_iff.1 (List.mem_cons_self ..)) with h | h
        · exact h
        · have h1 := hm.1 x h
          rcases List.mem_cons.1 (hp.mem_iff.2 (List.mem_cons_self ..)) with h' | h'
          · exact h'.symm
          · have h2 : ltStr y.1 x.1 = false := hl.1 y h'
            rw [h1] at h2; cases h2
      subst hxy
      rw [ih hm.2 hl.2 hp.cons_inv]

/-- The parameters are written in the order of their keys, whatever the order of the `range`. -/
theorem sortKeys_ord {V : Type} {E : Env} (hE : E.Ok) {m : List (Str × V)} (h : Sorted m) : sortKeys (E.ord m) = m :=
  sorted_unique h (sortKeys_sorted _) ((sortKeys_perm _).trans (hE m))

theorem foldl_setEntry {V : Type} (acc m : List (Str × V)) (h : Sorted (acc ++ m)) : m.foldl setEntry acc = acc ++ m := by
  induction m generalizing acc with
  | nil => simp
  | cons e m ih =>
    rw [List.foldl_cons]
    have : setEntry acc e = acc ++ [e] := by
      unfold setEntry
      rw [if_neg]
      rw [List.any_eq_true]
      rintro ⟨x, hx, hk⟩
      unfold Sorted at h
      rw [List.pairwise_append] at h
      have h1 := h.2.2 x hx e (List.mem_cons_self ..)
      rw [of_decide_eq_true hk, ltStr_irrefl] at h1; cases h1
    rw [this, ih _ (by simpa using h)]
    simp

section
variable {id : Ref → Nat} {α β : Type}

/-- Calls with the same effect. -/
theorem Reads.congr {p : Rd α} {w w' : Ws} {v : α} (h : Reads id p w v) (hb : bytes id w' = bytes id w) (ht : tagged w' = tagged w) :
    Reads id p w' v := by
  unfold Reads at *
  rw [hb, ht]; exact h

theorem Reads.always {c : Bool} {p : Rd α} {d v : α} {w : Ws} (hc : c = true) (h : Reads id p w v) : Reads id (readIf c p d) w v := by
  subst hc; exact h

theorem Reads.lens {c : Bool} {n d : Nat} (hc : c = true) (h : n < 2 ^ 31) : Reads id (readIf c decLen d) (encLen n) n :=
  Reads.always hc (Reads.len n h)

theorem bytes_each (l : List α) (f : Nat → α → Ws) (g : α → Sio.Bytes) (i : Nat) (h : ∀ j, ∀ x ∈ l, bytes id (f j x) = g x) :
    bytes id (Lcio.eachFrom f i l) = l.flatMap g := by
  induction l generalizing i with
  | nil => rfl
  | cons x l ih =>
    rw [eachFrom, bytes_append, h i x (List.mem_cons_self ..), ih (i + 1) fun j y hy => h j y (List.mem_cons_of_mem _ hy)]
    rfl

theorem tagged_none (l : List α) (f : Nat → α → Ws) (i : Nat) (h : ∀ j, ∀ x ∈ l, tagged (f j x) = []) :
    tagged (Lcio.eachFrom f i l) = [] := by
  induction l generalizing i with
  | nil => rfl
  | cons x l ih =>
    rw [eachFrom, tagged_append, h i x (List.mem_cons_self ..), ih (i + 1) fun j y hy => h j y (List.mem_cons_of_mem _ hy)]
    rfl

theorem Reads.map {V : Type} [Bin V] {E : Env} (hE : E.Ok) {m : List (Str × V)} (h : MapOk m) :
    Reads id (readMap : Rd (List (Str × V))) (writeMap E m) m := by
  have h1 : Reads id (readMap : Rd (List (Str × V))) (encode m) m := by
    have := Reads.bind (id := id) (f := fun l => (Pure.pure (l.foldl setEntry []) : Rd (List (Str × V))))
      (Reads.decode m h.small) (Reads.pure _ m (by rw [foldl_setEntry [] m (by simpa using h.sorted)]; rfl))
    rw [List.append_nil] at this
    exact this
  refine h1.congr ?_ ?_
  · unfold writeMap
    rw [sortKeys_ord hE h.sorted, List.flatten_cons, List.flatten_cons, List.flatten_nil, List.append_nil, bytes_append]
    unfold Lcio.each
    rw [bytes_each m _ (fun e => Bin.enc e) 0]
    · show _ = (beEnc 4 m.length ++ encAll m) ++ []
      rw [List.append_nil]
      show (beEnc 4 m.length ++ []) ++ _ = _
      rw [List.append_nil]
      rfl
    · intro j x _
      show Bin.enc x.1 ++ (Bin.enc x.2 ++ []) = Bin.enc x.1 ++ Bin.enc x.2
      rw [List.append_nil]
  · unfold writeMap
    rw [List.flatten_cons, List.flatten_cons, List.flatten_nil, List.append_nil, tagged_append]
    unfold Lcio.each
    rw [tagged_none _ _ 0 (fun _ _ _ => rfl)]
    rfl

theorem Reads.params {E : Env} (hE : E.Ok) {p : Params} (h : p.Ok) : Reads id readParams (writeParams E p) p :=
  .cons (.map hE h.ints) (.cons (.map hE h.floats) (.cons (.map hE h.strings) (.nil _ _ rfl)))

end

/-! ## Collections -/

/-- Reads one thing, by the rules for single calls. -/
macro "rd" : tactic => `(tactic| first
  | exact Reads.decode _ True.intro
  | exact Reads.decode _ (fun _ _ => True.intro)
  | exact Reads.decode _ ⟨by assumption, fun _ _ => True.intro⟩
  | exact Reads.ptr (by assumption) _
  | exact Reads.tag (by assumption) _
  | exact Reads.len _ (by assumption)
  | exact Reads.lens (by simp) (by assumption)
  | exact Reads.params (by assumption) (by assumption)
  | exact Reads.ite (by simp) (fun _ => Reads.decode _ True.intro) rfl
  | exact Reads.ite (by simp) (fun _ => Reads.decode _ (fun _ _ => True.intro)) rfl
  | exact Reads.ite (by simp) (fun _ => Reads.tag (by assumption) _) (by split <;> rfl)
  | exact Reads.always (by simp) (Reads.decode _ True.intro)
  | exact Reads.always (by simp) (Reads.decode _ (fun _ _ => True.intro))
  | exact Reads.always (by simp) (Reads.ptr (by assumption) _)
  | exact Reads.always (by simp) (Reads.tag (by assumption) _)
  | exact Reads.each _ (fun _ _ _ => Reads.ptr (by assumption) _)
  | exact Reads.each _ (fun _ _ _ => Reads.decode _ True.intro))

/-- Reads the next thing. -/
macro "nx" : tactic => `(tactic| apply Reads.cons (by rd))

section
variable {id : Ref → Nat} (hid : ∀ k, id k < 2 ^ 32 - 1) {E : Env} (hE : E.Ok)
include hid hE

theorem reads_caloHits (b : Nat) (c : Cont (CaloHit Ref)) (h : c.Ok fun _ => True) :
    Reads id (readCaloHits b 2008) (writeCaloHits E b c) (c.map fun x => (x.keep c.flags).map id) := by
  obtain ⟨hp, hf, -⟩ := h
  nx; nx; nx
  refine Reads.cons (Reads.each (φ := fun x => (x.keep c.flags).map id) c.elems fun i x _ => ?_) (Reads.nil _ _ rfl)
  iterate 9 nx
  exact Reads.nil _ _ rfl

theorem reads_simCaloHits (b : Nat) (c : Cont (SimCaloHit Ref)) (h : c.Ok SimCaloHit.Ok) :
    Reads id (readSimCaloHits b 2008) (writeSimCaloHits E b c) (c.map fun x => (x.keep c.flags).map id) := by
  obtain ⟨hp, hf, he⟩ := h
  nx; nx; nx
  refine Reads.cons (Reads.each (φ := fun x => (x.keep c.flags).map id) c.elems fun i x hx => ?_) (Reads.nil _ _ rfl)
  have h1 := (he x hx).contribs
  iterate 5 nx
  refine Reads.cons (Reads.each (φ := fun y => (y.keep c.flags).map id) x.contribs fun j y _ => ?_) ?_
  · iterate 5 nx
    exact Reads.nil _ _ rfl
  · nx
    refine Reads.nil _ _ ?_
    simp [SimCaloHit.map, SimCaloHit.keep, stored]

theorem reads_rawCaloHits (b : Nat) (c : Cont RawCaloHit) (h : c.Ok fun _ => True) :
    Reads id (readRawCaloHits b 2008) (writeRawCaloHits E b c) (c.map fun x => x.keep c.flags) := by
  obtain ⟨hp, hf, -⟩ := h
  nx; nx; nx
  refine Reads.cons (Reads.each (φ := fun x => x.keep c.flags) c.elems fun i x _ => ?_) (Reads.nil _ _ rfl)
  iterate 5 nx
  exact Reads.nil _ _ rfl

omit hid hE in
theorem reads_pid {p : PID} (h : p.Ok) : Reads id readPID (writePID p) p := by
  have h1 := h.params
  iterate 5 nx
  exact Reads.nil _ _ rfl

omit hid hE in
/-- A slice is also what reading its length and its elements gives. -/
theorem reads_slice {α : Type} [Bin α] (l : List α) (h : Fits l) (hs : ∀ x ∈ l, Bin.Small x) :
    Reads id (decLen >>= fun n => rep n fun _ => decode) (encode l) l := by
  have h1 : Reads id (decLen >>= fun n => rep n fun _ => decode) (encLen l.length ++ each l fun _ x => encode x) (l.map fun x => x) :=
    Reads.bind (Reads.len _ h) (Reads.each (φ := fun x => x) l fun _ x hx => Reads.decode x (hs x hx))
  rw [List.map_id'] at h1
  refine h1.congr ?_ ?_
  · rw [bytes_append]
    unfold each
    rw [bytes_each l _ (fun x => Bin.enc x) 0 (fun _ x _ => List.append_nil _)]
    show (beEnc 4 l.length ++ encAll l) ++ [] = (beEnc 4 l.length ++ []) ++ _
    simp [encAll]
  · rw [tagged_append]
    unfold each
    rw [tagged_none l _ 0 (fun _ _ _ => rfl)]
    rfl

omit hid hE in
theorem snd_zip {α β : Type} {a : List α} {b : List β} (h : a.length ≤ b.length) : (a.zip b).map Prod.snd = b.take a.length := by
  induction a generalizing b with
  | nil => simp
  | cons x a ih =>
    cases b with
    | nil => simp at h
    | cons y b => simpa using ih (by simpa using h)

theorem reads_clusters (b : Nat) (c : Cont (Cluster Ref)) (h : c.Ok (Cluster.Ok c.flags)) :
    Reads id (readClusters b 2008) (writeClusters' E b c) (c.map fun x => (x.keep c.flags).map id) := by
  obtain ⟨hp, hf, he⟩ := h
  nx; nx; nx
  refine Reads.cons (Reads.each (φ := fun x => (x.keep c.flags).map id) c.elems fun i x hx => ?_) (Reads.nil _ _ rfl)
  obtain ⟨h1, h2, h3, h4, h5, h6, h7⟩ := he x hx
  iterate 8 nx
  refine Reads.cons (reads_slice x.shape h1 fun _ _ => True.intro) ?_
  have e : ∀ l : List Ws, (encLen x.pids.length :: (each x.pids fun _ p => writePID p) :: l).flatten =
      ((encLen x.pids.length ++ each x.pids fun _ p => writePID p) :: l).flatten := by intro l; simp
  rw [e]
  refine Reads.cons (Reads.bind (Reads.len _ h2) (Reads.each (φ := fun p => p) x.pids fun _ p hp => reads_pid (h3 p hp))) ?_
  nx; nx
  refine Reads.cons (v := stored (test c.flags (bit 31)) ((x.hits.zip x.weights).map fun p => (id p.1, p.2))) ?_ ?_
  · refine Reads.ite (v := (x.hits.zip x.weights).map fun p => (id p.1, p.2)) rfl ?_ rfl
    intro hc
    have hl : x.hits.length = (x.hits.zip x.weights).length := by
      rw [List.length_zip]; have := h6 hc; omega
    have h5' : (x.hits.zip x.weights).length < 2 ^ 31 := by rw [← hl]; exact h5
    rw [hl, List.flatten_cons, List.flatten_cons, List.flatten_nil, List.append_nil]
    refine Reads.bind (Reads.len _ h5') ?_
    refine Reads.each (φ := fun (p : Ref × W32) => (id p.1, p.2)) _ fun _ p _ => ?_
    nx; nx
    exact Reads.nil _ _ rfl
  · nx; nx
    refine Reads.nil _ _ ?_
    rw [List.map_id']
    cases hc : test c.flags (bit 31) with
    | false => simp [Cluster.map, Cluster.keep, stored, hc]; exact ⟨rfl, rfl⟩
    | true =>
      have h6 := h6 hc
      have e1 : ((x.hits.zip x.weights).map fun p => (id p.1, p.2)).map (·.1) = x.hits.map id := by
        rw [List.map_map]
        have : (x.hits.zip x.weights).map ((·.1) ∘ fun p => (id p.1, p.2)) = ((x.hits.zip x.weights).map Prod.fst).map id := by
          rw [List.map_map]; rfl
        rw [this, List.map_fst_zip h6]
      have e2 : ((x.hits.zip x.weights).map fun p => (id p.1, p.2)).map (·.2) = x.weights.take x.hits.length := by
        rw [List.map_map]
        have : (x.hits.zip x.weights).map ((·.2) ∘ fun p => (id p.1, p.2)) = (x.hits.zip x.weights).map Prod.snd := rfl
        rw [this, snd_zip h6]
      simp only [Cluster.map, Cluster.keep, stored, hc, if_true, e1, e2]

omit hE in
theorem reads_mc {m : McPart Ref} (h : m.Ok) (k : Ref) : Reads id (readMc E 2008 k) (writeMc E k m) ((m.keep E).map id) := by
  have h1 := h.parents
  iterate 12 nx
  refine Reads.cons (v := stored (test m.simStatus (bit 31)) (m.pEndPoint.map fun x => E.to64 (E.to32 x))) ?_ ?_
  · refine Reads.ite (by simp) ?_ rfl
    intro _
    have := Reads.bind (id := id) (f := fun a => (Pure.pure (a.map E.to64) : Rd (Arr 3 W64)))
      (Reads.decode (m.pEndPoint.map E.to32) fun _ _ => True.intro) (Reads.pure _ (m.pEndPoint.map fun x => E.to64 (E.to32 x))
        (Arr.ext (by simp [Arr.map])))
    rw [List.append_nil] at this
    exact this
  · nx; nx
    refine Reads.nil _ _ ?_
    have e : (m.p.map E.to32).map E.to64 = m.p.map fun x => E.to64 (E.to32 x) := Arr.ext (by simp [Arr.map])
    rw [e]; rfl

theorem reads_mcs (b : Nat) (c : Cont (McPart Ref)) (h : c.Ok McPart.Ok) :
    Reads id (readMcs E b 2008) (writeMcs E b c) (c.map fun x => (x.keep E).map id) := by
  obtain ⟨hp, hf, he⟩ := h
  nx; nx; nx
  exact Reads.cons (Reads.each (φ := fun x => (x.keep E).map id) c.elems fun i x hx => reads_mc hid (he x hx) _)
    (Reads.nil _ _ rfl)

theorem reads_tracks (b : Nat) (c : Cont (Track Ref)) (h : c.Ok Track.Ok) :
    Reads id (readTracks b 2008) (writeTracks E b c) (c.map fun x => (x.keep c.flags).map id) := by
  obtain ⟨hp, hf, he⟩ := h
  nx; nx; nx
  refine Reads.cons (Reads.each (φ := fun x => (x.keep c.flags).map id) c.elems fun i x hx => ?_) (Reads.nil _ _ rfl)
  obtain ⟨h1, h2, h3, h4⟩ := he x hx
  nx; nx
  refine Reads.cons (Reads.each (φ := fun s => s) x.states fun j s _ => ?_) ?_
  · iterate 8 nx
    exact Reads.nil _ _ rfl
  · iterate 8 nx
    refine Reads.cons (v := stored (test c.flags (bit 31)) (x.hits.map id)) ?_ ?_
    · refine Reads.ite (by simp) ?_ rfl
      intro _
      rw [List.flatten_cons, List.flatten_cons, List.flatten_nil, List.append_nil]
      exact Reads.bind (by rd) (by rd)
    · nx
      refine Reads.nil _ _ ?_
      rw [List.map_id']
      cases hc : test c.flags (bit 31) <;> simp [Track.map, Track.keep, stored, hc] <;> rfl

theorem reads_recParts (b : Nat) (c : Cont (RecPart Ref)) (h : c.Ok RecPart.Ok) :
    Reads id (readRecParts b 2008) (writeRecParts E b c) (c.map fun x => x.map id) := by
  obtain ⟨hp, hf, he⟩ := h
  nx; nx; nx
  refine Reads.cons (Reads.each (φ := fun x => x.map id) c.elems fun i x hx => ?_) (Reads.nil _ _ rfl)
  obtain ⟨h1, h2, h3, h4, h5⟩ := he x hx
  iterate 8 nx
  refine Reads.cons (Reads.each (φ := fun p => p) x.pids fun j p hp => ?_) ?_
  · have := (h2 p hp).params
    iterate 6 nx
    exact Reads.nil _ _ rfl
  · iterate 10 nx
    refine Reads.nil _ _ ?_
    rw [List.map_id']; rfl

theorem reads_vertices (b : Nat) (c : Cont (Vertex Ref)) (h : c.Ok Vertex.Ok) :
    Reads id (readVertices b) (writeVertices E b c) (c.map fun x => x.map id) := by
  obtain ⟨hp, hf, he⟩ := h
  nx; nx; nx
  refine Reads.cons (Reads.each (φ := fun x => x.map id) c.elems fun i x hx => ?_) (Reads.nil _ _ rfl)
  have h1 := (he x hx).params
  iterate 9 nx
  exact Reads.nil _ _ rfl

theorem reads_simTrkHits (b : Nat) (c : Cont (SimTrkHit Ref)) (h : c.Ok fun _ => True) :
    Reads id (readSimTrkHits b 2008) (writeSimTrkHits E b c) (c.map fun x => (x.keep c.flags).map id) := by
  obtain ⟨hp, hf, -⟩ := h
  nx; nx; nx
  refine Reads.cons (Reads.each (φ := fun x => (x.keep c.flags).map id) c.elems fun i x _ => ?_) (Reads.nil _ _ rfl)
  iterate 10 nx
  exact Reads.nil _ _ rfl

theorem reads_trkData (b : Nat) (c : Cont TrkData) (h : c.Ok TrkData.Ok) :
    Reads id (readTrkData b) (writeTrkData E b c) (c.map fun x => x.keep c.flags) := by
  obtain ⟨hp, hf, he⟩ := h
  nx; nx; nx
  refine Reads.cons (Reads.each (φ := fun x => x.keep c.flags) c.elems fun i x hx => ?_) (Reads.nil _ _ rfl)
  have h1 := (he x hx).charges
  iterate 5 nx
  exact Reads.nil _ _ rfl

theorem reads_trkHits (b : Nat) (c : Cont (TrkHit Ref)) (h : c.Ok TrkHit.Ok) :
    Reads id (readTrkHits E b 2008) (writeTrkHits E b c) (c.map fun x => (x.keep E c.flags).map id) := by
  obtain ⟨hp, hf, he⟩ := h
  nx; nx; nx
  refine Reads.cons (Reads.each (φ := fun x => (x.keep E c.flags).map id) c.elems fun i x hx => ?_) (Reads.nil _ _ rfl)
  have h1 := (he x hx).rawHits
  iterate 12 nx
  refine Reads.nil _ _ ?_
  have e : (x.cov.map E.to32).map E.to64 = x.cov.map fun x => E.to64 (E.to32 x) := Arr.ext (by simp [Arr.map])
  rw [e]; rfl

theorem reads_trkHitPlanes (b : Nat) (c : Cont (TrkHitPlane Ref)) (h : c.Ok TrkHitPlane.Ok) :
    Reads id (readTrkHitPlanes b 2008) (writeTrkHitPlanes E b c) (c.map fun x => (x.keep c.flags).map id) := by
  obtain ⟨hp, hf, he⟩ := h
  nx; nx; nx
  refine Reads.cons (Reads.each (φ := fun x => (x.keep c.flags).map id) c.elems fun i x hx => ?_) (Reads.nil _ _ rfl)
  have h1 := (he x hx).rawHits
  iterate 15 nx
  exact Reads.nil _ _ rfl

theorem reads_trkHitZCyls (b : Nat) (c : Cont (TrkHitZCyl Ref)) (h : c.Ok TrkHitZCyl.Ok) :
    Reads id (readTrkHitZCyls b 2008) (writeTrkHitZCyls E b c) (c.map fun x => (x.keep c.flags).map id) := by
  obtain ⟨hp, hf, he⟩ := h
  nx; nx; nx
  refine Reads.cons (Reads.each (φ := fun x => (x.keep c.flags).map id) c.elems fun i x hx => ?_) (Reads.nil _ _ rfl)
  have h1 := (he x hx).rawHits
  iterate 14 nx
  exact Reads.nil _ _ rfl

theorem reads_trkPulses (b : Nat) (c : Cont (TrkPulse Ref)) (h : c.Ok fun _ => True) :
    Reads id (readTrkPulses b 2008) (writeTrkPulses E b c) (c.map fun x => (x.keep c.flags).map id) := by
  obtain ⟨hp, hf, -⟩ := h
  nx; nx; nx
  refine Reads.cons (Reads.each (φ := fun x => (x.keep c.flags).map id) c.elems fun i x _ => ?_) (Reads.nil _ _ rfl)
  iterate 8 nx
  exact Reads.nil _ _ rfl

theorem reads_trkRaws (b : Nat) (c : Cont TrkRaw) (h : c.Ok TrkRaw.Ok) :
    Reads id (readTrkRaws b) (writeTrkRaws E b c) (c.map fun x => x.keep c.flags) := by
  obtain ⟨hp, hf, he⟩ := h
  nx; nx; nx
  refine Reads.cons (Reads.each (φ := fun x => x.keep c.flags) c.elems fun i x hx => ?_) (Reads.nil _ _ rfl)
  have h1 := (he x hx).adcs
  nx; nx; nx; nx
  refine Reads.cons (Reads.each (φ := fun v => v) x.adcs fun _ v _ => Reads.decode v True.intro) ?_
  nx; nx
  refine Reads.nil _ _ ?_
  rw [List.map_id']; rfl

omit hid hE in
theorem reads_lens (g : Generic) (h1 : Fits g.i32s) (h2 : Fits g.f32s) (h3 : Fits g.f64s) :
    Reads id readLens (writeLens g) (g.i32s.length, g.f32s.length, g.f64s.length) := by
  iterate 3 nx
  exact Reads.nil _ _ rfl

theorem reads_generics (b : Nat) (c : Cont Generic) (h : c.Ok (Generic.Ok c.flags (c.elems.headD ⟨[], [], []⟩))) :
    Reads id (readGenerics b) (writeGenerics E b c) c := by
  obtain ⟨hp, hf, he⟩ := h
  generalize hd : c.elems.headD ⟨[], [], []⟩ = d at he
  have hfd : Fits d.i32s ∧ Fits d.f32s ∧ Fits d.f64s := by
    cases hc : c.elems with
    | nil =>
      rw [hc] at hd
      subst hd
      exact ⟨(by decide : (0 : Nat) < 2 ^ 31), (by decide : (0 : Nat) < 2 ^ 31), (by decide : (0 : Nat) < 2 ^ 31)⟩
    | cons x l =>
      rw [hc] at hd
      have := he d (by rw [hc, ← hd]; exact List.mem_cons_self ..)
      exact ⟨this.1, this.2, this.3⟩
  nx; nx
  rw [hd]
  refine Reads.cons (Reads.ite rfl (fun _ => reads_lens d hfd.1 hfd.2.1 hfd.2.2) rfl) ?_
  nx
  refine Reads.cons (Reads.each (φ := fun x => x) c.elems fun i x hx => ?_) (Reads.nil _ _ (by rw [List.map_id']))
  obtain ⟨h1, h2, h3, h4⟩ := he x hx
  refine Reads.cons (v := (x.i32s.length, x.f32s.length, x.f64s.length)) ?_ ?_
  · refine Reads.ite (v := (x.i32s.length, x.f32s.length, x.f64s.length)) rfl (fun _ => reads_lens x h1 h2 h3) ?_
    cases hc : test c.flags (bit 31) with
    | false => rfl
    | true => obtain ⟨a1, a2, a3⟩ := h4 hc; simp [a1, a2, a3]
  · refine Reads.cons (Reads.each (φ := fun v => v) x.i32s fun _ v _ => Reads.decode v True.intro) ?_
    refine Reads.cons (Reads.each (φ := fun v => v) x.f32s fun _ v _ => Reads.decode v True.intro) ?_
    refine Reads.cons (Reads.each (φ := fun v => v) x.f64s fun _ v _ => Reads.decode v True.intro) ?_
    nx
    refine Reads.nil _ _ ?_
    simp only [List.map_id']

theorem reads_relations (c : Cont (Relation Ref)) (h : c.Ok fun _ => True) :
    Reads id readRelations (writeRelations E c) (c.map fun x => (x.keep c.flags).map id) := by
  obtain ⟨hp, hf, -⟩ := h
  nx; nx; nx
  refine Reads.cons (Reads.each (φ := fun x => (x.keep c.flags).map id) c.elems fun i x _ => ?_) (Reads.nil _ _ rfl)
  iterate 3 nx
  exact Reads.nil _ _ rfl

theorem reads_references (c : Cont Ref) (h : c.Ok fun _ => True) :
    Reads id readReferences (writeReferences E c) (c.map id) := by
  obtain ⟨hp, hf, -⟩ := h
  iterate 4 nx
  exact Reads.nil _ _ rfl

end

end Verif.Lcio
