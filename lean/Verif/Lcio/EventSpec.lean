import Verif.Lcio.Event

/-!
# What an event of `lcio` is after it was written and read

Specification, and the single collections.
-/

namespace Verif.Lcio

/-! ## Specification -/

/-- What is stored of a collection. -/
def Coll.keep {P : Type} (E : Env) : Coll P → Coll P
  | .mc c => .mc (c.map fun x => x.keep E)
  | .simTrk c => .simTrk (c.map fun x => x.keep c.flags)
  | .simCalo c => .simCalo (c.map fun x => x.keep c.flags)
  | .rawCalo c => .rawCalo (c.map fun x => x.keep c.flags)
  | .calo c => .calo (c.map fun x => x.keep c.flags)
  | .trkData c => .trkData (c.map fun x => x.keep c.flags)
  | .trk c => .trk (c.map fun x => x.keep E c.flags)
  | .trkPlane c => .trkPlane (c.map fun x => x.keep c.flags)
  | .trkZCyl c => .trkZCyl (c.map fun x => x.keep c.flags)
  | .pulse c => .pulse (c.map fun x => x.keep c.flags)
  | .trkRaw c => .trkRaw (c.map fun x => x.keep c.flags)
  | .track c => .track (c.map fun x => x.keep c.flags)
  | .cluster c => .cluster (c.map fun x => x.keep c.flags)
  | .relation c => .relation (c.map fun x => x.keep c.flags)
  | c => c

/-- Collections that can be written and read: lengths fit in 32 bits, clusters have as many weights as hits, generic objects
of fixed size have one size.  Vectors and references are not among them (see the counterexamples). -/
def Coll.Ok {P : Type} : Coll P → Prop
  | .mc c => c.Ok McPart.Ok
  | .simTrk c => c.Ok fun _ => True
  | .simCalo c => c.Ok SimCaloHit.Ok
  | .rawCalo c => c.Ok fun _ => True
  | .calo c => c.Ok fun _ => True
  | .trkData c => c.Ok TrkData.Ok
  | .trk c => c.Ok TrkHit.Ok
  | .trkPlane c => c.Ok TrkHitPlane.Ok
  | .trkZCyl c => c.Ok TrkHitZCyl.Ok
  | .pulse c => c.Ok fun _ => True
  | .trkRaw c => c.Ok TrkRaw.Ok
  | .track c => c.Ok Track.Ok
  | .cluster c => c.Ok (Cluster.Ok c.flags)
  | .vertex c => c.Ok Vertex.Ok
  | .recPart c => c.Ok RecPart.Ok
  | .generic c => c.Ok (Generic.Ok c.flags (c.elems.headD ⟨[], [], []⟩))
  | .relation c => c.Ok fun _ => True
  | _ => False

/-- The number of elements of a collection that pointers can be restored to: those of relations are not, and
those of calorimeter hits are not if the flags say so (bit 28, `BitsRChNoPtr`). -/
def Coll.targets {P : Type} : Coll P → Nat
  | .mc c => c.elems.length
  | .simTrk c => c.elems.length
  | .simCalo c => c.elems.length
  | .rawCalo c => if test c.flags (bit 28) then 0 else c.elems.length
  | .calo c => if test c.flags (bit 28) then 0 else c.elems.length
  | .trkData c => c.elems.length
  | .trk c => c.elems.length
  | .trkPlane c => c.elems.length
  | .trkZCyl c => c.elems.length
  | .pulse c => c.elems.length
  | .trkRaw c => c.elems.length
  | .track c => c.elems.length
  | .cluster c => c.elems.length
  | .vertex c => c.elems.length
  | .recPart c => c.elems.length
  | .generic c => c.elems.length
  | _ => 0

/-- The numbers of identifications of the elements. -/
def Coll.pids {P : Type} : Coll P → List Nat
  | .recPart c => c.elems.map fun r => r.pids.length
  | _ => []

/-- The pointers of an event that point into it. -/
def inside {P : Type} (cs : List (Coll P)) : Ref → Bool
  | .obj b i => (cs[b]?).any fun c => i < c.targets
  | .sub b i j => (cs[b]?).any fun c => (c.pids[i]?).any fun n => j < n
  | _ => false

/-- A pointer into the event is a pointer to the new object; others are `nil`. -/
def target {P : Type} (cs : List (Coll P)) (k : Ref) : Option Ref := if inside cs k then some k else none

/-- The particles of a collection. -/
def Coll.particles {P : Type} : Coll P → List (McPart P)
  | .mc c => c.elems
  | _ => []

/-- The particles with `k` as a parent, in order; once for every time. -/
def childrenOf (cs : List (Coll (Option Ref))) (k : Ref) : List (Option Ref) :=
  cs.zipIdx.flatMap fun c => c.1.particles.zipIdx.flatMap fun m =>
    (m.1.parents.filter fun r => r = some k).map fun _ => some (.obj c.2 m.2)

/-- The particles of collection number `b` with their children in `cs`. -/
def Coll.withChildren (cs : List (Coll (Option Ref))) (b : Nat) : Coll (Option Ref) → Coll (Option Ref)
  | .mc c => .mc { c with elems := c.elems.mapIdx fun i m => { m with children := childrenOf cs (.obj b i) } }
  | c => c

/-- What is stored of collections, with pointers and children. -/
def restoredColls (E : Env) (cs : List (Coll Ref)) : List (Coll (Option Ref)) :=
  let stored := cs.map fun c => (c.keep E).map (target cs)
  stored.mapIdx fun b c => c.withChildren stored b

/-- What reading gives for an event. -/
def restored (E : Env) (e : Event Ref) : Event (Option Ref) :=
  ⟨e.run, e.event, e.time, e.detector, e.params, (e.colls.map (·.1)).zip (restoredColls E (e.colls.map (·.2)))⟩

structure RunHeader.Ok (h : RunHeader) : Prop where
  detector : Bin.Small h.detector
  descr : Bin.Small h.descr
  subDetectors : Bin.Small h.subDetectors
  params : h.params.Ok

/-- An event made with `Add`, with collections as above. -/
structure Event.Ok {P : Type} (e : Event P) : Prop where
  detector : Bin.Small e.detector
  params : e.params.Ok
  names : (e.colls.map (·.1)).Nodup
  small : ∀ x ∈ e.colls, Bin.Small x.1
  fits : Fits e.colls
  colls : ∀ x ∈ e.colls, x.2.Ok

def Item.Ok : Item → Prop
  | .run h => h.Ok
  | .event e => e.Ok

/-- What a loop over the events of a file gives: every event, with the last run header before it. -/
def expected (E : Env) : RunHeader → List Item → List (RunHeader × Event (Option Ref))
  | _, [] => []
  | _, .run h :: l => expected E h l
  | h, .event e :: l => (h, restored E e) :: expected E h l

/-- The last run header. -/
def lastRun : RunHeader → List Item → RunHeader
  | h, [] => h
  | _, .run h :: l => lastRun h l
  | h, .event _ :: l => lastRun h l

/-! ## Collections -/

theorem versionSio_version : versionSio version = 2008 := by decide

section
variable {id : Ref → Nat} (hid : ∀ k, id k < 2 ^ 32 - 1) {E : Env} (hE : E.Ok)

theorem Reads.wrap {α β : Type} {p : Rd α} {w : Ws} {v : α} (f : α → β) (h : Reads id p w v) {v' : β} (hv : f v = v') :
    Reads id (p >>= fun c => Pure.pure (f c)) w v' := by
  have := Reads.bind (f := fun c => (Pure.pure (f c) : Rd β)) h (Reads.pure (id := id) _ _ hv)
  rwa [List.append_nil] at this

include hid hE in
theorem reads_coll (b : Nat) (c : Coll Ref) (h : c.Ok) :
    ∃ w, c.write E b = some w ∧ Reads id (readColl E b 2008 c.kind) w ((c.keep E).map id) := by
  cases c with
  | mc c => exact ⟨_, rfl, (reads_mcs hid hE b c h).wrap _ (by simp [Coll.keep, Coll.map, Cont.map])⟩
  | simTrk c => exact ⟨_, rfl, (reads_simTrkHits hid hE b c h).wrap _ (by simp [Coll.keep, Coll.map, Cont.map])⟩
  | simCalo c => exact ⟨_, rfl, (reads_simCaloHits hid hE b c h).wrap _ (by simp [Coll.keep, Coll.map, Cont.map])⟩
  | floats c => exact h.elim
  | ints c => exact h.elim
  | strs c => exact h.elim
  | rawCalo c => exact ⟨_, rfl, (reads_rawCaloHits hid hE b c h).wrap _ (by simp [Coll.keep, Coll.map, Cont.map])⟩
  | calo c => exact ⟨_, rfl, (reads_caloHits hid hE b c h).wrap _ (by simp [Coll.keep, Coll.map, Cont.map])⟩
  | trkData c => exact ⟨_, rfl, (reads_trkData hid hE b c h).wrap _ (by simp [Coll.keep, Coll.map, Cont.map])⟩
  | trk c => exact ⟨_, rfl, (reads_trkHits hid hE b c h).wrap _ (by simp [Coll.keep, Coll.map, Cont.map])⟩
  | trkPlane c => exact ⟨_, rfl, (reads_trkHitPlanes hid hE b c h).wrap _ (by simp [Coll.keep, Coll.map, Cont.map])⟩
  | trkZCyl c => exact ⟨_, rfl, (reads_trkHitZCyls hid hE b c h).wrap _ (by simp [Coll.keep, Coll.map, Cont.map])⟩
  | pulse c => exact ⟨_, rfl, (reads_trkPulses hid hE b c h).wrap _ (by simp [Coll.keep, Coll.map, Cont.map])⟩
  | trkRaw c => exact ⟨_, rfl, (reads_trkRaws hid hE b c h).wrap _ (by simp [Coll.keep, Coll.map, Cont.map])⟩
  | track c => exact ⟨_, rfl, (reads_tracks hid hE b c h).wrap _ (by simp [Coll.keep, Coll.map, Cont.map])⟩
  | cluster c =>
    refine ⟨writeClusters' E b c, ?_, (reads_clusters hid hE b c h).wrap _ (by simp [Coll.keep, Coll.map, Cont.map])⟩
    show writeClusters E b c = _
    unfold writeClusters
    rw [if_neg]
    simp only [Bool.and_eq_true, List.any_eq_true, decide_eq_true_eq, not_and, not_exists, Nat.not_lt]
    intro h1 x h2
    exact (h.elems x h2).weights h1
  | vertex c => exact ⟨_, rfl, (reads_vertices hid hE b c h).wrap _ rfl⟩
  | recPart c => exact ⟨_, rfl, (reads_recParts hid hE b c h).wrap _ rfl⟩
  | generic c => exact ⟨_, rfl, (reads_generics hid hE b c h).wrap _ rfl⟩
  | relation c => exact ⟨_, rfl, (reads_relations hid hE c h).wrap _ (by simp [Coll.keep, Coll.map, Cont.map])⟩
  | refs c => exact h.elim

end

theorem Contrib.map_map {P Q R : Type} (f : P → Q) (g : Q → R) (c : Contrib P) : (c.map f).map g = c.map (g ∘ f) := rfl

/-- Mapping pointers twice. -/
theorem Coll.map_map {P Q R : Type} (f : P → Q) (g : Q → R) (c : Coll P) : (c.map f).map g = c.map (g ∘ f) := by
  cases c <;>
    simp [Coll.map, Cont.map, McPart.map, SimTrkHit.map, SimCaloHit.map, Contrib.map, CaloHit.map, TrkHit.map, TrkHitPlane.map,
      TrkHitZCyl.map, TrkPulse.map, Track.map, Cluster.map, Vertex.map, RecPart.map, Relation.map, Function.comp_def]

theorem Coll.kind_map {P Q : Type} (f : P → Q) (c : Coll P) : (c.map f).kind = c.kind := by cases c <;> rfl

theorem typeFrom_typeName (k : Kind) (t : Str) (h : typeName k = some t) : typeFrom t = some k := by
  cases k <;> first | (cases h; done) | (simp only [typeName, Option.some.injEq] at h; subst h; decide)

theorem Coll.Ok.name {P : Type} {c : Coll P} (h : c.Ok) : ∃ t, typeName c.kind = some t ∧ Bin.Small t := by
  cases c <;> first | exact h.elim | exact ⟨_, rfl, by show List.length _ < 2 ^ 31; decide⟩

/-! ## Tags -/

set_option linter.unusedSimpArgs false

theorem mem_tagged_eachFrom {α : Type} {f : Nat → α → Ws} {k : Ref} (l : List α) (i : Nat) :
    k ∈ tagged (eachFrom f i l) ↔ ∃ j x, l[j]? = some x ∧ k ∈ tagged (f (i + j) x) := by
  induction l generalizing i with
  | nil => simp [eachFrom, tagged]
  | cons y l ih =>
    rw [eachFrom, tagged_append, List.mem_append, ih]
    constructor
    · rintro (h | ⟨j, x, h1, h2⟩)
      · exact ⟨0, y, rfl, h⟩
      · exact ⟨j + 1, x, by simpa using h1, by rwa [show i + (j + 1) = i + 1 + j by omega]⟩
    · rintro ⟨j, x, h1, h2⟩
      cases j with
      | zero =>
        simp only [List.getElem?_cons_zero, Option.some.injEq] at h1
        subst h1; exact .inl h2
      | succ j => exact .inr ⟨j, x, by simpa using h1, by rwa [show i + 1 + j = i + (j + 1) by omega]⟩

theorem mem_tagged_each {α : Type} {f : Nat → α → Ws} {k : Ref} (l : List α) :
    k ∈ tagged (each l f) ↔ ∃ j x, l[j]? = some x ∧ k ∈ tagged (f j x) := by
  unfold each; rw [mem_tagged_eachFrom]; simp

theorem tagged_encode {α : Type} [Bin α] (v : α) : tagged (encode v) = [] := rfl
theorem tagged_encLen (n : Nat) : tagged (encLen n) = [] := rfl
theorem tagged_encPtr (k : Ref) : tagged (encPtr k) = [] := rfl
theorem tagged_encTag (k : Ref) : tagged (encTag k) = [k] := rfl
theorem tagged_onlyIf (c : Bool) (w : Ws) : tagged (onlyIf c w) = if c then tagged w else [] := by cases c <;> rfl
theorem tagged_nil : tagged [] = [] := rfl

theorem tagged_writeMap {V : Type} [Bin V] (E : Env) (m : List (Str × V)) : tagged (writeMap E m) = [] := by
  unfold writeMap
  rw [List.flatten_cons, List.flatten_cons, List.flatten_nil, List.append_nil, tagged_append]
  unfold Lcio.each
  rw [tagged_none _ _ 0 (fun _ _ _ => rfl)]
  rfl

theorem tagged_writeParams (E : Env) (p : Params) : tagged (writeParams E p) = [] := by
  unfold writeParams
  simp [tagged_append, tagged_writeMap, tagged_nil]

/-- The objects tagged by a collection are those pointers can be restored to. -/
theorem mem_tagged (E : Env) (b : Nat) (c : Coll Ref) (h : c.Ok) (w : Ws) (hw : c.write E b = some w) (k : Ref) :
    k ∈ tagged w ↔ (∃ i, i < c.targets ∧ k = .obj b i) ∨ (∃ i j n, c.pids[i]? = some n ∧ j < n ∧ k = .sub b i j) := by
  have hi : ∀ {α : Type} (l : List α), (∃ j, (∃ x, l[j]? = some x) ∧ k = .obj b j) ↔ ∃ i, i < l.length ∧ k = .obj b i := by
    intro α l
    constructor
    · rintro ⟨j, ⟨x, h1⟩, h2⟩
      exact ⟨j, (List.getElem?_eq_some_iff.1 h1).1, h2⟩
    · rintro ⟨i, h1, h2⟩
      exact ⟨i, ⟨l[i], List.getElem?_eq_getElem h1⟩, h2⟩
  cases c with
  | floats c => exact h.elim
  | ints c => exact h.elim
  | strs c => exact h.elim
  | refs c => exact h.elim
  | recPart c =>
    simp only [Coll.write, Option.some.injEq] at hw
    subst hw
    simp [writeRecParts, writePID, tagged_append, tagged_encode, tagged_encLen, tagged_encPtr, tagged_encTag, tagged_onlyIf, tagged_writeParams,
      mem_tagged_each, Coll.targets, Coll.pids, hi, tagged_nil]
    constructor
    · rintro ⟨i, x, h1, ⟨j, ⟨y, h2⟩, h3⟩ | h2⟩
      · exact .inr ⟨i, j, _, ⟨x, h1, rfl⟩, (List.getElem?_eq_some_iff.1 h2).1, h3⟩
      · exact .inl ⟨i, (List.getElem?_eq_some_iff.1 h1).1, h2⟩
    · rintro (⟨i, h1, h2⟩ | ⟨i, j, n, ⟨x, h1, h2⟩, h3, h4⟩)
      · exact ⟨i, c.elems[i], List.getElem?_eq_getElem h1, .inr h2⟩
      · subst h2
        exact ⟨i, x, h1, .inl ⟨j, ⟨_, List.getElem?_eq_getElem h3⟩, h4⟩⟩
  | calo c =>
    simp only [Coll.write, Option.some.injEq] at hw
    subst hw
    simp [writeCaloHits, tagged_append, tagged_encode, tagged_encLen, tagged_encPtr, tagged_encTag, tagged_onlyIf, tagged_writeParams,
      mem_tagged_each, Coll.targets, Coll.pids, tagged_nil]
    cases test c.flags (bit 28) <;> simp [hi]
  | rawCalo c =>
    simp only [Coll.write, Option.some.injEq] at hw
    subst hw
    simp [writeRawCaloHits, tagged_append, tagged_encode, tagged_encLen, tagged_encPtr, tagged_encTag, tagged_onlyIf, tagged_writeParams,
      mem_tagged_each, Coll.targets, Coll.pids, tagged_nil]
    cases test c.flags (bit 28) <;> simp [hi]
  | cluster c =>
    simp only [Coll.write, writeClusters] at hw
    split at hw
    · cases hw
    · cases hw
      simp [writeClusters', writePID, tagged_append, tagged_encode, tagged_encLen, tagged_encPtr, tagged_encTag, tagged_onlyIf, tagged_writeParams,
        mem_tagged_each, Coll.targets, Coll.pids, hi, tagged_nil]
  | generic c =>
    simp only [Coll.write, Option.some.injEq] at hw
    subst hw
    simp [writeGenerics, writeLens, tagged_append, tagged_encode, tagged_encLen, tagged_encPtr, tagged_encTag, tagged_onlyIf, tagged_writeParams,
      mem_tagged_each, Coll.targets, Coll.pids, hi, tagged_nil]
  | mc c =>
    simp only [Coll.write, Option.some.injEq] at hw
    subst hw
    simp [writeMcs, writeMc, tagged_append, tagged_encode, tagged_encLen, tagged_encPtr, tagged_encTag, tagged_onlyIf, tagged_writeParams,
      mem_tagged_each, Coll.targets, Coll.pids, hi, tagged_nil]
  | _ c =>
    simp only [Coll.write, Option.some.injEq] at hw
    subst hw
    simp [writeCaloHits, writeSimCaloHits, writeRawCaloHits, writeTracks, writeVertices, writeSimTrkHits, writeTrkData, writeTrkHits,
      writeTrkHitPlanes, writeTrkHitZCyls, writeTrkPulses, writeTrkRaws, writeRelations,
      tagged_append, tagged_encode, tagged_encLen, tagged_encPtr, tagged_encTag, tagged_onlyIf, tagged_writeParams,
      mem_tagged_each, Coll.targets, Coll.pids, hi, tagged_nil]

end Verif.Lcio
