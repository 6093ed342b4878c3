import Verif.Lcio.EventProps

/-!
# Examples of events of `lcio`, and what cannot be written or read
-/

namespace Verif.Lcio

open Verif.Sio (Rec toy toy_good)

/-- Numbers with 32 bits are the upper halves here; maps are ranged over backwards. -/
def exEnv : Env := ⟨fun x => (x >>> 32).setWidth 32, fun x => x.setWidth 64 <<< 32, fun m => m.reverse⟩

theorem exEnv_ok : exEnv.Ok := fun m => m.reverse_perm

def exParams : Params := ⟨[([97], [1, 2]), ([98], [])], [([95], [0x3f800000])], []⟩

theorem exParams_ok : exParams.Ok := by
  refine ⟨⟨?_, ?_⟩, ⟨?_, ?_⟩, ⟨?_, ?_⟩⟩
  · unfold Sorted; decide
  · exact ⟨by decide, fun x hx => ⟨by
      simp only [exParams, List.mem_cons, List.not_mem_nil, or_false] at hx
      rcases hx with rfl | rfl <;> show List.length _ < 2 ^ 31 <;> decide, by
      simp only [exParams, List.mem_cons, List.not_mem_nil, or_false] at hx
      rcases hx with rfl | rfl <;> exact ⟨by decide, fun _ _ => trivial⟩⟩⟩
  · unfold Sorted; decide
  · exact ⟨by decide, fun x hx => ⟨by
      simp only [exParams, List.mem_cons, List.not_mem_nil, or_false] at hx
      subst hx; show List.length _ < 2 ^ 31; decide, by
      simp only [exParams, List.mem_cons, List.not_mem_nil, or_false] at hx
      subst hx; exact ⟨by decide, fun _ _ => trivial⟩⟩⟩
  · unfold Sorted; decide
  · exact ⟨by decide, fun x hx => by simp [exParams] at hx⟩

def noParams : Params := ⟨[], [], []⟩

theorem noParams_ok : noParams.Ok :=
  ⟨⟨.nil, by decide, by simp [noParams]⟩, ⟨.nil, by decide, by simp [noParams]⟩, ⟨.nil, by decide, by simp [noParams]⟩⟩

/-- A particle with these parents. -/
def exPart (parents : List Ref) : McPart Ref :=
  ⟨parents, [.other 7], 11, 1, 0, ⟨[1, 2, 3], rfl⟩, 5, ⟨[0x100000000, 0, 0], rfl⟩, 0, 0, ⟨[4, 5, 6], rfl⟩, ⟨[7, 8, 9], rfl⟩,
    ⟨[0, 0, 1], rfl⟩, ⟨[1, 2], rfl⟩⟩

/-- Two particles, the second being a child of the first twice, of itself, and of something outside; a hit by
the second; and relations from the hit to the first particle and to nothing. -/
def exEvent : Event Ref :=
  ⟨1, 2, 3, [68], exParams,
    [([77], .mc ⟨0, noParams, [exPart [], exPart [.obj 0 0, .other 3, .obj 0 0, .obj 0 1]]⟩),
     ([72], .simTrk ⟨bit 30, exParams, [⟨1, 2, ⟨[1, 2, 3], rfl⟩, 4, 5, .obj 0 1, ⟨[6, 7, 8], rfl⟩, 9, 10⟩]⟩),
     ([82], .relation ⟨0, noParams, [⟨.obj 1 0, .obj 0 0, 5⟩, ⟨.nil 0, .obj 2 0, 6⟩]⟩)]⟩

theorem exEvent_ok : exEvent.Ok where
  detector := by show List.length _ < 2 ^ 31; decide
  params := exParams_ok
  names := by decide
  small := by
    intro x hx
    simp only [exEvent, List.mem_cons, List.not_mem_nil, or_false] at hx
    rcases hx with rfl | rfl | rfl <;> show List.length _ < 2 ^ 31 <;> decide
  fits := by unfold Fits; decide
  colls := by
    intro x hx
    simp only [exEvent, List.mem_cons, List.not_mem_nil, or_false] at hx
    rcases hx with rfl | rfl | rfl
    · refine ⟨noParams_ok, by unfold Fits; decide, ?_⟩
      intro m hm
      simp only [List.mem_cons, List.not_mem_nil, or_false] at hm
      rcases hm with rfl | rfl <;> exact ⟨by unfold Fits; decide⟩
    · exact ⟨exParams_ok, by unfold Fits; decide, fun _ _ => trivial⟩
    · exact ⟨noParams_ok, by unfold Fits; decide, fun _ _ => trivial⟩

def exRun : RunHeader := ⟨9, [68], [], [[65], [66, 67]], exParams⟩

theorem exRun_ok : exRun.Ok where
  detector := by show List.length _ < 2 ^ 31; decide
  descr := by show List.length _ < 2 ^ 31; decide
  subDetectors := ⟨by decide, fun x hx => by
    simp only [exRun, List.mem_cons, List.not_mem_nil, or_false] at hx
    rcases hx with rfl | rfl <;> show List.length _ < 2 ^ 31 <;> decide⟩
  params := exParams_ok

/-- The file of the example: an event before any run header, a run header, and the event again; compressed. -/
def exItems : List Item := [.event exEvent, .run exRun, .event exEvent]

def exRecs : List Rec := (writeItems exEnv 1 exItems).getD []

/-- `Rec.Fits`, computed. -/
def fitsB (r : Rec) : Bool :=
  r.blocks.all (fun b => b.version < 2 ^ 32 && b.name.length + b.data.length + 32 ≤ 2 ^ 31) && r.name.length + 64 ≤ 2 ^ 30 &&
    (Sio.encBlks r.blocks).length + 64 ≤ 2 ^ 30 && (toy.comp (Sio.encBlks r.blocks)).length + 64 ≤ 2 ^ 30

theorem fits_of {r : Rec} (h : fitsB r = true) : r.Fits toy := by
  simp only [fitsB, Bool.and_eq_true, decide_eq_true_eq, List.all_eq_true] at h
  exact ⟨fun b hb => ⟨(h.1.1.1 b hb).1, (h.1.1.1 b hb).2⟩, h.1.1.2, h.1.2, h.2⟩

theorem exRecs_eq : writeItems exEnv 1 exItems = some exRecs := by
  have : (writeItems exEnv 1 exItems).isSome = true := by decide +kernel
  unfold exRecs
  cases h : writeItems exEnv 1 exItems with
  | none => rw [h] at this; cases this
  | some r => rfl

theorem exRecs_fit : exRecs.all fitsB = true := by decide +kernel

/-- Tags are ranged over backwards. -/
def exOrd (t : List (Ref × Nat)) : List (Ref × Nat) := t.reverse

example : ∃ st, readEvents toy exEnv exOrd 4 St.new (Sio.encRecs toy exRecs) =
    ([(St.new.rhdr, restored exEnv exEvent), (exRun, restored exEnv exEvent)], some st) ∧ st.rhdr = exRun :=
  C137_file_partial toy toy_good exEnv_ok exOrd (fun t => t.reverse_perm) exItems
    (by
      intro x hx
      simp only [exItems, List.mem_cons, List.not_mem_nil, or_false] at hx
      rcases hx with rfl | rfl | rfl
      · exact exEvent_ok
      · exact exRun_ok
      · exact exEvent_ok)
    exRecs_eq (fun r hr => fits_of (List.all_eq_true.1 exRecs_fit r hr)) 4 (by decide)

/-- What that means: the second particle has the first as a parent twice, itself, and `nil` for what is not in the event;
the first has the second as a child twice, and the second has itself; end points are gone. -/
example : ((restored exEnv exEvent).colls.map fun x => x.2.particles.map fun m => (m.parents, m.children, m.endPoint)) =
    [[([], [some (.obj 0 1), some (.obj 0 1)], default),
      ([some (.obj 0 0), none, some (.obj 0 0), some (.obj 0 1)], [some (.obj 0 1)], default)], [], []] := by decide +kernel

example : ((restored exEnv exEvent).get [82]) =
    some (.relation ⟨0, noParams, [⟨some (.obj 1 0), some (.obj 0 0), 0⟩, ⟨none, none, 0⟩]⟩) := by decide +kernel

/-- A single event. -/
example : ∃ rs, writeItem exEnv 0 (.event exEvent) = some rs ∧ ∃ st2,
    next toy exEnv exOrd 2 St.new (Sio.encRecs toy rs ++ [1, 2]) = .event st2 [1, 2] ∧ st2.evt = restored exEnv exEvent := by
  have h1 : ((writeItem exEnv 0 (.event exEvent)).any fun rs => rs.all fitsB) = true := by decide +kernel
  cases h : writeItem exEnv 0 (.event exEvent) with
  | none => rw [h] at h1; cases h1
  | some rs =>
    rw [h] at h1
    obtain ⟨st2, g1, -, -, g2⟩ := C136_event_partial toy toy_good exEnv_ok exOrd (fun t => t.reverse_perm) exEvent_ok h
      (fun r hr => fits_of (List.all_eq_true.1 h1 r hr)) (st := St.new) ⟨rfl, rfl⟩ [1, 2] 0
    exact ⟨rs, rfl, st2, g1, g2⟩

example : ((childrenOf [.mc ⟨0, noParams, [(exPart []).map some, (exPart [.obj 0 0, .obj 0 0]).map some]⟩] (.obj 0 0)).count
    (some (.obj 0 1))) = 2 := (C136_children _ (.obj 0 0)).1 0 1

/-! ## What fails -/

def Next.failed : Next → Bool
  | .fail => true
  | _ => false

/-- An event with one collection. -/
def single (c : Coll Ref) : Event Ref := ⟨1, 2, 3, [], noParams, [([86], c)]⟩

/-- `Next` on the records of an event, failing. -/
def lost (e : Event Ref) : Bool :=
  match writeItem exEnv 0 (.event e) with
  | none => false
  | some rs => (next toy exEnv exOrd 3 St.new (Sio.encRecs toy rs)).failed

/-- **C136** (counterexample): events with vectors of floats, integers or strings are written without an error, but reading them fails,
even for empty vectors: their elements are written twice. -/
theorem C136_vectors_counterexample :
    lost (single (.floats ⟨0, noParams, []⟩)) = true ∧ lost (single (.floats ⟨0, noParams, [[1, 2], [3]]⟩)) = true ∧
    lost (single (.ints ⟨0, noParams, [[1]]⟩)) = true ∧ lost (single (.strs ⟨0, noParams, [[[65], [66]]]⟩)) = true := by
  decide +kernel

/-- **C136** (counterexample): an event with references is not written at all: there is a panic. -/
theorem C136_references_counterexample (E : Env) (opts : W32) (e : Event Ref) (n : Str) (c : Cont Ref) (h : (n, .refs c) ∈ e.colls) :
    writeItem E opts (.event e) = none := by
  have : ∀ l : List (Str × Coll Ref), (n, .refs c) ∈ l → describe l = none := by
    intro l
    induction l with
    | nil => intro h; cases h
    | cons x l ih =>
      intro h
      rw [describe]
      rcases List.mem_cons.1 h with rfl | h
      · rfl
      · split
        · rfl
        · rw [ih h]; rfl
  rw [writeItem, this _ h]

example : writeItem exEnv 0 (.event (single (.refs ⟨0, noParams, []⟩))) = none :=
  C136_references_counterexample exEnv 0 _ [86] _ (List.mem_singleton.2 rfl)

/-- The numbers of calls for the example. -/
example : ∃ rs, writeItem exEnv 0 (.event exEvent) = some rs := by
  obtain ⟨bl, ws, h1, h2, h3⟩ := (C137_write exEnv_ok 0).1 exEvent exEvent_ok
  have e1 : (writeColls exEnv 0 exEvent.colls).any (fun ws => (ws.flatMap (·.2)).length < 2 ^ 32 - 1) = true := by decide +kernel
  have e2 : (describe exEvent.colls).any (fun bl => (writeHeader exEnv ⟨exEvent.run, exEvent.event, exEvent.time, exEvent.detector, bl,
      exEvent.params⟩).length < 2 ^ 32 - 1) = true := by decide +kernel
  rw [h2] at e1
  rw [h1] at e2
  exact h3 (of_decide_eq_true e1) (of_decide_eq_true e2)

end Verif.Lcio
