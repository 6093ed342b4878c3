import Verif.RBytes.RefsProps

/-!
# Object graphs: arrays of objects, examples, and what does not survive (C82)
-/

namespace Verif.RBytes.Refs

/-! ### `TObjArray` -/

/-- groot/rbytes/wbuffer.go:434-451 (`WBuffer.WriteString`): length in one or five
bytes, then the string. -/
def stringParts (v : List UInt8) (rest : Parts) : Parts :=
  if v.length < 255 then .data (beEnc 1 v.length) (.data v rest)
  else .data (beEnc 1 255) (.data (beEnc 4 v.length) (.data v rest))

/-- groot/rbytes/rbuffer.go:233-261 (`RBuffer.ReadString`), for strings that do not
begin with a NUL. -/
def stringDec (k : Dec) : Dec :=
  .data 1 fun b =>
    if beDec b = 255 then .data 4 fun n => .data (beDec n) fun _ => k
    else .data (beDec b) fun _ => k

/-- groot/rbase/object.go:54-70 (`Object.MarshalROOT`): version, unique number, bits,
and two more bytes for an object which is referenced. -/
def tobjectParts (id bits : Nat) (rest : Parts) : Parts :=
  if bits &&& 16 ≠ 0 then
    .data (beEnc 2 1) (.data (beEnc 4 (id % 2 ^ 24)) (.data (beEnc 4 bits) (.data (beEnc 2 0) rest)))
  else .data (beEnc 2 1) (.data (beEnc 4 id) (.data (beEnc 4 bits) rest))

/-- groot/rbase/object.go:43-52 (`Object.UnmarshalROOT`). -/
def tobjectDec (k : Dec) : Dec :=
  .data 2 fun _ => .data 4 fun _ => .data 4 fun b =>
    if (beDec b ||| 2 ^ 24) &&& 16 ≠ 0 then .data 2 fun _ => k else k

def refsParts (os : List (Option Nat)) : Parts := os.foldr .ref .nil

def refsDec : Nat → Dec
  | 0 => .done
  | n + 1 => .ref fun _ => refsDec n

/-- groot/rcont/objarray.go:83-100 (`ObjArray.MarshalROOT`). -/
def objArrayParts (id bits : Nat) (name : List UInt8) (low : Nat) (os : List (Option Nat)) : Parts :=
  .block 3 (tobjectParts id bits (stringParts name
    (.data (beEnc 4 os.length) (.data (beEnc 4 low) (refsParts os))))) .nil

/-- groot/rcont/objarray.go:104-136 (`ObjArray.UnmarshalROOT`), for the version that is
written. -/
def objArrayDec : Dec :=
  .block 3 (fun _ => tobjectDec (stringDec (.data 4 fun n => .data 4 fun _ => refsDec (beDec n))))
    fun _ _ => .done

theorem stringFollows {v : List UInt8} (h : v.length < 2 ^ 32) {k : Dec} {rest : Parts}
    (hk : Follows k rest) : Follows (stringDec k) (stringParts v rest) := by
  unfold stringDec stringParts
  by_cases hl : v.length < 255
  · rw [if_pos hl]
    refine .data (by simp) ?_
    rw [beDec_beEnc_of_lt (by omega), if_neg (by omega)]
    exact .data rfl hk
  · rw [if_neg hl]
    refine .data (by simp) ?_
    rw [beDec_beEnc_of_lt (by omega), if_pos rfl]
    refine .data (by simp) ?_
    rw [beDec_beEnc_of_lt (by omega)]
    exact .data rfl hk

theorem bits_heap (b : Nat) : (b ||| 2 ^ 24) &&& 16 = b &&& 16 := by
  rw [Nat.and_or_distrib_right]
  have : 2 ^ 24 &&& 16 = 0 := by decide
  rw [this, Nat.or_zero]

theorem tobjectFollows {id bits : Nat} (hb : bits < 2 ^ 32) {k : Dec} {rest : Parts}
    (hk : Follows k rest) : Follows (tobjectDec k) (tobjectParts id bits rest) := by
  unfold tobjectDec tobjectParts
  by_cases hr : bits &&& 16 ≠ 0
  · rw [if_pos hr]
    refine .data (by simp) (.data (by simp) (.data (by simp) ?_))
    rw [beDec_beEnc_of_lt (by omega), bits_heap, if_pos hr]
    exact .data (by simp) hk
  · rw [if_neg hr]
    refine .data (by simp) (.data (by simp) (.data (by simp) ?_))
    rw [beDec_beEnc_of_lt (by omega), bits_heap, if_neg hr]
    exact hk

theorem refsFollows : ∀ os : List (Option Nat), Follows (refsDec os.length) (refsParts os)
  | [] => .done
  | _ :: os => .ref (refsFollows os)

/-- What a `TObjArray` writes is what it reads, whatever its elements (nil included):
`C82_roundtrip_partial` applies to arrays of objects. -/
theorem C82_objarray (id bits low : Nat) (name : List UInt8) (os : List (Option Nat))
    (hb : bits < 2 ^ 32) (hn : name.length < 2 ^ 32) (ho : os.length < 2 ^ 31) :
    Follows objArrayDec (objArrayParts id bits name low os) ∧
      ∀ j, j ∈ (objArrayParts id bits name low os).targets ↔ some j ∈ os := by
  constructor
  · refine .block (by decide) (by decide) (tobjectFollows hb (stringFollows hn ?_)) .done
    refine .data (by simp) (.data (by simp) ?_)
    rw [beDec_beEnc_of_lt (by omega)]
    exact refsFollows os
  · intro j
    have h1 : ∀ rest : Parts, (tobjectParts id bits rest).targets = rest.targets := by
      intro rest; unfold tobjectParts; split <;> rfl
    have h2 : ∀ rest : Parts, (stringParts name rest).targets = rest.targets := by
      intro rest; unfold stringParts; split <;> rfl
    have h3 : j ∈ (refsParts os).targets ↔ some j ∈ os := by
      induction os with
      | nil => simp [refsParts, Parts.targets]
      | cons o os ih =>
        have := ih (by simp at ho; omega)
        cases o <;> simp_all [refsParts, Parts.targets]
    simp only [objArrayParts, Parts.targets, h1, h2, List.append_nil]
    exact h3

example : Follows objArrayDec (objArrayParts 0 0x3000000 [97, 98] 0 [some 7, none, some 7]) :=
  (C82_objarray 0 0x3000000 0 [97, 98] [some 7, none, some 7] (by decide) (by decide) (by decide)).1

/-! ### Examples -/

def clsA : List UInt8 := [65]
def clsB : List UInt8 := [66, 66]
def clsArr : List UInt8 := [84, 79, 98, 106, 65, 114, 114, 97, 121]

/-- Object 0 of class `A` with four bytes; object 1 of class `BB` pointing to 0 twice;
object 2, an array holding 1, nil, 0, and 3; object 3 of class `A`. -/
def exG : Nat → Node
  | 0 => ⟨clsA, .block 1 (.data [1, 2, 3, 4] .nil) .nil⟩
  | 1 => ⟨clsB, .block 2 (.ref (some 0) (.ref (some 0) .nil)) .nil⟩
  | 2 => ⟨clsArr, objArrayParts 0 0x3000000 [97, 98] 0 [some 1, none, some 0, some 3]⟩
  | _ => ⟨clsA, .block 1 (.data [5, 6, 7, 8] .nil) .nil⟩

def exDec (c : List UInt8) : Option Dec :=
  if c = clsA then some (.block 1 (fun _ => .data 4 fun _ => .done) fun _ _ => .done)
  else if c = clsB then some (.block 2 (fun _ => .ref fun _ => .ref fun _ => .done) fun _ _ => .done)
  else if c = clsArr then some objArrayDec
  else none

def exRank : Nat → Nat
  | 0 => 0
  | 1 => 1
  | 2 => 2
  | _ => 0

theorem exGood : Good exG exDec (fun i => i < 4) exRank := by
  have h2 := C82_objarray 0 0x3000000 0 [97, 98] [some 1, none, some 0, some 3] (by decide) (by decide)
    (by decide)
  have htgt : ∀ i, i < 4 → (exG i).parts.targets = [[], [0, 0], [1, 0, 3], []].getD i [] := by
    intro i hi
    rcases i with _ | _ | _ | _ | i <;> first | omega | decide
  refine { closed := ?_, acyclic := ?_, name_len := ?_, name_nul := ?_, readable := ?_ }
  · intro i j hi hj
    rw [htgt i hi] at hj
    rcases i with _ | _ | _ | _ | i <;> simp at hj hi ⊢ <;> omega
  · intro i j hi hj
    rw [htgt i hi] at hj
    rcases i with _ | _ | _ | _ | i <;> simp at hj hi ⊢
    · subst hj; decide
    · rcases hj with rfl | rfl | rfl <;> decide
  · intro i hi
    rcases i with _ | _ | _ | _ | i <;> first | omega | decide
  · intro i hi
    rcases i with _ | _ | _ | _ | i <;> first | omega | decide
  · intro i hi
    have hA : exDec clsA = some (.block 1 (fun _ => .data 4 fun _ => .done) fun _ _ => .done) := rfl
    have hB : exDec clsB = some (.block 2 (fun _ => .ref fun _ => .ref fun _ => .done) fun _ _ => .done) := rfl
    have hC : exDec clsArr = some objArrayDec := rfl
    rcases i with _ | _ | _ | _ | i
    · exact ⟨_, hA, .block (by decide) (by decide) (.data rfl .done) .done⟩
    · exact ⟨_, hB, .block (by decide) (by decide) (.ref (.ref .done)) .done⟩
    · exact ⟨_, hC, h2.1⟩
    · exact ⟨_, hA, .block (by decide) (by decide) (.data rfl .done) .done⟩
    · omega

def exBuf : WBuf := newWBuffer [] 30 (fun _ => 0)

/-- The array, then object 0 again: it comes back as the same object. -/
example : ((writeAll exG 4 [some 2, none, some 0] ⟨exBuf, [], []⟩).bind fun s =>
      (readAll exDec 4 3 ⟨newRBuffer s.w.bytes [] 30, [], []⟩).map fun q => (q.1, q.2.heap.map Node.cls))
    = some ([some 0, none, some 2], [clsArr, clsB, clsA, clsA]) := by
  decide +kernel

example : ∃ fuel s', writeAll exG fuel [some 2, none, some 0] ⟨exBuf, [], []⟩ = some s' :=
  C82_write_ends exGood _ (by simp) exBuf ⟨by decide, rfl⟩

example (s' : WS) (h : writeAll exG 4 [some 2, none, some 0] ⟨exBuf, [], []⟩ = some s')
    (hsz : s'.w.pos < 2 ^ 30) : ∃ bs, s'.w.bytes = [] ++ bs := by
  obtain ⟨bs, hb, _⟩ := C82_roundtrip_partial exGood [some 2, none, some 0] (by simp) exBuf
    ⟨by decide, rfl⟩ 4 s' (by
      intro i hi
      simp at hi
      rcases hi with rfl | rfl <;> decide) (by decide) h hsz
  exact ⟨bs, hb⟩

/-! ### What does not survive -/

/-- Object 0 of class `A` points to itself. -/
def loopG : Nat → Node := fun _ => ⟨clsA, .block 1 (.ref (some 0) .nil) .nil⟩

def loopDec (c : List UInt8) : Option Dec :=
  if c = clsA then some (.block 1 (fun _ => .ref fun _ => .done) fun _ _ => .done) else none

/-- An object that points to itself is written, and cannot be read: the reader has
not recorded the object yet when it meets the pointer. It gets a nil pointer, a
position one GiB further on, and an error. -/
theorem C82_cycle_new_counterexample :
    ((writeAll loopG 3 [some 0] ⟨exBuf, [], []⟩).bind fun s =>
      (readAll loopDec 3 1 ⟨newRBuffer s.w.bytes [] 30, [], []⟩).map fun q => (q.1, q.2.r.err))
    = some ([none], true) := by
  decide +kernel

/-- Object 0 is an `A` without pointers; object 1 is an `A` pointing to itself. -/
def loop2G : Nat → Node
  | 0 => ⟨clsA, .nil⟩
  | _ => ⟨clsA, .ref (some 1) .nil⟩

theorem loop2_none : ∀ fuel (w : WBuf) objs classes r, w.WF → objs.lookup 1 = none →
    classes.lookup clsA = some r → writeAny loop2G fuel (some 1) ⟨w, objs, classes⟩ = none := by
  intro fuel
  induction fuel with
  | zero => intros; rfl
  | succ fuel ih =>
    intro w objs classes r hw ho hc
    obtain ⟨w1, e1, h1, _, _⟩ := writeBE_appends 4 0 w hw
    obtain ⟨w2, e2, h2, _, _⟩ := writeBE_appends 4 (r ||| 2 ^ 31) w1 h1
    have hcls : (loop2G 1).cls = clsA := rfl
    simp only [writeAny, hw.no_err, Bool.false_eq_true, if_false]
    rw [e1, Option.bind_some]
    simp only [writeClass, h1.no_err, Bool.false_eq_true, if_false, ho, hcls, hc]
    rw [e2, Option.bind_some]
    simp only [loop2G, writeParts]
    rw [ih w2 objs classes r h2 ho hc]
    rfl

/-- An object that points to itself and whose class has been written before cannot be
written: `WriteObjectAny` calls itself for ever, whatever the size of the stack. -/
theorem C82_cycle_known_counterexample (w : WBuf) (hw : w.WF) (fuel : Nat) :
    writeAll loop2G fuel [some 0, some 1] ⟨w, [], []⟩ = none := by
  cases fuel with
  | zero => rfl
  | succ fuel =>
    obtain ⟨w1, e1, a1⟩ := writeAny_len loop2G (fuel + 1) (some 0) w.pos ⟨[], []⟩ _ _ rfl w hw rfl
    have e1' : writeAny loop2G (fuel + 1) (some 0) ⟨w, [], []⟩ = some _ := e1
    simp only [writeAll]
    rw [e1', Option.bind_some]
    dsimp only [WS.of]
    rw [loop2_none (fuel + 1) w1 _ _ ((w.pos + 6) ||| 2 ^ 31) a1.1 (by rfl) (by rfl)]
    rfl

/-- A class with a name of 80 bytes. -/
def longCls : List UInt8 := List.replicate 80 65

/-- One object of that class, with the bytes 1, 2, 3, 4. -/
def longG : Nat → Node := fun _ => ⟨longCls, .data [1, 2, 3, 4] .nil⟩

def longDec (c : List UInt8) : Option Dec :=
  if c = longCls then some (.data 4 fun _ => .done) else none

/-- With a class name of 80 bytes the content is read one byte early: the object
comes back different, and no error is reported. -/
theorem C82_long_class_counterexample :
    ((writeAll longG 2 [some 0] ⟨exBuf, [], []⟩).bind fun s =>
      (readAll longDec 2 1 ⟨newRBuffer s.w.bytes [] 30, [], []⟩).map fun q =>
        (q.1, q.2.heap.map Node.parts, q.2.r.err))
    = some ([some 0], [.data [0, 1, 2, 3] .nil], false) := by
  decide +kernel

end Verif.RBytes.Refs
