import Verif.RTree.LeafProps

/-!
# C145: writing never fails on small values; what is not read back
-/

namespace Verif.RTree.Leaf

/-- **C145, a whole tree.**  When no string and no slice takes more than 1000 bytes, writing and
closing the tree succeeds, and every reader of the file sees the values written. -/
theorem C145_file_partial (vars : List Var) (hok : VarsOK vars) (rows : List (List Value))
    (hrows : ∀ row ∈ rows, RowOK vars row) (hcnt : rows.length + 1 < 2 ^ 31)
    (z : Bytes → Bytes) (conf : List Conf) (f0 : File) (hk : conf.map (·.1) = vars.map Var.kind)
    (hconf : ConfOk conf) (hf0 : ∀ p s, f0.disk p = some s → p < f0.fend) :
    ∃ ls0 ls bytes, newLeaves [] vars = some ls0 ∧ writeRows ls0 rows = some (bytes, ls) ∧
      ((∀ row ∈ bytes, All2 (fun (c : Conf) (e : Bytes) =>
        c.2.1 + 8 + c.2.2.toNat + e.length < 2 ^ 31 ∧ (c.1 = .counted → e.length ≤ 1000)) conf row) →
      ∀ ops, rowsOf ops = bytes →
        ∃ s ts f1, steps z ops (newWriter conf f0, f0) = some s ∧ closeTree z s = some (ts, f1) ∧
          ∀ f, Later f1 f → ∀ sel, SelOK vars sel → ∀ beg fin, beg ≤ fin → fin ≤ rows.length →
            readVars f (descs ls) ts sel beg fin =
              some (((rows.drop beg).take (fin - beg)).mapIdx fun n row =>
                (beg + n, sel.map (lookup vars row)))) := by
  obtain ⟨ls0, ls, h1, h2, _⟩ := C145_write vars hok rows hrows
  refine ⟨ls0, ls, _, h1, h2, ?_⟩
  intro hsize ops hops
  obtain ⟨s, s1, ⟨ts, f1⟩, r1⟩ := C18_write_partial z conf f0 ops (by
    rw [hops]; exact fun row hr => All2.imp (fun _ _ h => h.2) (hsize row hr))
  refine ⟨s, ts, f1, s1, r1, ?_⟩
  intro f hlater sel hsel beg fin hbf hfin
  exact C145_values_partial vars hok rows hrows ls0 ls _ h1 h2 z conf f0 ops hops hk hconf hf0
    (fun row hr => All2.imp (fun _ _ h => h.1) (hsize row hr)) hcnt s ts f1 f s1 r1 hlater
    sel hsel beg fin hbf hfin

/-! ## An example -/

/-- A count `n`, a slice `xs [n]` of 16-bit numbers, a string `s`, an array `m [2][2]` of bytes
and a slice `ys [n]` of booleans. -/
def exVars : List Var :=
  [⟨[110], .u8, .val⟩, ⟨[120, 115], .i16, .sli [110]⟩, ⟨[115], .str, .val⟩,
   ⟨[109], .i8, .arr [2, 2]⟩, ⟨[121, 115], .bool, .sli [110]⟩]

/-- In the second row the slices have more elements than the count says. -/
def exRows : List (List Value) :=
  [[.val (.word 2), .list [.word 258, .word 65535], .val (.str [104, 105]),
    .list [.word 1, .word 2, .word 3, .word 255], .list [.bool true, .bool false]],
   [.val (.word 1), .list [.word 7, .word 8], .val (.str []),
    .list [.word 5, .word 6, .word 7, .word 8], .list [.bool false, .bool true]],
   [.val (.word 0), .list [], .val (.str [33]),
    .list [.word 9, .word 9, .word 9, .word 9], .list []]]

theorem exVars_ok : VarsOK exVars := by
  refine ⟨by decide, by decide, ?_, ?_⟩
  · intro v hv dims hd
    simp only [exVars, List.mem_cons, List.not_mem_nil, or_false] at hv
    rcases hv with rfl | rfl | rfl | rfl | rfl <;> simp at hd
    subst hd; decide
  · intro i v c hv hf
    match i with
    | 0 => simp [exVars] at hv; subst hv; simp at hf
    | 1 => simp [exVars] at hv; subst hv; simp at hf; subst hf
           exact ⟨0, _, by decide, rfl, rfl, rfl, by decide, by decide⟩
    | 2 => simp [exVars] at hv; subst hv; simp at hf
    | 3 => simp [exVars] at hv; subst hv; simp at hf
    | 4 => simp [exVars] at hv; subst hv; simp at hf; subst hf
           exact ⟨0, _, by decide, rfl, rfl, rfl, by decide, by decide⟩
    | i + 5 => simp [exVars] at hv

instance (vars : List Var) (row : List Value) (v : Var) (x : Value) :
    Decidable (FitsVar vars row v x) := by
  unfold FitsVar; split <;> infer_instance

theorem exRows_ok : ∀ row ∈ exRows, RowOK exVars row := by
  intro row hr
  simp only [exRows, List.mem_cons, List.not_mem_nil, or_false] at hr
  rcases hr with rfl | rfl | rfl <;> exact ⟨rfl, by decide⟩

def exConf : List Conf :=
  [(.fixed 1, 60, 12), (.counted, 60, 32), (.counted, 60, 32), (.fixed 4, 60, 12),
   (.counted, 60, 12)]

/-- The hypotheses of `C145_file_partial` are met … -/
example : exConf.map (·.1) = exVars.map Var.kind ∧ ConfOk exConf := by
  refine ⟨by decide, ?_⟩
  intro c hc
  simp only [exConf, List.mem_cons, List.not_mem_nil, or_false] at hc
  rcases hc with rfl | rfl | rfl | rfl | rfl <;> decide

/-- … and reading `ys`, `s`, `xs` and `m` from the second entry on, without the count and with a
second basket in between, gives the values. -/
example : (((newLeaves [] exVars).bind fun ls => writeRows ls exRows).bind fun w =>
    ((steps id (w.1.map .write ++ [.other 5]) (newWriter exConf file0, file0)).bind
      (closeTree id)).bind fun r =>
        readVars r.2 (descs w.2) r.1 [[121, 115], [115], [120, 115], [109]] 1 3) =
    some [(1, [.list [.bool false], .val (.str []), .list [.word 7],
               .list [.word 5, .word 6, .word 7, .word 8]]),
          (2, [.list [], .val (.str [33]), .list [],
               .list [.word 9, .word 9, .word 9, .word 9]])] := by decide +kernel

/-- Asking for `ys` alone, or for the count and then a slice, is fine. -/
example : SelOK exVars [[121, 115]] ∧ SelOK exVars [[110], [120, 115]] := by
  constructor
  · intro k s hk
    match k with
    | 0 => simp at hk; subst hk
           exact ⟨⟨[121, 115], .bool, .sli [110]⟩, by decide, rfl, fun c hc hm => by
             cases hc; exact absurd hm (by decide)⟩
    | k + 1 => simp at hk
  · intro k s hk
    match k with
    | 0 => simp at hk; subst hk
           exact ⟨⟨[110], .u8, .val⟩, by decide, rfl, fun c hc _ => by simp at hc⟩
    | 1 => simp at hk; subst hk
           exact ⟨⟨[120, 115], .i16, .sli [110]⟩, by decide, rfl, fun c hc _ => by cases hc; decide⟩
    | k + 2 => simp at hk

/-! ## What is not read back -/

/-- A `uint8` count and a slice. -/
def cntVars : List Var := [⟨[110], .u8, .val⟩, ⟨[120, 115], .i16, .sli [110]⟩]

/-- **Not so for large counts.**  A count of type `uint8` is taken for a signed number: writing a
slice of 128 to 255 elements panics, whatever the elements. -/
theorem C145_unsigned_count_counterexample (k : Nat) (h1 : 128 ≤ k) (h2 : k < 256)
    (es : List Elem) (ls : List WLeaf) (hl : newLeaves [] cntVars = some ls) :
    writeRows ls [[.val (.word k), .list es]] = none := by
  have hls : ls = [⟨[110], [110], .u8, 1, none, true, 0⟩,
      ⟨[120, 115], [120, 115, 91, 110, 93], .i16, 1, some 0, false, 0⟩] := by
    have : newLeaves [] cntVars = some [⟨[110], [110], .u8, 1, none, true, 0⟩,
      ⟨[120, 115], [120, 115, 91, 110, 93], .i16, 1, some 0, false, 0⟩] := by decide
    rw [this] at hl; cases hl; rfl
  subst hls
  have hs : signed 1 k = (k : Int) - 256 := by
    unfold signed; rw [if_neg (by omega)]; rfl
  simp only [writeRows, writeFrom, List.getElem?_cons_zero, writeLeaf, if_true, WLeaf.bump,
    Ty.counts, Ty.width, hs, List.set_cons_zero, List.getElem?_cons_succ, countOf]
  have hneg : ¬ (0 : Int) < (k : Int) - 256 := by omega
  have hneg' : ¬ (0 : Int) ≤ ((1 : Nat) : Int) * ((k : Int) - 256) := by omega
  simp only [hneg, hneg', if_false, false_and, Bool.false_eq_true]

/-- The same count is fine up to 127: the slice comes with all its elements. -/
example : ((newLeaves [] cntVars).bind fun ls =>
    writeRows ls [[.val (.word 2), .list [.word 1, .word 2]]]).map (·.1) =
    some [[[2], [0, 1, 0, 2]]] := by decide

/-- **Not so in every order.**  Asking for a slice before its count panics, although every
variable is in the tree. -/
theorem C145_order_counterexample (ls : List WLeaf) (hl : newLeaves [] cntVars = some ls)
    (f : File) (ts : List Tables) (beg fin : Nat) :
    readVars f (descs ls) ts [[120, 115], [110]] beg fin = none := by
  have hls : newLeaves [] cntVars = some [⟨[110], [110], .u8, 1, none, true, 0⟩,
      ⟨[120, 115], [120, 115, 91, 110, 93], .i16, 1, some 0, false, 0⟩] := by decide
  rw [hls] at hl; cases hl
  have : newRLeaves (descs [⟨[110], [110], .u8, 1, none, true, 0⟩,
      ⟨[120, 115], [120, 115, 91, 110, 93], .i16, 1, some 0, false, 0⟩]) []
      (withCounts (descs [⟨[110], [110], .u8, 1, none, true, 0⟩,
      ⟨[120, 115], [120, 115, 91, 110, 93], .i16, 1, some 0, false, 0⟩]) [[120, 115], [110]]) =
      none := by decide
  unfold readVars
  rw [this]

/-- **Not so for arrays of one.**  An array of one element is read as that element, not as an
array. -/
theorem C145_one_array_counterexample (t : Ty) (e : Elem) (he : ElemOK t e) (b : Name) :
    ∃ l d, newLeaf [] ⟨b, t, .arr [1]⟩ = some l ∧ newRLeaf [(l.desc [l]).read] [] (b, false) = some d ∧
      ∀ old rest, readLeaf [d] [old] d old (writeElems t [e] ++ rest) = some (.val e) := by
  refine ⟨_, ⟨b, t, .val, 1, none⟩, rfl, ?_, ?_⟩
  · simp [newRLeaf, WLeaf.desc, Desc.read, Desc.form]
  · intro old rest
    simp only [readLeaf]
    rw [show writeElems t [e] = writeElem t e by simp [writeElems], readElem_write t e he]
    rfl

/-- **Not so for arrays of strings.**  Of an array of two strings only the first is read. -/
theorem C145_strings_counterexample (a b : Bytes) (ha : ElemOK .str (.str a))
    (nm : Name) (hn : 91 ∉ nm) :
    ∃ l d, newLeaf [] ⟨nm, .str, .arr [2]⟩ = some l ∧
      newRLeaf [(l.desc [l]).read] [] (nm, false) = some d ∧
      ∀ x rest, readLeaf [d] [.val (.str x)] d (.val (.str x))
        (writeElems .str [.str a, .str b] ++ rest) = some (.val (.str a)) := by
  refine ⟨_, ⟨nm, .str, .one, 2, none⟩, rfl, ?_, ?_⟩
  · have hd := leafDims_title nm [2] hn
    simp [newRLeaf, WLeaf.desc, Desc.read, Desc.form, hd]
  · intro x rest
    simp only [readLeaf, Value.elems]
    rw [readArray_write .str [.str x] [.str a] _ rfl
      (fun y hy => by simp at hy; subst hy; exact ha)
      (by rw [writeElems_cons, writeElems_cons, List.append_assoc]
          exact List.prefix_append_right_inj _ |>.mpr (List.nil_prefix))]
    rfl

/-- **Not so for strings starting with a zero byte.**  They are read as the empty string. -/
theorem C145_nul_counterexample (s rest : Bytes) (hs : s.length < 254) :
    readElem .str (writeElem .str (.str (0 :: s)) ++ rest) = some (.str [], s ++ rest) := by
  simp only [writeElem, writeString, List.length_cons]
  rw [if_pos (by omega)]
  have hne : UInt8.ofNat (s.length + 1) ≠ 255 := by
    intro hc
    have := congrArg UInt8.toNat hc
    simp at this
    omega
  simp only [readElem, List.cons_append, readString]
  rw [if_neg hne, show (UInt8.ofNat (s.length + 1)).toNat = s.length + 1 by simp; omega]
  simp [readBody]

end Verif.RTree.Leaf
