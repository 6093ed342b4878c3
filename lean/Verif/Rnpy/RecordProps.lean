import Verif.Rnpy.Record
import Mathlib.Tactic.Ring
import Mathlib.Data.List.Forall2
import Mathlib.Algebra.BigOperators.Group.List.Basic

/-! # Which elements of a NumPy array are in which row (C159) -/

namespace Verif.Rnpy

variable {V : Type}

/-! ### Specification -/

/-- An index into an array of a shape. -/
def Valid (shape idx : List Nat) : Prop := List.Forall₂ (fun d i => i < d) shape idx

/-- The place of an element in a file in the order of C: the last index runs fastest. -/
def cPlace : List Nat → List Nat → Nat
  | _ :: ds, i :: is => i * ds.prod + cPlace ds is
  | _, _ => 0

/-- The place of an element in a file in the order of Fortran: the first index runs fastest. -/
def fPlace : List Nat → List Nat → Nat
  | d :: ds, i :: is => i + d * fPlace ds is
  | _, _ => 0

/-- The file holds the array `a`. -/
def Holds (place : List Nat → List Nat → Nat) (shape : List Nat) (a : List Nat → V) (file : List V) : Prop :=
  file.length = shape.prod ∧ ∀ idx, Valid shape idx → file[place shape idx]? = some (a idx)

/-- An element of nested lists. -/
def Val.at : List Nat → Val V → Option V
  | [], .elem v => some v
  | i :: is, .list l => (l[i]?).bind (Val.at is)
  | _, _ => none

/-- The value in row `i`, at the indices which follow. -/
def rowAt (rows : List (Val V)) : List Nat → Option V
  | [] => none
  | i :: is => (rows[i]?).bind (Val.at is)

/-! ### The type of the column -/

/-- Lists of these sizes, the first one outermost. -/
def nested : List Nat → DT
  | [] => .elem
  | d :: ds => .list d (nested ds)

theorem nest_eq (d : Nat) (ds : List Nat) : nest (d :: ds) = nested ds := by
  have key : ∀ k, k ≤ ds.length → (List.range k).foldl (fun dt i => DT.list ((d :: ds).getD (ds.length - i) 0) dt) .elem =
      nested (ds.drop (ds.length - k)) := by
    intro k
    induction k with
    | zero => intro _; simp [nested]
    | succ k ih =>
      intro hk
      rw [List.range_succ, List.foldl_append, ih (by omega)]
      simp only [List.foldl_cons, List.foldl_nil]
      have e : ds.length - k = (ds.length - (k + 1)) + 1 := by omega
      have hlt : ds.length - (k + 1) < ds.length := by omega
      rw [List.drop_eq_getElem_cons hlt, nested]
      congr 1
      · rw [e, List.getD_cons_succ, List.getD_eq_getElem?_getD, List.getElem?_eq_getElem hlt, Option.getD_some]
      · rw [e]
  have := key ds.length le_rfl
  simpa [nest] using this

theorem schema_eq (d : Nat) (ds : List Nat) (h : ds.length ≤ 4) : schemaFrom (d :: ds) = some (nested ds) := by
  simp only [schemaFrom, List.length_cons]
  cases ds with
  | nil => simp [nested]
  | cons e es =>
    cases es with
    | nil => simp [nested]
    | cons f fs =>
      simp only [List.length_cons] at h ⊢
      rw [if_neg (by omega), if_neg (by omega), if_pos (by omega), nest_eq]

theorem nelem_eq (shape : List Nat) : nelem shape = shape.prod := by
  have : ∀ k, shape.foldl (· * ·) k = k * shape.prod := by
    induction shape with
    | nil => intro k; simp
    | cons d ds ih => intro k; simp [ih, Nat.mul_assoc]
  simp [nelem, this]

/-! ### The rows -/

theorem times_spec {f : List V → Option (Val V × List V)} {p : Nat} {is : List Nat} {k : Nat}
    (hf : ∀ ch, p ≤ ch.length → ∃ v, f ch = some (v, ch.drop p) ∧ (Val.at is v = ch[k]?)) (n : Nat) (ch : List V)
    (h : n * p ≤ ch.length) : ∃ vs, times f n ch = some (vs, ch.drop (n * p)) ∧ vs.length = n ∧
      ∀ i, i < n → (vs[i]?).bind (Val.at is) = ch[i * p + k]? := by
  induction n generalizing ch with
  | zero => exact ⟨[], by simp [times], rfl, fun i hi => absurd hi (by omega)⟩
  | succ n ih =>
    have e : (n + 1) * p = n * p + p := by ring
    obtain ⟨v, h1, h2⟩ := hf ch (by omega)
    obtain ⟨vs, h3, h4, h5⟩ := ih (ch.drop p) (by simp; omega)
    refine ⟨v :: vs, ?_, by simp [h4], ?_⟩
    · simp only [times, h1, Option.bind_some, h3, Option.map_some, List.drop_drop, Option.some.injEq, Prod.mk.injEq, true_and]
      congr 1
      omega
    · intro i hi
      cases i with
      | zero => simp [h2]
      | succ i =>
        simp only [List.getElem?_cons_succ]
        rw [h5 i (by omega), List.getElem?_drop]
        congr 1
        ring

theorem times_total {f : List V → Option (Val V × List V)} {p : Nat}
    (hf : ∀ ch, p ≤ ch.length → ∃ v, f ch = some (v, ch.drop p)) (n : Nat) (ch : List V)
    (h : n * p ≤ ch.length) : ∃ vs, times f n ch = some (vs, ch.drop (n * p)) ∧ vs.length = n := by
  induction n generalizing ch with
  | zero => exact ⟨[], by simp [times], rfl⟩
  | succ n ih =>
    have e : (n + 1) * p = n * p + p := by ring
    obtain ⟨v, h1⟩ := hf ch (by omega)
    obtain ⟨vs, h3, h4⟩ := ih (ch.drop p) (by simp; omega)
    refine ⟨v :: vs, ?_, by simp [h4]⟩
    simp only [times, h1, Option.bind_some, h3, Option.map_some, List.drop_drop, Option.some.injEq, Prod.mk.injEq, true_and]
    congr 1
    omega

theorem append_total (ds : List Nat) : ∀ ch : List V, ds.prod ≤ ch.length →
    ∃ v, appendData (nested ds) ch = some (v, ch.drop ds.prod) := by
  induction ds with
  | nil =>
    intro ch h
    cases ch with
    | nil => simp at h
    | cons v ch => exact ⟨_, rfl⟩
  | cons d ds ih =>
    intro ch h
    rw [List.prod_cons] at h
    obtain ⟨vs, h1, h2⟩ := times_total ih d ch h
    exact ⟨.list vs, by simp [nested, appendData, h1]⟩

theorem append_spec {ds is : List Nat} (h : Valid ds is) : ∀ ch : List V, ds.prod ≤ ch.length →
    ∃ v, appendData (nested ds) ch = some (v, ch.drop ds.prod) ∧ Val.at is v = ch[cPlace ds is]? := by
  induction h with
  | nil =>
    intro ch h
    cases ch with
    | nil => simp at h
    | cons v ch => exact ⟨_, rfl, rfl⟩
  | @cons d i ds is hi hv ih =>
    intro ch h
    rw [List.prod_cons] at h
    obtain ⟨vs, h1, h2, h3⟩ := times_spec ih d ch h
    exact ⟨.list vs, by simp [nested, appendData, h1], h3 i hi⟩

/-- The rows of a record, by the shape used. -/
theorem record_spec (d : Nat) (ds : List Nat) (file : List V) (hl : file.length = (d :: ds).prod) :
    ∃ rows, (times (appendData (nested ds)) d (file.take (d :: ds).prod)).map Prod.fst = some rows ∧ rows.length = d ∧
      ∀ idx, Valid (d :: ds) idx → rowAt rows idx = file[cPlace (d :: ds) idx]? := by
  have ht : file.take (d :: ds).prod = file := List.take_of_length_le (by omega)
  rw [ht]
  have hle : d * ds.prod ≤ file.length := by rw [hl]; simp
  obtain ⟨vs, h1, h2⟩ := times_total (append_total ds) d file hle
  refine ⟨vs, by simp [h1], h2, ?_⟩
  intro idx hidx
  cases hidx with
  | @cons _ i _ is hi hv =>
    obtain ⟨ws, k1, k2, k3⟩ := times_spec (append_spec hv) d file hle
    rw [h1] at k1
    obtain rfl := (Prod.mk.inj (Option.some.inj k1)).1
    exact k3 i hi

/-- **C159 (partial).** A NumPy array of one to five dimensions in the order of C becomes a record with one row for each value of the
first index, and row `i` holds the elements `a[i, ...]` at the other indices. Missing: arrays in the order of Fortran
(`C159_fortran`, `C159_fortran_counterexample`). -/
theorem C159_rows_partial (d : Nat) (ds : List Nat) (h4 : ds.length ≤ 4) (a : List Nat → V) (file : List V)
    (h : Holds cPlace (d :: ds) a file) :
    ∃ rows, newRecord false (d :: ds) file = some rows ∧ rows.length = d ∧
      ∀ idx, Valid (d :: ds) idx → rowAt rows idx = some (a idx) := by
  obtain ⟨rows, h1, h2, h3⟩ := record_spec d ds file h.1
  refine ⟨rows, ?_, h2, fun idx hi => by rw [h3 idx hi, h.2 idx hi]⟩
  simp only [newRecord, shapeOf, Bool.false_eq_true, if_false, schema_eq d ds h4, nelem_eq, h.1, lt_irrefl]
  rw [← h1]
  simp

/-! ### The order of Fortran -/

theorem cPlace_append (ds : List Nat) (is : List Nat) (hl : ds.length = is.length) (e j : Nat) :
    cPlace (ds ++ [e]) (is ++ [j]) = cPlace ds is * e + j := by
  induction ds generalizing is with
  | nil =>
    cases is with
    | nil => simp [cPlace]
    | cons i is => simp at hl
  | cons d ds ih =>
    cases is with
    | nil => simp at hl
    | cons i is =>
      simp only [List.cons_append, cPlace]
      rw [ih is (by simpa using hl), List.prod_append, List.prod_singleton]
      ring

theorem place_reverse (ds is : List Nat) (hl : ds.length = is.length) :
    cPlace ds.reverse is.reverse = fPlace ds is := by
  induction ds generalizing is with
  | nil =>
    cases is with
    | nil => rfl
    | cons i is => simp at hl
  | cons d ds ih =>
    cases is with
    | nil => simp at hl
    | cons i is =>
      have hl' : ds.length = is.length := by simpa using hl
      rw [List.reverse_cons, List.reverse_cons, cPlace_append _ _ (by simp [hl']), ih is hl', fPlace]
      ring

theorem valid_reverse {ds is : List Nat} (h : Valid ds is) : Valid ds.reverse is.reverse :=
  List.rel_reverse h

/-- **C159, Fortran.** A NumPy array in the order of Fortran becomes a record with one row for each value of the *last* index: it is
the transposed array. -/
theorem C159_fortran (shape : List Nat) (h1 : shape ≠ []) (h5 : shape.length ≤ 5) (a : List Nat → V) (file : List V)
    (h : Holds fPlace shape a file) :
    ∃ rows, newRecord true shape file = some rows ∧ some rows.length = shape.getLast? ∧
      ∀ idx, Valid shape idx → rowAt rows idx.reverse = some (a idx) := by
  obtain ⟨d, ds, hr⟩ : ∃ d ds, shape.reverse = d :: ds := by
    cases hs : shape.reverse with
    | nil => exact absurd (List.reverse_eq_nil_iff.1 hs) h1
    | cons d ds => exact ⟨d, ds, rfl⟩
  have hprod : (d :: ds).prod = shape.prod := by rw [← hr]; exact List.prod_reverse shape
  have h4 : ds.length ≤ 4 := by
    have : (d :: ds).length = shape.length := by rw [← hr]; simp
    simp only [List.length_cons] at this
    omega
  obtain ⟨rows, k1, k2, k3⟩ := record_spec d ds file (by rw [hprod]; exact h.1)
  refine ⟨rows, ?_, ?_, ?_⟩
  · simp only [newRecord, shapeOf, if_true, hr, schema_eq d ds h4, nelem_eq, hprod, h.1, lt_irrefl, if_false]
    rw [← k1, hprod]
    simp
  · rw [k2, List.getLast?_eq_head?_reverse, hr]
    rfl
  · intro idx hi
    have hl : shape.length = idx.length := List.Forall₂.length_eq hi
    rw [k3 idx.reverse (by rw [← hr]; exact valid_reverse hi), ← hr, place_reverse shape idx hl, h.2 idx hi]

/-- **C159, dimensions.** No array and no array of more than five dimensions becomes a record: a panic. -/
theorem C159_dims (fortran : Bool) (shape : List Nat) (file : List V) (h : shape.length = 0 ∨ 5 < shape.length) :
    newRecord fortran shape file = none := by
  have hl : (shapeOf fortran shape).length = shape.length := by cases fortran <;> simp [shapeOf]
  have : schemaFrom (shapeOf fortran shape) = none := by
    simp only [schemaFrom, hl]
    rw [if_neg (by omega), if_neg (by omega), if_neg (by omega)]
  simp [newRecord, this]

/-! ### Examples -/

/-- The array of two rows and three columns with elements `10 i + j`. -/
def arr : List Nat → Nat
  | [i, j] => 10 * i + j
  | _ => 0

theorem valid23 {idx : List Nat} (h : Valid [2, 3] idx) : ∃ i j, idx = [i, j] ∧ i < 2 ∧ j < 3 := by
  cases h with
  | cons h1 h =>
    cases h with
    | cons h2 h =>
      cases h
      exact ⟨_, _, rfl, h1, h2⟩

theorem arr_c : Holds cPlace [2, 3] arr [0, 1, 2, 10, 11, 12] := by
  refine ⟨rfl, fun idx h => ?_⟩
  obtain ⟨i, j, rfl, hi, hj⟩ := valid23 h
  rcases (show i = 0 ∨ i = 1 by omega) with rfl | rfl <;> rcases (show j = 0 ∨ j = 1 ∨ j = 2 by omega) with rfl | rfl | rfl <;> rfl

theorem arr_f : Holds fPlace [2, 3] arr [0, 10, 1, 11, 2, 12] := by
  refine ⟨rfl, fun idx h => ?_⟩
  obtain ⟨i, j, rfl, hi, hj⟩ := valid23 h
  rcases (show i = 0 ∨ i = 1 by omega) with rfl | rfl <;> rcases (show j = 0 ∨ j = 1 ∨ j = 2 by omega) with rfl | rfl | rfl <;> rfl

example : Holds cPlace [2, 3] arr [0, 1, 2, 10, 11, 12] ∧ Valid [2, 3] [1, 2] ∧
    (newRecord false [2, 3] [0, 1, 2, 10, 11, 12]).bind (rowAt · [1, 2]) = some 12 :=
  ⟨arr_c, .cons (by decide) (.cons (by decide) .nil), rfl⟩

/-- **C159, counterexample.** The same array of two rows, stored in the order of Fortran, becomes a record with three rows. -/
theorem C159_fortran_counterexample : Holds fPlace [2, 3] arr [0, 10, 1, 11, 2, 12] ∧
    ∃ rows, newRecord true [2, 3] [0, 10, 1, 11, 2, 12] = some rows ∧ rows.length = 3 ∧ rowAt rows [0, 1] = some (arr [1, 0]) ∧
      rowAt rows [0, 1] ≠ some (arr [0, 1]) := by
  refine ⟨arr_f, _, rfl, rfl, rfl, by decide⟩

end Verif.Rnpy
