import Verif.Lcio.EventSpec

/-!
# Linking particles

The loops of `LinkSio` give every particle the children of the specification.
-/

namespace Verif.Lcio

/-- All the changes for pairs of a parent and a child. -/
def addAll (ps : List (Ref × Ref)) (h : List (Coll (Option Ref))) : List (Coll (Option Ref)) :=
  ps.foldl (fun h p => onRef (McPart.addKid p.2) p.1 h) h

/-- More children for the particles of a collection. -/
def Coll.plus (f : Nat → List (Option Ref)) : Coll (Option Ref) → Coll (Option Ref)
  | .mc c => .mc { c with elems := c.elems.mapIdx fun i m => { m with children := m.children ++ f i } }
  | c => c

/-- The children that pairs have for a parent. -/
def kidsOf (ps : List (Ref × Ref)) (k : Ref) : List (Option Ref) := (ps.filter fun p => p.1 = k).map fun p => some p.2

theorem Coll.plus_nil (c : Coll (Option Ref)) : c.plus (fun _ => []) = c := by
  cases c with
  | mc c =>
    simp only [Coll.plus, List.append_nil]
    have : (fun (_ : Nat) (m : McPart (Option Ref)) => { m with children := m.children }) = fun _ m => m := rfl
    rw [this]
    congr 2
    exact List.ext_getElem? fun i => by rw [List.getElem?_mapIdx]; cases c.elems[i]? <;> rfl
  | _ => rfl

theorem Coll.plus_plus (f g : Nat → List (Option Ref)) (c : Coll (Option Ref)) : (c.plus f).plus g = c.plus fun i => f i ++ g i := by
  cases c with
  | mc c => simp [Coll.plus, List.mapIdx_mapIdx, Function.comp_def]
  | _ => rfl

theorem onMc_plus (kid : Ref) (i : Nat) (c : Coll (Option Ref)) :
    c.onMc (McPart.addKid kid) i = c.plus fun j => if j = i then [some kid] else [] := by
  cases c with
  | mc c =>
    simp only [Coll.onMc, Coll.plus]
    congr 2
    refine List.ext_getElem? fun j => ?_
    rw [List.getElem?_modify, List.getElem?_mapIdx]
    cases c.elems[j]? with
    | none => simp
    | some m =>
      by_cases h : i = j
      · subst h; simp [McPart.addKid]
      · simp [h, Ne.symm h]
  | _ => rfl

theorem onRef_plus (mom kid : Ref) (h : List (Coll (Option Ref))) :
    onRef (McPart.addKid kid) mom h = h.mapIdx fun b c => c.plus fun i => kidsOf [(mom, kid)] (.obj b i) := by
  refine List.ext_getElem? fun b => ?_
  rw [List.getElem?_mapIdx]
  cases mom with
  | obj b' i' =>
    simp only [onRef]
    rw [List.getElem?_modify]
    cases h[b]? with
    | none => simp
    | some c =>
      by_cases hb : b' = b
      · subst hb
        show some (if b' = b' then Coll.onMc (McPart.addKid kid) i' c else c) = some _
        rw [if_pos rfl, onMc_plus]
        congr 2
        funext i
        by_cases hi : i = i'
        · subst hi; simp [kidsOf]
        · simp [kidsOf, hi, Ne.symm hi]
      · simp [kidsOf, hb, Coll.plus_nil]
  | sub a b c => simp [onRef, kidsOf, Coll.plus_nil]
  | other n => simp [onRef, kidsOf, Coll.plus_nil]
  | nil n => simp [onRef, kidsOf, Coll.plus_nil]

theorem kidsOf_append (a b : List (Ref × Ref)) (k : Ref) : kidsOf (a ++ b) k = kidsOf a k ++ kidsOf b k := by
  simp [kidsOf]

theorem addAll_plus (ps : List (Ref × Ref)) (h : List (Coll (Option Ref))) :
    addAll ps h = h.mapIdx fun b c => c.plus fun i => kidsOf ps (.obj b i) := by
  induction ps generalizing h with
  | nil =>
    refine List.ext_getElem? fun b => ?_
    rw [List.getElem?_mapIdx]
    cases h' : h[b]? with
    | none => simpa [addAll] using h'
    | some c => simpa [addAll, kidsOf, Coll.plus_nil] using h'
  | cons p ps ih =>
    show addAll ps (onRef (McPart.addKid p.2) p.1 h) = _
    rw [ih, onRef_plus, List.mapIdx_mapIdx]
    congr 1
    funext b c
    simp only [Function.comp]
    rw [Coll.plus_plus]
    congr 1
    funext i
    rw [← kidsOf_append]; rfl

theorem addAll_append (a b : List (Ref × Ref)) (h : List (Coll (Option Ref))) : addAll (a ++ b) h = addAll b (addAll a h) := by
  simp [addAll]

/-- The pairs of a collection. -/
def Coll.moms (b : Nat) (c : Coll (Option Ref)) : List (Ref × Ref) := pairsFrom b (·.parents) 0 c.particles

theorem pairsFrom_plus (b i j : Nat) (f : Nat → List (Option Ref)) (l : List (McPart (Option Ref))) :
    pairsFrom b (·.parents) i (l.mapIdx fun n m => { m with children := m.children ++ f (n + j) }) = pairsFrom b (·.parents) i l := by
  induction l generalizing i j with
  | nil => rfl
  | cons m l ih =>
    rw [List.mapIdx_cons]
    simp only [pairsFrom]
    congr 1
    rw [← ih (i + 1) (j + 1)]
    congr 2
    funext n m
    rw [show n + (j + 1) = n + 1 + j by omega]

theorem Coll.moms_plus (b : Nat) (f : Nat → List (Option Ref)) (c : Coll (Option Ref)) : (c.plus f).moms b = c.moms b := by
  cases c with
  | mc c => exact pairsFrom_plus b 0 0 f c.elems
  | _ => rfl

/-- One block is linked. -/
theorem linkOne_eq (conn : List (Str × Nat)) (h : List (Coll (Option Ref))) (x : Sio.Bytes × Nat) (b : Nat) (c : Coll (Option Ref))
    (h1 : conn.lookup x.1 = some b) (h2 : h[b]? = some c) (hv : 8 < x.2) : linkOne conn h x = addAll (c.moms b) h := by
  unfold linkOne
  rw [h1]
  simp only []
  rw [h2]
  cases c with
  | mc c =>
    simp only [linkMc]
    rw [if_neg (by omega)]
    rfl
  | _ => rfl

/-- All blocks are linked. -/
theorem link_all (conn : List (Str × Nat)) (seen : List (Sio.Bytes × Nat)) (b : Nat) (P : Nat → List (Ref × Ref)) (h : List (Coll (Option Ref)))
    (hv : ∀ x ∈ seen, 8 < x.2) (hc : ∀ j x, seen[j]? = some x → conn.lookup x.1 = some (b + j))
    (hP : ∀ j, j < seen.length → ∃ c, h[b + j]? = some c ∧ c.moms (b + j) = P (b + j)) :
    seen.foldl (linkOne conn) h = addAll ((List.range' b seen.length).flatMap P) h := by
  induction seen generalizing b h with
  | nil => rfl
  | cons x seen ih =>
    obtain ⟨c, h1, h2⟩ := hP 0 (by simp)
    rw [List.foldl_cons, linkOne_eq conn h x b c (by simpa using hc 0 x rfl) h1 (hv x (List.mem_cons_self ..))]
    rw [List.length_cons, List.range'_succ, List.flatMap_cons, addAll_append]
    rw [show c.moms b = P b from h2]
    refine ih (b + 1) _ (fun y hy => hv y (List.mem_cons_of_mem _ hy)) ?_ ?_
    · intro j y hj
      rw [show b + 1 + j = b + (j + 1) by omega]
      exact hc (j + 1) y (by simpa using hj)
    · intro j hj
      obtain ⟨c, g1, g2⟩ := hP (j + 1) (by simpa using hj)
      rw [show b + 1 + j = b + (j + 1) by omega]
      refine ⟨_, ?_, (Coll.moms_plus _ (fun i => kidsOf (P b) (.obj (b + (j + 1)) i)) c).trans g2⟩
      rw [addAll_plus, List.getElem?_mapIdx, g1]
      rfl

theorem kidsOf_pairs (b i : Nat) (k : Ref) (l : List (McPart (Option Ref))) :
    kidsOf (pairsFrom b (·.parents) i l) k =
      (l.zipIdx i).flatMap fun m => (m.1.parents.filter fun r => r = some k).map fun _ => some (.obj b m.2) := by
  induction l generalizing i with
  | nil => rfl
  | cons m l ih =>
    rw [pairsFrom, kidsOf_append, ih, List.zipIdx_cons, List.flatMap_cons]
    congr 1
    induction m.parents with
    | nil => rfl
    | cons r rs ih2 =>
      cases r with
      | none =>
        rw [List.filterMap_cons_none rfl, ih2, List.filter_cons_of_neg (by simp)]
      | some k' =>
        rw [List.filterMap_cons_some (f := fun r => Option.map (fun k => (k, Ref.obj b i)) r) (b := (k', Ref.obj b i)) rfl]
        by_cases hk : k' = k
        · subst hk
          rw [List.filter_cons_of_pos (by simp), List.map_cons, ← ih2]
          simp [kidsOf]
        · rw [List.filter_cons_of_neg (by simpa using hk), ← ih2]
          simp [kidsOf, hk]

theorem kidsOf_all (cs : List (Coll (Option Ref))) (k : Ref) (b : Nat) (P : Nat → List (Ref × Ref))
    (hP : ∀ j c, cs[j]? = some c → P (b + j) = c.moms (b + j)) :
    kidsOf ((List.range' b cs.length).flatMap P) k = (cs.zipIdx b).flatMap fun c => c.1.particles.zipIdx.flatMap fun m =>
      (m.1.parents.filter fun r => r = some k).map fun _ => some (.obj c.2 m.2) := by
  induction cs generalizing b with
  | nil => rfl
  | cons c cs ih =>
    rw [List.length_cons, List.range'_succ, List.flatMap_cons, kidsOf_append, List.zipIdx_cons, List.flatMap_cons,
      ih (b + 1) fun j c' h => by
        rw [show b + 1 + j = b + (j + 1) by omega]; exact hP (j + 1) c' (by simpa using h)]
    congr 1
    rw [show P b = c.moms b from hP 0 c rfl]
    exact kidsOf_pairs b 0 k c.particles

/-- No particle has children yet. -/
def NoKids (c : Coll (Option Ref)) : Prop := ∀ m ∈ c.particles, m.children = []

/-- After linking, every particle has its children. -/
theorem link_children (conn : List (Str × Nat)) (seen : List (Sio.Bytes × Nat)) (cs : List (Coll (Option Ref)))
    (hl : seen.length = cs.length) (hn : ∀ c ∈ cs, NoKids c)
    (hv : ∀ x ∈ seen, 8 < x.2) (hc : ∀ j x, seen[j]? = some x → conn.lookup x.1 = some j) :
    seen.foldl (linkOne conn) cs = cs.mapIdx fun b c => c.withChildren cs b := by
  rw [link_all conn seen 0 (fun j => ((cs[j]?).map (Coll.moms j)).getD []) cs hv (by simpa using hc)]
  · rw [addAll_plus]
    refine List.ext_getElem? fun b => ?_
    rw [List.getElem?_mapIdx, List.getElem?_mapIdx]
    cases hb : cs[b]? with
    | none => rfl
    | some c =>
      simp only [Option.map_some, Option.some.injEq]
      have hno := hn c (List.mem_of_getElem? hb)
      cases c with
      | mc c =>
        simp only [Coll.plus, Coll.withChildren]
        congr 2
        refine List.ext_getElem? fun i => ?_
        rw [List.getElem?_mapIdx, List.getElem?_mapIdx]
        cases hi : c.elems[i]? with
        | none => rfl
        | some m =>
          simp only [Option.map_some, Option.some.injEq]
          rw [hno m (List.mem_of_getElem? hi), List.nil_append, hl, kidsOf_all]
          · rfl
          · intro j c hj
            simp [hj]
      | _ => rfl
  · intro j hj
    refine ⟨cs[j]'(by omega), by simp, ?_⟩
    simp [List.getElem?_eq_getElem (show j < cs.length by omega)]

end Verif.Lcio
