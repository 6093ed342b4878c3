import Verif.Fads.Select
import Mathlib.Algebra.Order.Field.Rat
import Mathlib.Algebra.Field.Rat

/-!
# C150: Overlaps, merging, efficiencies and unique objects
-/

namespace Verif.Fads

/-! ## Specification -/

mutual
/-- The addresses of a candidate and of everything it consists of. -/
def addrs {K : Type} : Cand K → List Nat
  | .mk a _ s => a :: addrsL s
def addrsL {K : Type} : List (Cand K) → List Nat
  | [] => []
  | c :: cs => addrs c ++ addrsL cs
end

/-- Two candidates have something in common. -/
def Common {K : Type} (c o : Cand K) : Prop := ∃ a, a ∈ addrs c ∧ a ∈ addrs o

instance {K : Type} (c o : Cand K) : Decidable (Common c o) :=
  decidable_of_iff ((addrs c).any (fun a => (addrs o).contains a) = true) (by
    simp [Common])

/-- A candidate of a collection that has nothing in common with the collections before it. -/
def Unseen {K : Type} (before : List (List (Cand K))) (c : Cand K) : Prop :=
  ∀ coll ∈ before, ∀ o ∈ coll, ¬ Common c o

/-! ## Overlaps -/

section

variable {K : Type}

theorem mem_addrsL {a : Nat} : ∀ {s : List (Cand K)}, a ∈ addrsL s ↔ ∃ c ∈ s, a ∈ addrs c
  | [] => by simp [addrsL]
  | c :: cs => by simp [addrsL, mem_addrsL (s := cs)]

theorem mem_addrs {a : Nat} {c : Cand K} : a ∈ addrs c ↔ a = c.addr ∨ ∃ d ∈ c.subs, a ∈ addrs d := by
  cases c with
  | mk b o s => simp [addrs, Cand.addr, Cand.subs, mem_addrsL]

theorem height_le : ∀ {s : List (Cand K)} {c : Cand K}, c ∈ s → c.height ≤ Cand.heightL s
  | [], _, h => by simp at h
  | d :: ds, c, h => by
    rcases List.mem_cons.mp h with rfl | h
    · simp [Cand.heightL]
    · have := height_le h
      simp only [Cand.heightL]
      omega

theorem height_lt {c d : Cand K} (h : d ∈ c.subs) : d.height < c.height := by
  cases c with
  | mk a o s =>
    have := height_le (s := s) h
    simp only [Cand.height]
    omega

theorem common_symm {c o : Cand K} : Common c o ↔ Common o c := by
  constructor <;> rintro ⟨a, h1, h2⟩ <;> exact ⟨a, h2, h1⟩

theorem overlapsN_iff : ∀ (n : Nat) (c o : Cand K), c.height + o.height ≤ n →
    (c.overlapsN n o = true ↔ Common c o) := by
  intro n
  induction n with
  | zero =>
    intro c o h
    cases c with
    | mk a ob s => simp [Cand.height] at h
  | succ n ih =>
    intro c o h
    have hc : ∀ d ∈ c.subs, (d.overlapsN n o = true ↔ Common d o) := fun d hd =>
      ih d o (by have := height_lt hd; omega)
    have ho : ∀ d ∈ o.subs, (d.overlapsN n c = true ↔ Common d c) := fun d hd =>
      ih d c (by have := height_lt hd; omega)
    simp only [Cand.overlapsN, Bool.or_eq_true, List.any_eq_true, beq_iff_eq]
    constructor
    · rintro ((h1 | ⟨d, hd, h1⟩) | ⟨d, hd, h1⟩)
      · exact ⟨c.addr, mem_addrs.mpr (Or.inl rfl), mem_addrs.mpr (Or.inl h1)⟩
      · obtain ⟨a, ha, hb⟩ := (hc d hd).mp h1
        exact ⟨a, mem_addrs.mpr (Or.inr ⟨d, hd, ha⟩), hb⟩
      · obtain ⟨a, ha, hb⟩ := (ho d hd).mp h1
        exact ⟨a, hb, mem_addrs.mpr (Or.inr ⟨d, hd, ha⟩)⟩
    · rintro ⟨a, h1, h2⟩
      rcases mem_addrs.mp h1 with rfl | ⟨d, hd, h3⟩
      · rcases mem_addrs.mp h2 with h4 | ⟨d, hd, h4⟩
        · exact Or.inl (Or.inl h4)
        · exact Or.inr ⟨d, hd, (ho d hd).mpr ⟨_, h4, h1⟩⟩
      · exact Or.inl (Or.inr ⟨d, hd, (hc d hd).mpr ⟨_, h3, h2⟩⟩)

/-- **C150.**  Two candidates overlap exactly if they, or anything they consist of at any depth,
have an object in common; whichever of them is asked. -/
theorem C150_overlaps (c o : Cand K) :
    (c.overlaps o = true ↔ Common c o) ∧ c.overlaps o = o.overlaps c := by
  have h : ∀ c o : Cand K, (c.overlaps o = true ↔ Common c o) := fun c o =>
    overlapsN_iff _ c o (Nat.le_refl _)
  refine ⟨h c o, ?_⟩
  rw [Bool.eq_iff_iff, h c o, h o c]
  exact common_symm

theorem overlaps_iff (c o : Cand K) : c.overlaps o = true ↔ Common c o := (C150_overlaps c o).1

/-- **C150, copies.**  A clone of a candidate, of which the constituents are elementary, overlaps
neither the candidate nor anything else that existed before. -/
theorem C150_clone_counterexample (c o : Cand K) (base : Nat)
    (hleaf : ∀ d ∈ c.subs, d.subs = []) (hnew : ∀ a ∈ addrs o, a < base) :
    (c.clone base).overlaps o = false := by
  rw [Bool.eq_false_iff]
  intro h
  obtain ⟨a, h1, h2⟩ := (overlaps_iff _ _).mp h
  have hb := hnew a h2
  cases c with
  | mk b ob s =>
    simp only [Cand.clone] at h1
    rcases mem_addrs.mp h1 with rfl | ⟨d, hd, h3⟩
    · simp at hb
    · simp only [Cand.subs, List.mem_map] at hd
      obtain ⟨⟨e, i⟩, he, rfl⟩ := hd
      have he' : e ∈ s := by
        have := List.mem_zipIdx he
        rw [this.2.2]
        exact List.getElem_mem _
      have hs := hleaf e he'
      cases e with
      | mk x y z =>
        simp only [Cand.subs] at hs
        subst hs
        simp [Cand.copyAt, addrs, addrsL] at h3
        omega

/-! ## Unique objects -/

theorem foundBefore_iff (before : List (List (Cand K))) (c : Cand K) :
    foundBefore before c = true ↔ ¬ Unseen before c := by
  simp only [foundBefore, List.any_eq_true, overlaps_iff, Unseen]
  push Not
  rfl

theorem uniqueFrom_get : ∀ (colls before : List (List (Cand K))) (i : Nat) (coll : List (Cand K)),
    colls[i]? = some coll →
      (uniqueFrom before colls)[i]? = some (coll.filter (foundBefore (before ++ colls.take i)))
  | [], _, i, _, h => by simp at h
  | c :: cs, before, 0, coll, h => by
    simp only [List.getElem?_cons_zero, Option.some.injEq] at h
    subst h
    simp [uniqueFrom]
  | c :: cs, before, i + 1, coll, h => by
    rw [List.getElem?_cons_succ] at h
    simp only [uniqueFrom, List.getElem?_cons_succ]
    rw [uniqueFrom_get cs (before ++ [c]) i coll h]
    simp

theorem uniqueFrom_length : ∀ (colls before : List (List (Cand K))),
    (uniqueFrom before colls).length = colls.length
  | [], _ => rfl
  | _ :: cs, before => by simp [uniqueFrom, uniqueFrom_length cs]

/-- **C150, unique objects.**  The task should keep the candidates that have nothing in common with
those of the collections before theirs.  It keeps exactly the others: a candidate of an output
collection is one that was seen before, and every one that was seen before is there. -/
theorem C150_unique_counterexample (colls : List (List (Cand K))) :
    (unique colls).length = colls.length ∧
    ∀ (i : Nat) (coll : List (Cand K)), colls[i]? = some coll →
      ∃ out, (unique colls)[i]? = some out ∧ out.Sublist coll ∧
        ∀ c ∈ coll, (c ∈ out ↔ ¬ Unseen (colls.take i) c) := by
  refine ⟨uniqueFrom_length _ _, ?_⟩
  intro i coll h
  refine ⟨_, uniqueFrom_get colls [] i coll h, List.filter_sublist, ?_⟩
  intro c hc
  rw [List.nil_append, List.mem_filter, foundBefore_iff]
  exact ⟨fun h => h.2, fun h => ⟨hc, h⟩⟩

/-- **C150, the first collection.**  Nothing comes before the first collection, so that all of it is
unique; its output is always empty. -/
theorem C150_first_counterexample (coll : List (Cand K)) (colls : List (List (Cand K))) :
    (∀ c ∈ coll, Unseen ((coll :: colls).take 0) c) ∧ (unique (coll :: colls)).head? = some [] := by
  refine ⟨fun c _ => by simp [Unseen], ?_⟩
  simp [unique, uniqueFrom, foundBefore]

/-! ## Merging and efficiencies -/

variable [Field K] [LinearOrder K]

omit [LinearOrder K] in
theorem foldl_merge (pt : P4 K → K) : ∀ (l : List (Cand K)) (s : P4 K × K × K),
    l.foldl (mergeStep pt) s =
      (⟨s.1.px + (l.map fun c => c.obj.mom.px).sum, s.1.py + (l.map fun c => c.obj.mom.py).sum,
        s.1.pz + (l.map fun c => c.obj.mom.pz).sum, s.1.e + (l.map fun c => c.obj.mom.e).sum⟩,
       s.2.1 + (l.map fun c => pt c.obj.mom).sum, s.2.2 + (l.map fun c => c.obj.mom.e).sum)
  | [], s => by simp
  | c :: cs, s => by
    rw [List.foldl_cons, foldl_merge pt cs]
    simp [mergeStep, P4.add, add_assoc]

omit [LinearOrder K] in
theorem flatMap_somes (colls : List (List (Cand K))) :
    (colls.map some).flatMap (fun i => i.getD []) = colls.flatten := by
  induction colls with
  | nil => rfl
  | cons c cs ih => simp [ih]

/-- **C150, merging.**  The merged collection is the collections one after the other; the momentum is
the sum of all momenta, and the energy candidate carries the sums of transverse momenta and of
energies.  A collection that is missing is an error. -/
theorem C150_merge (pt : P4 K → K) (colls : List (List (Cand K))) :
    (∃ r, merge pt (colls.map some) = some r ∧ r.output = colls.flatten ∧
      r.mom = ⟨(colls.flatten.map fun c => c.obj.mom.px).sum,
               (colls.flatten.map fun c => c.obj.mom.py).sum,
               (colls.flatten.map fun c => c.obj.mom.pz).sum,
               (colls.flatten.map fun c => c.obj.mom.e).sum⟩ ∧
      r.ene = ⟨(colls.flatten.map fun c => pt c.obj.mom).sum, 0, 0,
               (colls.flatten.map fun c => c.obj.mom.e).sum⟩) ∧
    ∀ ins : List (Option (List (Cand K))), none ∈ ins → merge pt ins = none := by
  constructor
  · refine ⟨_, by simp only [merge]; rw [if_pos (by simp)], ?_, ?_, ?_⟩
    · exact flatMap_somes colls
    · rw [flatMap_somes, foldl_merge]
      simp
    · rw [flatMap_somes, foldl_merge]
      simp
  · intro ins h
    simp only [merge]
    rw [if_neg]
    simp only [List.all_eq_true, not_forall]
    exact ⟨none, h, by simp⟩

omit [Field K] in
/-- **C150, efficiencies.**  The output is the input without the candidates for which the random
number is above the efficiency at their transverse momentum and position: with an efficiency of one
nothing is lost, with a negative one nothing is left. -/
theorem C150_efficiency [Zero K] [One K] (pt : P4 K → K) (eff : K → K → K) (input : List (Cand K)) (rs : List K)
    (hlen : rs.length = input.length) :
    (efficiency pt eff input rs).Sublist input ∧
    (∀ (i : Nat) (c : Cand K) (r : K), input[i]? = some c → rs[i]? = some r →
      r ≤ eff (pt c.obj.mom) c.obj.poseta → c ∈ efficiency pt eff input rs) ∧
    (∀ c ∈ efficiency pt eff input rs, ∃ (i : Nat) (r : K), input[i]? = some c ∧ rs[i]? = some r ∧
      r ≤ eff (pt c.obj.mom) c.obj.poseta) ∧
    ((∀ x y, eff x y = 1) → (∀ r ∈ rs, 0 ≤ r ∧ r ≤ 1) → efficiency pt eff input rs = input) ∧
    ((∀ x y, eff x y < 0) → (∀ r ∈ rs, 0 ≤ r ∧ r ≤ 1) → efficiency pt eff input rs = []) := by
  have hz : (input.zip rs).map Prod.fst = input := List.map_fst_zip (by omega)
  have hr : ∀ x ∈ input.zip rs, x.2 ∈ rs := fun x hx => (List.of_mem_zip hx).2
  refine ⟨?_, ?_, ?_, ?_, ?_⟩
  · conv => rhs; rw [← hz]
    exact List.Sublist.map _ List.filter_sublist
  · intro i c r h1 h2 h3
    refine List.mem_map.mpr ⟨(c, r), List.mem_filter.mpr ⟨?_, ?_⟩, rfl⟩
    · exact List.mem_of_getElem? (List.getElem?_zip_eq_some.mpr ⟨h1, h2⟩)
    · simpa using h3
  · intro c hc
    obtain ⟨⟨d, r⟩, hm, rfl⟩ := List.mem_map.mp hc
    obtain ⟨hm, hp⟩ := List.mem_filter.mp hm
    obtain ⟨i, hi⟩ := List.mem_iff_getElem?.mp hm
    obtain ⟨h1, h2⟩ := List.getElem?_zip_eq_some.mp hi
    exact ⟨i, r, h1, h2, by simpa using hp⟩
  · intro h1 h2
    simp only [efficiency]
    rw [List.filter_eq_self.mpr, hz]
    intro x hx
    simpa [h1] using (h2 _ (hr x hx)).2
  · intro h1 h2
    simp only [efficiency]
    rw [List.filter_eq_nil_iff.mpr]
    · rfl
    · intro x hx
      simpa using lt_of_lt_of_le (h1 _ _) (h2 _ (hr x hx)).1

end

/-! ## Examples -/

/-- A candidate of which only momentum and constituents matter. -/
def exCand (a : Nat) (px e : ℚ) (s : List (Cand ℚ)) : Cand ℚ :=
  .mk a ⟨211, 0, 0, 0, 0, 0, 0, 0, 0, ⟨px, 0, 0, e⟩⟩ s

/-- A jet of two tracks overlaps an object made of one of them, not its own clone. -/
example :
    let t1 := exCand 1 1 2 []
    let t2 := exCand 2 3 4 []
    let jet := exCand 10 4 6 [t1, t2]
    let other := exCand 11 3 4 [exCand 12 3 4 [t2]]
    jet.overlaps other = true ∧ other.overlaps jet = true ∧ jet.overlaps (exCand 3 5 5 []) = false ∧
      (jet.clone 20).overlaps jet = false := by decide +kernel

example : (∀ d ∈ (exCand 10 4 6 [exCand 1 1 2 [], exCand 2 3 4 []]).subs, d.subs = []) ∧
    ∀ a ∈ addrs (exCand 10 4 6 [exCand 1 1 2 [], exCand 2 3 4 []]), a < 20 := by
  constructor
  · intro d hd
    simp [exCand, Cand.subs] at hd
    rcases hd with rfl | rfl <;> rfl
  · decide +kernel

/-- An electron in the first collection and a jet made of it in the second: the electron is dropped
and the jet kept. -/
example :
    let el := exCand 1 1 2 []
    let jet1 := exCand 10 4 6 [el]
    let jet2 := exCand 11 5 6 []
    (unique [[el], [jet1, jet2]]).map (·.map Cand.addr) = [[], [10]] := by decide +kernel

example :
    (merge (K := ℚ) (fun p => p.px)
      [some [exCand 1 1 2 []], some [], some [exCand 2 3 5 [], exCand 3 4 6 []]]).map
      (fun r => (r.output.map Cand.addr, r.mom, r.ene)) =
      some ([1, 2, 3], ⟨8, 0, 0, 13⟩, ⟨8, 0, 0, 13⟩) := by decide +kernel

example : (efficiency (K := ℚ) (fun p => p.px) (fun p _ => if p < 2 then 1 / 2 else 1)
    [exCand 1 1 2 [], exCand 2 1 2 [], exCand 3 3 3 []] [1 / 4, 3 / 4, 3 / 4]).map Cand.addr = [1, 3] := by
  decide +kernel

end Verif.Fads
