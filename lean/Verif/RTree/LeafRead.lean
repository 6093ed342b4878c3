import Verif.RTree.LeafWrite

/-!
# C145: the leaves of a reader
-/

namespace Verif.RTree.Leaf

/-- The leaves of a tree as a reader finds them in the file. -/
def descs (ls : List WLeaf) : List Desc := ls.map fun l => (l.desc ls).read

/-- What the file says of the leaf of a variable. -/
def DescFor (v : Var) (d : Desc) : Prop :=
  d.name = v.name ∧ d.ty = v.ty ∧
  match v.form with
  | .val => d.count = none ∧ (d.form = some .val ∨ (v.ty = .str ∧ d.form = some .one))
  | .arr dims => d.count = none ∧ d.form = some (.arr (size dims))
  | .sli c => d.count = some c ∧ d.form = some .sli ∧ d.len = 1

theorem var_unique {vars : List Var} (hn : (vars.map (·.name)).Nodup) {v w : Var}
    (hv : v ∈ vars) (hw : w ∈ vars) (h : v.name = w.name) : v = w := by
  induction vars with
  | nil => exact absurd hv (by simp)
  | cons u vars ih =>
    rw [List.map_cons, List.nodup_cons] at hn
    rcases List.mem_cons.mp hv with rfl | hv
    · rcases List.mem_cons.mp hw with rfl | hw
      · rfl
      · exact absurd (List.mem_map.mpr ⟨w, hw, h.symm⟩) hn.1
    · rcases List.mem_cons.mp hw with rfl | hw
      · exact absurd (List.mem_map.mpr ⟨v, by assumption, h⟩) hn.1
      · exact ih hn.2 hv hw

theorem desc_for {vars : List Var} (hok : VarsOK vars) {ls : List WLeaf} (hw : WInv vars ls)
    {i : Nat} {v : Var} {d : Desc} (hv : vars[i]? = some v) (hd : (descs ls)[i]? = some d) :
    DescFor v d := by
  obtain ⟨l, hl, h1, h2, h3, h4⟩ := hw.get hv
  have hm := List.mem_of_getElem? hv
  have hpl := hok.plain v hm
  simp only [descs, List.getElem?_map, hl, Option.map_some, Option.some.injEq] at hd
  subst hd
  have hne : ¬ l.len = 0 := by omega
  refine ⟨h1, h2, ?_⟩
  cases hf : v.form with
  | val =>
    rw [hf] at h4
    obtain ⟨a1, a2, a3, a4⟩ := h4
    simp only [Desc.read, WLeaf.desc, Desc.form, a2, Option.bind_none, if_neg hne, h2, a3, true_and]
    by_cases hs : v.ty = .str
    · by_cases h1 : 1 < l.len
      · right
        rw [if_pos h1, if_pos hs, leafDims_name _ hpl.1]
        exact ⟨hs, rfl⟩
      · left; rw [if_neg h1]
    · left; rw [if_neg (by have := a4 hs; omega)]
  | arr dims =>
    rw [hf] at h4
    obtain ⟨a1, a2, a3, a4⟩ := h4
    have ha := hok.arr v hm dims hf
    simp only [Desc.read, WLeaf.desc, Desc.form, a2, Option.bind_none, h2, a4, true_and, a3]
    rw [if_neg (show ¬ size dims = 0 by omega), if_pos ha.2, if_neg ha.1, leafDims_title _ _ hpl.1]
    have := foldl_mul_int dims 1
    simp only [Nat.one_mul] at this
    rw [show ((1 : Nat) : Int) = 1 from rfl] at this
    rw [this]
    rfl
  | sli c =>
    rw [hf] at h4
    obtain ⟨a1, a2, a3, j, vc, a4, a5, a6, a7, a8, a9⟩ := h4
    obtain ⟨lc, b1, b2⟩ := hw.get a6
    obtain ⟨j', vc', c1, c2, c3, c4, c5, c6⟩ := hok.sli i v c hv hf
    have hpc := hok.plain vc' (List.mem_of_getElem? c2)
    rw [c3] at hpc
    have hcn : (l.count.bind fun i => (ls[i]?).map (·.name)) = some c := by
      simp [a5, b1, b2.1, a7]
    have hlen : (if l.len = 0 then 1 else l.len) = 1 := by rw [if_neg hne, a2]
    refine ⟨hcn, ?_, hlen⟩
    simp only [Desc.read, WLeaf.desc, Desc.form, hcn, a3]
    rw [leafDims_count _ _ hpl.1 hpc.1 hpc.2 c6]
    rfl

theorem descs_names {vars : List Var} {ls : List WLeaf} (hw : WInv vars ls) :
    (descs ls).map (·.name) = vars.map (·.name) := by
  rw [← hw.names, descs, List.map_map]
  rfl

theorem findIdx_desc {vars : List Var} (hok : VarsOK vars) {ls : List WLeaf} (hw : WInv vars ls)
    {i : Nat} {v : Var} (hv : vars[i]? = some v) :
    (descs ls).findIdx? (fun d => d.name == v.name) = some i := by
  have hi : i < (descs ls).length := by
    simp only [descs, List.length_map, hw.length]; exact (List.getElem?_eq_some_iff.mp hv).1
  have hd : (descs ls)[i]? = some (descs ls)[i] := List.getElem?_eq_getElem hi
  have := findIdx_name (fun d : Desc => d.name) (by rw [descs_names hw]; exact hok.nodup) hd
  rw [(desc_for hok hw hv hd).1] at this
  exact this

theorem find_of_findIdx {α : Type} {p : α → Bool} {l : List α} {i : Nat}
    (h : l.findIdx? p = some i) : l.find? p = l[i]? := by
  induction l generalizing i with
  | nil => simp at h
  | cons a l ih =>
    rw [List.findIdx?_cons] at h
    rw [List.find?_cons]
    cases hp : p a with
    | true => rw [hp] at h; simp at h; subst h; rfl
    | false =>
      rw [hp] at h
      simp only [Bool.false_eq_true, if_false, Option.map_eq_some_iff] at h
      obtain ⟨j, hj, rfl⟩ := h
      simp [ih hj]

theorem find_desc {vars : List Var} (hok : VarsOK vars) {ls : List WLeaf} (hw : WInv vars ls)
    {v : Var} (hm : v ∈ vars) :
    ∃ d, (descs ls).find? (fun d => d.name == v.name) = some d ∧ DescFor v d := by
  obtain ⟨i, hi, rfl⟩ := List.getElem_of_mem hm
  have hv : vars[i]? = some vars[i] := List.getElem?_eq_getElem hi
  have hil : i < (descs ls).length := by simp only [descs, List.length_map, hw.length]; exact hi
  have hd : (descs ls)[i]? = some (descs ls)[i] := List.getElem?_eq_getElem hil
  refine ⟨(descs ls)[i], ?_, desc_for hok hw hv hd⟩
  rw [find_of_findIdx (findIdx_desc hok hw hv), hd]

/-- The `p`-th leaf of a reader, for a variable. -/
def RFor (lvs : List RLeaf) (p : Nat) (v : Var) (l : RLeaf) : Prop :=
  l.name = v.name ∧ (l.ty = v.ty ∨ (v.form = .val ∧ IntTy v.ty ∧ l.ty = v.ty.signed)) ∧
  match v.form with
  | .val => l.count = none ∧ (l.form = .val ∨ (v.ty = .str ∧ l.form = .one))
  | .arr dims => l.count = none ∧ l.form = .arr (size dims)
  | .sli c => l.form = .sli ∧ l.len = 1 ∧ ∃ q, q < p ∧ l.count = some q ∧
      lvs.findIdx? (fun l => l.name == c) = some q

/-- The leaves of a reader. -/
def RdInv (vars : List Var) (lvs : List RLeaf) : Prop :=
  ∀ (p : Nat) (l : RLeaf), lvs[p]? = some l → ∃ v ∈ vars, RFor lvs p v l

theorem RFor.mono {lvs more : List RLeaf} {p : Nat} {v : Var} {l : RLeaf} (h : RFor lvs p v l) :
    RFor (lvs ++ more) p v l := by
  obtain ⟨h1, h2, h3⟩ := h
  refine ⟨h1, h2, ?_⟩
  cases hf : v.form with
  | val => rw [hf] at h3; exact h3
  | arr dims => rw [hf] at h3; exact h3
  | sli c =>
    rw [hf] at h3
    obtain ⟨a1, a2, q, a3, a4, a5⟩ := h3
    refine ⟨a1, a2, q, a3, a4, ?_⟩
    rw [List.findIdx?_append, a5]
    rfl

/-- What a reader can be made of: known variables, with the count of a slice before it. -/
def Pending (vars : List Var) (names : List Name) (ss : List (Name × Bool)) : Prop :=
  ∀ (k : Nat) (s : Name × Bool), ss[k]? = some s → ∃ v ∈ vars, v.name = s.1 ∧
    (s.2 = true → v.form = .val ∧ IntTy v.ty) ∧
    ∀ c, v.form = .sli c → c ∈ names ++ (ss.take k).map (·.1)

theorem Pending.tail {vars : List Var} {names : List Name} {s : Name × Bool}
    {ss : List (Name × Bool)} (h : Pending vars names (s :: ss)) :
    Pending vars (names ++ [s.1]) ss := by
  intro k s' hs'
  obtain ⟨v, h1, h2, h3, h4⟩ := h (k + 1) s' (by simpa using hs')
  exact ⟨v, h1, h2, h3, fun c hc => by simpa using h4 c hc⟩

theorem RdInv.snoc {vars : List Var} {lvs : List RLeaf} (h : RdInv vars lvs) {v : Var} {l : RLeaf}
    (hm : v ∈ vars) (hl : RFor lvs lvs.length v l) : RdInv vars (lvs ++ [l]) := by
  intro p m hp
  by_cases hlt : p < lvs.length
  · rw [List.getElem?_append_left hlt] at hp
    obtain ⟨w, w1, w2⟩ := h p m hp
    exact ⟨w, w1, w2.mono⟩
  · have hp' := (List.getElem?_eq_some_iff.mp hp).1
    have : p = lvs.length := by rw [List.length_append, List.length_singleton] at hp'; omega
    subst this
    rw [List.getElem?_append_right (Nat.le_refl _), Nat.sub_self] at hp
    simp only [List.getElem?_cons_zero, Option.some.injEq] at hp
    subst hp
    exact ⟨v, hm, hl.mono⟩

theorem newRLeaves_inv {vars : List Var} (hok : VarsOK vars) {ls : List WLeaf}
    (hw : WInv vars ls) (ss : List (Name × Bool)) (lvs : List RLeaf) (h : RdInv vars lvs)
    (hp : Pending vars (lvs.map (·.name)) ss) :
    ∃ lvs', newRLeaves (descs ls) lvs ss = some lvs' ∧ RdInv vars lvs' ∧
      lvs'.map (·.name) = lvs.map (·.name) ++ ss.map (·.1) := by
  induction ss generalizing lvs with
  | nil => exact ⟨lvs, rfl, h, by simp⟩
  | cons s ss ih =>
    obtain ⟨v, v1, v2, v3, v4⟩ := hp 0 s rfl
    have step : ∀ l, newRLeaf (descs ls) lvs s = some l → RFor lvs lvs.length v l →
        ∃ lvs', newRLeaves (descs ls) lvs (s :: ss) = some lvs' ∧ RdInv vars lvs' ∧
          lvs'.map (·.name) = lvs.map (·.name) ++ (s :: ss).map (·.1) := by
      intro l hl hfor
      have hnm : l.name = s.1 := by rw [hfor.1, v2]
      obtain ⟨lvs', e1, e2, e3⟩ := ih (lvs ++ [l]) (h.snoc v1 hfor)
        (by rw [List.map_append, List.map_singleton, hnm]; exact hp.tail)
      refine ⟨lvs', ?_, e2, ?_⟩
      · simp only [newRLeaves, hl]; exact e1
      · rw [e3, List.map_append, List.map_singleton, hnm]; simp
    obtain ⟨d, d1, d2, d3, d4⟩ := find_desc hok hw v1
    rw [v2] at d1
    cases hf : v.form with
    | val =>
      rw [hf] at d4
      obtain ⟨a1, a2⟩ := d4
      obtain ⟨fm, hfm, hfm'⟩ : ∃ fm, d.form = some fm ∧ (fm = .val ∨ (v.ty = .str ∧ fm = .one)) := by
        rcases a2 with a2 | a2
        · exact ⟨_, a2, Or.inl rfl⟩
        · exact ⟨_, a2.2, Or.inr ⟨a2.1, rfl⟩⟩
      refine step ⟨d.name, if s.2 then d.ty.signed else d.ty, fm, d.len, none⟩ ?_ ?_
      · rcases hfm' with rfl | ⟨_, rfl⟩ <;> simp only [newRLeaf, d1, hfm]
      · refine ⟨d2, ?_, ?_⟩
        · cases hs : s.2 with
          | true =>
            obtain ⟨b1, b2⟩ := v3 hs
            right
            exact ⟨b1, b2, by simp [d3]⟩
          | false => left; simp [d3]
        · rw [hf]; exact ⟨rfl, hfm'⟩
    | arr dims =>
      rw [hf] at d4
      have hs : s.2 = false := by
        cases hs : s.2 with
        | true => have := (v3 hs).1; rw [hf] at this; exact absurd this (by simp)
        | false => rfl
      refine step ⟨d.name, d.ty, .arr (size dims), d.len, none⟩ ?_ ?_
      · simp only [newRLeaf, d1, d4.2, hs]; rfl
      · refine ⟨d2, Or.inl d3, ?_⟩
        rw [hf]; exact ⟨rfl, rfl⟩
    | sli c =>
      rw [hf] at d4
      obtain ⟨a1, a2, a3⟩ := d4
      have hc := v4 c hf
      simp only [List.take_zero, List.map_nil, List.append_nil] at hc
      -- the leaf of the count
      obtain ⟨i, hi, hvi⟩ := List.getElem_of_mem v1
      obtain ⟨j, vc, b1, b2, b3, b4, b5, b6⟩ := hok.sli i v c (by rw [← hvi]; exact List.getElem?_eq_getElem hi) hf
      have hvc := List.mem_of_getElem? b2
      obtain ⟨lc0, hlc0, hlc0n⟩ := List.mem_map.mp hc
      cases hq : lvs.findIdx? (fun l => l.name == c) with
      | none =>
        rw [List.findIdx?_eq_none_iff] at hq
        have := hq lc0 hlc0
        simp [hlc0n] at this
      | some q =>
        have hq' := hq
        rw [List.findIdx?_eq_some_iff_getElem] at hq'
        obtain ⟨hql, hqn, _⟩ := hq'
        have hqg : lvs[q]? = some lvs[q] := List.getElem?_eq_getElem hql
        have hqn' : lvs[q].name = c := by simpa using hqn
        obtain ⟨w, w1, w2, w3, w4⟩ := h q _ hqg
        have hwv : w = vc := var_unique hok.nodup w1 hvc (by rw [← w2, hqn', b3])
        subst hwv
        rw [b4] at w4
        have hform : lvs[q].form = .val := by
          rcases w4.2 with h | h
          · exact h
          · exact absurd h.1 (int_not_str b5)
        have hcnt : lvs[q].ty.counts = true := by
          rcases w3 with h | ⟨_, _, h⟩
          · rw [h]; exact counts_of_int b5
          · rw [h]
            rcases b5 with h | h | h | h | h | h | h | h <;> rw [h] <;> rfl
        refine step ⟨d.name, d.ty, .sli, d.len, some q⟩ ?_ ?_
        · simp only [newRLeaf, d1, a2, a1, hq, hqg, hform, hcnt, and_self, if_true]
        · refine ⟨d2, Or.inl d3, ?_⟩
          rw [hf]; exact ⟨rfl, a3, q, hql, rfl, hq⟩

theorem pending_sel {vars : List Var} (hok : VarsOK vars) {ls : List WLeaf} (hw : WInv vars ls)
    {sel : List Name} (hs : SelOK vars sel) :
    Pending vars [] (withCounts (descs ls) sel) := by
  intro k s hk
  unfold withCounts at hk ⊢
  set H := sel.filterMap (hiddenOf (descs ls) sel) with hH
  by_cases hkl : k < H.length
  · rw [List.getElem?_append_left hkl] at hk
    have hm := List.mem_of_getElem? hk
    rw [hH, List.mem_filterMap] at hm
    obtain ⟨s0, hs0, hf0⟩ := hm
    obtain ⟨k0, hk0⟩ := List.getElem?_of_mem hs0
    obtain ⟨v, v1, v2, v3⟩ := hs k0 s0 hk0
    obtain ⟨d, d1, d2, d3, d4⟩ := find_desc hok hw v1
    rw [v2] at d1
    simp only [hiddenOf, d1] at hf0
    cases hvf : v.form with
    | val => rw [hvf] at d4; simp [d4.1] at hf0
    | arr dims => rw [hvf] at d4; simp [d4.1] at hf0
    | sli c =>
      rw [hvf] at d4
      simp only [d4.1] at hf0
      split at hf0
      · exact absurd hf0 (by simp)
      · simp only [Option.some.injEq] at hf0
        subst hf0
        obtain ⟨i, hi, hvi⟩ := List.getElem_of_mem v1
        obtain ⟨j, vc, b1, b2, b3, b4, b5, b6⟩ := hok.sli i v c
          (by rw [← hvi]; exact List.getElem?_eq_getElem hi) hvf
        refine ⟨vc, List.mem_of_getElem? b2, b3, fun _ => ⟨b4, b5⟩, fun c' hc' => ?_⟩
        rw [b4] at hc'; exact absurd hc' (by simp)
  · rw [List.getElem?_append_right (by omega), List.getElem?_map] at hk
    obtain ⟨s0, hs0, rfl⟩ := Option.map_eq_some_iff.mp hk
    obtain ⟨v, v1, v2, v3⟩ := hs _ s0 hs0
    refine ⟨v, v1, v2, fun h => absurd h (by simp), fun c hc => ?_⟩
    rw [List.nil_append, List.take_append, List.take_of_length_le (by omega), List.map_append,
      List.mem_append]
    by_cases hcs : c ∈ sel
    · right
      have := v3 c hc hcs
      rw [← List.map_take, List.map_map]
      exact List.mem_map.mpr ⟨c, this, rfl⟩
    · left
      rw [List.mem_map]
      refine ⟨(c, true), ?_, rfl⟩
      rw [hH, List.mem_filterMap]
      refine ⟨s0, List.mem_of_getElem? hs0, ?_⟩
      obtain ⟨d, d1, d2, d3, d4⟩ := find_desc hok hw v1
      rw [v2] at d1
      rw [hc] at d4
      simp only [hiddenOf, d1, d4.1, if_neg hcs]

/-! ## The order of reading -/

/-- The leaves of all groups, in the order in which they are read. -/
def seqOf (gs : List (Name × List Nat)) : List Nat := gs.flatMap (·.2)

/-- Every leaf comes after the leaf of its count. -/
def Ord (lvs : List RLeaf) : List Nat → List Nat → Prop
  | _, [] => True
  | done, p :: ps =>
    (∀ l q, lvs[p]? = some l → l.count = some q → q ∈ done) ∧ Ord lvs (p :: done) ps

theorem Ord.weaken {lvs : List RLeaf} {a b ps : List Nat} (h : Ord lvs a ps) (hs : ∀ x ∈ a, x ∈ b) :
    Ord lvs b ps := by
  induction ps generalizing a b with
  | nil => trivial
  | cons p ps ih =>
    refine ⟨fun l q hl hq => hs q (h.1 l q hl hq), ih h.2 ?_⟩
    intro x hx
    rcases List.mem_cons.mp hx with rfl | hx
    · simp
    · simp [hs x hx]

theorem Ord.insert {lvs : List RLeaf} {done A B : List Nat} {p : Nat} (h : Ord lvs done (A ++ B))
    (hp : ∀ l q, lvs[p]? = some l → l.count = some q → q ∈ done ∨ q ∈ A) :
    Ord lvs done (A ++ p :: B) := by
  induction A generalizing done with
  | nil =>
    refine ⟨fun l q hl hq => ?_, h.weaken (by simp +contextual)⟩
    rcases hp l q hl hq with h | h
    · exact h
    · exact absurd h (by simp)
  | cons a A ih =>
    refine ⟨h.1, ih h.2 fun l q hl hq => ?_⟩
    rcases hp l q hl hq with h | h
    · left; simp [h]
    · rcases List.mem_cons.mp h with rfl | h
      · left; simp
      · right; exact h

theorem Ord.count_mem {lvs : List RLeaf} {done A : List Nat} (h : Ord lvs done A) {x : Nat}
    (hx : x ∈ A) {l : RLeaf} {q : Nat} (hl : lvs[x]? = some l) (hq : l.count = some q) :
    q ∈ done ∨ q ∈ A := by
  induction A generalizing done with
  | nil => exact absurd hx (by simp)
  | cons a A ih =>
    rcases List.mem_cons.mp hx with rfl | hx
    · left; exact h.1 l q hl hq
    · rcases ih h.2 hx with h' | h'
      · rcases List.mem_cons.mp h' with rfl | h'
        · right; simp
        · left; exact h'
      · right; simp [h']

theorem Ord.left {lvs : List RLeaf} {done A B : List Nat} (h : Ord lvs done (A ++ B)) :
    Ord lvs done A := by
  induction A generalizing done with
  | nil => trivial
  | cons a A ih => exact ⟨h.1, ih h.2⟩

/-- Adding a leaf puts it at the end, or behind another leaf of its branch. -/
theorem addGroup_split (gs : List (Name × List Nat)) (b : Name) (p : Nat)
    (hne : ∀ g ∈ gs, g.2 ≠ []) :
    ∃ A B, seqOf gs = A ++ B ∧ seqOf (addGroup gs b p) = A ++ p :: B ∧
      (B = [] ∨ ∃ g ∈ gs, g.1 = b ∧ ∃ q ∈ g.2, q ∈ A) ∧ ((∀ g ∈ gs, g.1 ≠ b) → B = []) := by
  induction gs with
  | nil => exact ⟨[], [], rfl, rfl, Or.inl rfl, fun _ => rfl⟩
  | cons g gs ih =>
    by_cases hb : g.1 = b
    · refine ⟨g.2, seqOf gs, rfl, ?_, Or.inr ⟨g, by simp, hb, ?_⟩, fun h => absurd hb (h g (by simp))⟩
      · simp [addGroup, hb, seqOf]
      · obtain ⟨q, hq⟩ := List.exists_mem_of_ne_nil _ (hne g (by simp))
        exact ⟨q, hq, hq⟩
    · obtain ⟨A, B, h1, h2, h3, h4⟩ := ih (fun g' hg' => hne g' (by simp [hg']))
      refine ⟨g.2 ++ A, B, ?_, ?_, ?_, ?_⟩
      · rw [show seqOf (g :: gs) = g.2 ++ seqOf gs from rfl, h1, List.append_assoc]
      · simp only [addGroup, if_neg hb]
        rw [show seqOf (g :: addGroup gs b p) = g.2 ++ seqOf (addGroup gs b p) from rfl, h2,
          List.append_assoc]
      · rcases h3 with h3 | ⟨g', h3, h5, q, h6, h7⟩
        · exact Or.inl h3
        · exact Or.inr ⟨g', by simp [h3], h5, q, h6, by simp [h7]⟩
      · exact fun h => h4 fun g' hg' => h g' (by simp [hg'])

/-- The groups of the first `n` leaves. -/
structure GInv (lvs : List RLeaf) (n : Nat) (gs : List (Name × List Nat)) : Prop where
  full : ∀ g ∈ gs, g.2 ≠ []
  named : ∀ g ∈ gs, ∀ q ∈ g.2, q < n ∧ ∃ l, lvs[q]? = some l ∧ l.name = g.1
  all : ∀ q, q < n → q ∈ seqOf gs
  ord : Ord lvs [] (seqOf gs)

theorem addGroup_mem {gs : List (Name × List Nat)} {b : Name} {p : Nat} {g : Name × List Nat}
    (h : g ∈ addGroup gs b p) : g ∈ gs ∨ g = (b, [p]) ∨ ∃ g' ∈ gs, g'.1 = b ∧ g = (b, g'.2 ++ [p]) := by
  induction gs with
  | nil => simp only [addGroup, List.mem_singleton] at h; exact Or.inr (Or.inl h)
  | cons g0 gs ih =>
    simp only [addGroup] at h
    split at h
    · next hb =>
      rcases List.mem_cons.mp h with rfl | h
      · exact Or.inr (Or.inr ⟨g0, by simp, hb, by rw [hb]⟩)
      · exact Or.inl (by simp [h])
    · rcases List.mem_cons.mp h with rfl | h
      · exact Or.inl (by simp)
      · rcases ih h with h | h | ⟨g', h1, h2, h3⟩
        · exact Or.inl (by simp [h])
        · exact Or.inr (Or.inl h)
        · exact Or.inr (Or.inr ⟨g', by simp [h1], h2, h3⟩)

theorem addGroup_inv {vars : List Var} (hok : VarsOK vars) {lvs : List RLeaf}
    (hr : RdInv vars lvs) {n : Nat} {gs : List (Name × List Nat)} (h : GInv lvs n gs) {l : RLeaf}
    (hl : lvs[n]? = some l) : GInv lvs (n + 1) (addGroup gs l.name n) := by
  obtain ⟨A, B, s1, s2, s3, s4⟩ := addGroup_split gs l.name n h.full
  obtain ⟨v, v1, v2, v3, v4⟩ := hr n l hl
  refine ⟨?_, ?_, ?_, ?_⟩
  · intro g hg
    rcases addGroup_mem hg with hg | rfl | ⟨g', hg', hb, rfl⟩
    · exact h.full g hg
    · simp
    · simp
  · intro g hg q hq
    rcases addGroup_mem hg with hg | rfl | ⟨g', hg', hb, rfl⟩
    · obtain ⟨a, b⟩ := h.named g hg q hq; exact ⟨by omega, b⟩
    · simp only [List.mem_singleton] at hq; subst hq; exact ⟨by omega, l, hl, rfl⟩
    · rcases List.mem_append.mp hq with hq | hq
      · obtain ⟨a, b, c, d⟩ := h.named g' hg' q hq
        exact ⟨by omega, b, c, by rw [d, hb]⟩
      · simp only [List.mem_singleton] at hq; subst hq; exact ⟨by omega, l, hl, rfl⟩
  · intro q hq
    rw [s2]
    by_cases hqn : q = n
    · subst hqn; simp
    · have := h.all q (by omega)
      rw [s1] at this
      rcases List.mem_append.mp this with h | h <;> simp [h]
  · rw [s2]
    have ho := h.ord
    rw [s1] at ho
    apply ho.insert
    intro l' q hl' hq
    rw [hl] at hl'; cases hl'
    right
    rcases s3 with hB | ⟨g, hg, hgb, x, hx, hxA⟩
    · subst hB
      rw [List.append_nil] at s1
      rw [← s1]
      apply h.all
      cases hf : v.form with
      | val => rw [hf] at v4; rw [v4.1] at hq; exact absurd hq (by simp)
      | arr dims => rw [hf] at v4; rw [v4.1] at hq; exact absurd hq (by simp)
      | sli c =>
        rw [hf] at v4
        obtain ⟨_, _, q', a1, a2, _⟩ := v4
        rw [a2] at hq; cases hq; exact a1
    · -- another leaf of the branch has the same count
      obtain ⟨_, lx, hlx, hlxn⟩ := h.named g hg x hx
      obtain ⟨w, w1, w2, w3, w4⟩ := hr x lx hlx
      have hwv : w = v := var_unique hok.nodup w1 v1 (by rw [← w2, hlxn, hgb, v2])
      subst hwv
      have hcx : lx.count = some q := by
        cases hf : w.form with
        | val => rw [hf] at v4; rw [v4.1] at hq; exact absurd hq (by simp)
        | arr dims => rw [hf] at v4; rw [v4.1] at hq; exact absurd hq (by simp)
        | sli c =>
          rw [hf] at v4 w4
          obtain ⟨_, _, q', _, a2, a3⟩ := v4
          obtain ⟨_, _, q'', _, b2, b3⟩ := w4
          rw [a3] at b3; cases b3
          rw [a2] at hq; cases hq
          exact b2
      rcases ho.left.count_mem hxA hlx hcx with h | h
      · exact absurd h (by simp)
      · exact h

theorem groupsFrom_inv {vars : List Var} (hok : VarsOK vars) {lvs : List RLeaf}
    (hr : RdInv vars lvs) (rest : List RLeaf) (n : Nat) (gs : List (Name × List Nat))
    (hrest : rest = lvs.drop n) (h : GInv lvs n gs) (hn : n ≤ lvs.length) :
    GInv lvs lvs.length (groupsFrom gs n rest) := by
  induction rest generalizing n gs with
  | nil =>
    have : lvs.length ≤ n := List.drop_eq_nil_iff.mp hrest.symm
    have : n = lvs.length := by omega
    subst this
    exact h
  | cons l rest ih =>
    have hlt : n < lvs.length := by
      by_contra hc
      rw [List.drop_eq_nil_of_le (by omega)] at hrest
      exact absurd hrest (by simp)
    have hd := List.drop_eq_getElem_cons hlt
    rw [hd] at hrest
    injection hrest with h1 h2
    have hl : lvs[n]? = some l := by rw [h1]; exact List.getElem?_eq_getElem hlt
    exact ih (n + 1) _ h2 (addGroup_inv hok hr h hl) hlt

theorem groups_inv {vars : List Var} (hok : VarsOK vars) {lvs : List RLeaf}
    (hr : RdInv vars lvs) : GInv lvs lvs.length (groupsFrom [] 0 lvs) :=
  groupsFrom_inv hok hr lvs 0 [] rfl
    ⟨fun g hg => absurd hg (by simp), fun g hg => absurd hg (by simp),
      fun q hq => absurd hq (by omega), trivial⟩ (by omega)

end Verif.RTree.Leaf
