import Verif.RTree.LeafSpec

/-!
# C145: writing the values of the variables
-/

namespace Verif.RTree.Leaf

/-- The leaf of the `i`-th variable. -/
def LeafFor (vars : List Var) (i : Nat) (v : Var) (l : WLeaf) : Prop :=
  l.name = v.name ∧ l.ty = v.ty ∧ 1 ≤ l.len ∧
  match v.form with
  | .val => l.ptr = true ∧ l.count = none ∧ l.title = v.name ∧ (v.ty ≠ .str → l.len = 1)
  | .arr dims => l.ptr = false ∧ l.count = none ∧ l.len = size dims ∧
      l.title = v.name ++ dimsTitle dims
  | .sli c => l.ptr = false ∧ l.len = 1 ∧ l.title = v.name ++ 91 :: (c ++ [93]) ∧
      ∃ (j : Nat) (vc : Var), j < i ∧ l.count = some j ∧ vars[j]? = some vc ∧ vc.name = c ∧
        vc.form = .val ∧ IntTy vc.ty

/-- The leaves of the variables. -/
structure WInv (vars : List Var) (ls : List WLeaf) : Prop where
  length : ls.length = vars.length
  each : ∀ (i : Nat) (v : Var) (l : WLeaf), vars[i]? = some v → ls[i]? = some l →
    LeafFor vars i v l

theorem LeafFor.mono {vars more : List Var} {i : Nat} {v : Var} {l : WLeaf}
    (h : LeafFor vars i v l) : LeafFor (vars ++ more) i v l := by
  obtain ⟨h1, h2, h3, h4⟩ := h
  refine ⟨h1, h2, h3, ?_⟩
  cases hf : v.form with
  | val => rw [hf] at h4; exact h4
  | arr dims => rw [hf] at h4; exact h4
  | sli c =>
    rw [hf] at h4
    obtain ⟨a1, a2, a3, j, vc, a4, a5, a6, a7⟩ := h4
    refine ⟨a1, a2, a3, j, vc, a4, a5, ?_, a7⟩
    rw [List.getElem?_append_left (List.getElem?_eq_some_iff.mp a6).1]
    exact a6

theorem counts_of_int {t : Ty} (h : IntTy t) : t.counts = true := by
  rcases h with h | h | h | h | h | h | h | h <;> subst h <;> rfl

theorem int_not_str {t : Ty} (h : IntTy t) : t ≠ .str := by
  rcases h with h | h | h | h | h | h | h | h <;> subst h <;> decide

theorem int_not_bool {t : Ty} (h : IntTy t) : t ≠ .bool := by
  rcases h with h | h | h | h | h | h | h | h <;> subst h <;> decide

theorem findIdx_name {α : Type} (nm : α → Name) {l : List α} {j : Nat} {a : α}
    (hn : (l.map nm).Nodup) (h : l[j]? = some a) :
    l.findIdx? (fun x => nm x == nm a) = some j := by
  induction l generalizing j with
  | nil => simp at h
  | cons x l ih =>
    rw [List.map_cons, List.nodup_cons] at hn
    cases j with
    | zero =>
      simp only [List.getElem?_cons_zero, Option.some.injEq] at h
      subst h
      simp [List.findIdx?_cons]
    | succ j =>
      rw [List.getElem?_cons_succ] at h
      have hne : (nm x == nm a) = false := by
        rw [beq_eq_false_iff_ne]
        intro he
        apply hn.1
        rw [he]
        exact List.mem_map.mpr ⟨a, List.mem_of_getElem? h, rfl⟩
      rw [List.findIdx?_cons, hne, ih hn.2 h]
      rfl

theorem WInv.names {vars : List Var} {ls : List WLeaf} (h : WInv vars ls) :
    ls.map (·.name) = vars.map (·.name) := by
  apply List.ext_getElem?
  intro i
  rw [List.getElem?_map, List.getElem?_map]
  by_cases hi : i < vars.length
  · have h1 : vars[i]? = some vars[i] := List.getElem?_eq_getElem hi
    have h2 : ls[i]? = some (ls[i]'(by rw [h.length]; exact hi)) := List.getElem?_eq_getElem _
    rw [h1, h2]
    have := (h.each i _ _ h1 h2).1
    simp [this]
  · rw [List.getElem?_eq_none (by rw [h.length]; omega), List.getElem?_eq_none (by omega)]
    rfl

theorem WInv.get {vars : List Var} {ls : List WLeaf} (h : WInv vars ls) {i : Nat} {v : Var}
    (hv : vars[i]? = some v) : ∃ l, ls[i]? = some l ∧ LeafFor vars i v l := by
  have hi := (List.getElem?_eq_some_iff.mp hv).1
  refine ⟨ls[i]'(by rw [h.length]; exact hi), List.getElem?_eq_getElem _, ?_⟩
  exact h.each i v _ hv (List.getElem?_eq_getElem _)

/-- A tree can be made of the variables. -/
theorem newLeaves_inv (pre vs : List Var) (ls : List WLeaf) (hok : VarsOK (pre ++ vs))
    (h : WInv pre ls) : ∃ ls', newLeaves ls vs = some ls' ∧ WInv (pre ++ vs) ls' := by
  induction vs generalizing pre ls with
  | nil => exact ⟨ls, rfl, by simpa using h⟩
  | cons v vs ih =>
    have hv : (pre ++ v :: vs)[pre.length]? = some v := by simp
    have step : ∀ l, newLeaf ls v = some l → LeafFor pre pre.length v l →
        ∃ ls', newLeaves ls (v :: vs) = some ls' ∧ WInv (pre ++ v :: vs) ls' := by
      intro l hl hfor
      have hinv : WInv (pre ++ [v]) (ls ++ [l]) := by
        refine ⟨by simp [h.length], ?_⟩
        intro i w m hw hm
        by_cases hi : i < pre.length
        · rw [List.getElem?_append_left hi] at hw
          rw [List.getElem?_append_left (by rw [h.length]; exact hi)] at hm
          exact (h.each i w m hw hm).mono
        · have hlt := (List.getElem?_eq_some_iff.mp hw).1
          have hie : i = pre.length := by rw [List.length_append, List.length_singleton] at hlt; omega
          subst hie
          rw [List.getElem?_append_right (Nat.le_refl _), Nat.sub_self] at hw
          rw [List.getElem?_append_right (by rw [h.length]; omega), h.length, Nat.sub_self] at hm
          simp only [List.getElem?_cons_zero, Option.some.injEq] at hw hm
          subst hw hm
          exact hfor.mono
      obtain ⟨ls', e1, e2⟩ := ih (pre ++ [v]) (ls ++ [l]) (by simpa using hok) hinv
      refine ⟨ls', ?_, by simpa using e2⟩
      simp only [newLeaves, hl]
      exact e1
    cases hf : v.form with
    | val =>
      refine step ⟨v.name, v.name, v.ty, 1, none, true, 0⟩ (by simp only [newLeaf, hf]) ?_
      refine ⟨rfl, rfl, Nat.le_refl _, ?_⟩
      rw [hf]
      exact ⟨rfl, rfl, rfl, fun _ => rfl⟩
    | arr dims =>
      have ha := hok.arr v (by simp) dims hf
      have hsz : dims.foldl (· * ·) 1 = size dims := by rw [foldl_mul, Nat.one_mul]
      refine step _ (by simp only [newLeaf, hf]; rfl) ?_
      refine ⟨rfl, rfl, by simp only; rw [hsz]; omega, ?_⟩
      rw [hf]
      exact ⟨rfl, rfl, hsz, rfl⟩
    | sli c =>
      obtain ⟨j, vc, a1, a2, a3, a4, a5, a6⟩ := hok.sli pre.length v c hv hf
      rw [List.getElem?_append_left a1] at a2
      obtain ⟨lc, b1, b2⟩ := h.get a2
      have hn : (ls.map (·.name)).Nodup := by
        rw [h.names]
        have := hok.nodup
        rw [List.map_append] at this
        exact (List.nodup_append.mp this).1
      have hidx : ls.findIdx? (fun l => l.name == c) = some j := by
        have := findIdx_name (fun l : WLeaf => l.name) hn b1
        rw [b2.1, a3] at this
        exact this
      have hcnt : lc.ty.counts = true := by rw [b2.2.1]; exact counts_of_int a5
      have hnm : lc.name = c := by rw [b2.1, a3]
      refine step ⟨v.name, v.name ++ 91 :: (c ++ [93]), v.ty, 1, some j, false, 0⟩ ?_ ?_
      · simp only [newLeaf, hf, hidx, b1, hcnt, if_true, hnm]
      · refine ⟨rfl, rfl, Nat.le_refl _, ?_⟩
        rw [hf]
        exact ⟨rfl, rfl, rfl, j, vc, a1, rfl, a2, a3, a4, a5⟩

/-! ## Writing a row -/

theorem signed_small {w n : Nat} (h : n < 2 ^ (8 * w - 1)) : signed w n = (n : Int) := by
  unfold signed; rw [if_pos h]

/-- Writing a value leaves its leaf a leaf of the variable. -/
theorem LeafFor.bump {vars : List Var} {i : Nat} {v : Var} {l : WLeaf} {e : Elem}
    (h : LeafFor vars i v l) (hf : v.form = .val) (he : ElemOK v.ty e) :
    LeafFor vars i v (l.bump e) := by
  obtain ⟨h1, h2, h3, h4⟩ := h
  rw [hf] at h4
  cases e with
  | bool b => exact ⟨h1, h2, h3, by rw [hf]; exact h4⟩
  | word n =>
    simp only [WLeaf.bump]
    split
    · exact ⟨h1, h2, h3, by rw [hf]; exact h4⟩
    · exact ⟨h1, h2, h3, by rw [hf]; exact h4⟩
  | str s =>
    simp only [WLeaf.bump]
    refine ⟨h1, h2, ?_, ?_⟩
    · simp only; split <;> omega
    · rw [hf]
      exact ⟨h4.1, h4.2.1, h4.2.2.1, fun hn => absurd he.1 hn⟩

/-- The counts among the first `i` leaves have noted the values of the row. -/
def Ready (row : List Value) (i : Nat) (ls : List WLeaf) : Prop :=
  ∀ (j : Nat) (l : WLeaf) (n : Nat), j < i → ls[j]? = some l → l.ty.counts = true →
    row[j]? = some (.val (.word n)) → signed l.ty.width n ≤ l.max

theorem bump_max {l : WLeaf} {n : Nat} (h : l.ty.counts = true) :
    signed (l.bump (.word n)).ty.width n ≤ (l.bump (.word n)).max := by
  simp only [WLeaf.bump, h, if_true]
  split <;> omega

/-- One value. -/
theorem writeLeaf_ok {vars : List Var} {row : List Value} {ls : List WLeaf} {i : Nat} {v : Var}
    {l : WLeaf} {x : Value} (hok : VarsOK vars) (hrow : RowOK vars row) (hw : WInv vars ls)
    (hr : Ready row i ls) (hv : vars[i]? = some v) (hl : ls[i]? = some l)
    (hx : row[i]? = some x) :
    ∃ l', writeLeaf ls row l x = some (writeElems v.ty (seen vars row v x).elems, l') ∧
      LeafFor vars i v l' ∧
      ∀ n, l'.ty.counts = true → x = .val (.word n) → signed l'.ty.width n ≤ l'.max := by
  have hfor := hw.each i v l hv hl
  have hfit := hrow.2 (v, x) (mem_zip_get hv hx)
  obtain ⟨h1, h2, h3, h4⟩ := id hfor
  unfold FitsVar at hfit
  simp only at hfit
  cases hf : v.form with
  | val =>
    rw [hf] at hfit h4
    cases x with
    | list es => exact absurd hfit (by simp)
    | val e =>
      simp only at hfit h4
      refine ⟨l.bump e, ?_, hfor.bump hf hfit, ?_⟩
      · simp [writeLeaf, h4.1, seen, hf, Value.elems, writeElems, h2]
      · intro n hc he
        cases he
        have hb : (l.bump (.word n)).ty = l.ty := by simp only [WLeaf.bump]; split <;> rfl
        rw [hb] at hc
        exact bump_max hc
  | arr dims =>
    rw [hf] at hfit h4
    cases x with
    | val e => exact absurd hfit (by simp)
    | list es =>
      simp only at hfit h4
      refine ⟨l, ?_, hfor, fun n _ he => by cases he⟩
      simp only [writeLeaf, h4.1, h4.2.1, h4.2.2.1, h2]
      rw [if_neg (by simp), if_pos (by omega), ← hfit.1, List.take_length]
      simp [seen, hf, Value.elems]
  | sli c =>
    rw [hf] at hfit h4
    cases x with
    | val e => exact absurd hfit (by simp)
    | list es =>
      simp only at hfit h4
      obtain ⟨a1, a2, a3, j, vc, a4, a5, a6, a7, a8, a9⟩ := h4
      refine ⟨l, ?_, hfor, fun n _ he => by cases he⟩
      -- the count
      obtain ⟨lc, b1, b2⟩ := hw.get a6
      have hjl : j < row.length := by
        rw [hrow.1]; exact (List.getElem?_eq_some_iff.mp a6).1
      have hrj : row[j]? = some row[j] := List.getElem?_eq_getElem hjl
      have hfc := hrow.2 (vc, row[j]) (mem_zip_get a6 hrj)
      unfold FitsVar at hfc
      simp only [a8] at hfc
      cases hxj : row[j] with
      | list es' => rw [hxj] at hfc; exact absurd hfc (by simp)
      | val e =>
        rw [hxj] at hfc hrj
        simp only at hfc
        cases e with
        | bool b => exact absurd hfc (int_not_bool a9)
        | str s => exact absurd hfc.1 (int_not_str a9)
        | word n =>
          have hn : countVal vars row c = n := by
            rw [← a7]; exact countVal_mem hok.nodup (mem_zip_get a6 hrj)
          have hsm : n < 2 ^ (8 * vc.ty.width - 1) := by
            rw [← hn]; exact hfit.2.2 vc (List.mem_of_getElem? a6) a7
          have hty : lc.ty = vc.ty := b2.2.1
          have hmax : (n : Int) ≤ lc.max := by
            have := hr j lc n a4 b1 (by rw [hty]; exact counts_of_int a9) hrj
            rwa [hty, signed_small hsm] at this
          have hptr : lc.ptr = true := by
            have := b2.2.2.2
            rw [a8] at this
            exact this.1
          have hco : countOf ls row j = some (n : Int) := by
            simp only [countOf, b1, hrj, hptr, if_true, hty, signed_small hsm]
            rw [if_neg (by omega)]
          have hle := hfit.2.1
          rw [hn] at hle
          simp only [writeLeaf, a1, a5, hco, a2, h2]
          rw [if_neg (by simp), if_pos (by constructor <;> simp [hle])]
          simp [seen, hf, Value.elems, hn]

/-- The rest of a row. -/
theorem writeFrom_ok {vars : List Var} {row : List Value} (hok : VarsOK vars)
    (hrow : RowOK vars row) (vs : List Value) (i : Nat) (hvs : vs = row.drop i)
    (hi : i ≤ row.length) (ls : List WLeaf) (hw : WInv vars ls) (hr : Ready row i ls) :
    ∃ ls', writeFrom row ls i vs = some ((rowBytes vars row).drop i, ls') ∧ WInv vars ls' := by
  induction vs generalizing i ls with
  | nil =>
    have : row.length ≤ i := List.drop_eq_nil_iff.mp hvs.symm
    refine ⟨ls, ?_, hw⟩
    rw [List.drop_eq_nil_of_le (by simp only [rowBytes, List.length_map, List.length_zip]; omega)]
    rfl
  | cons x vs ih =>
    have hlt : i < row.length := by
      by_contra hc
      rw [List.drop_eq_nil_of_le (by omega)] at hvs
      exact absurd hvs (by simp)
    have hd := List.drop_eq_getElem_cons hlt
    rw [hd] at hvs
    injection hvs with hx hvs'
    have hx' : row[i]? = some x := by rw [hx]; exact List.getElem?_eq_getElem hlt
    have hiv : i < vars.length := by rw [← hrow.1]; exact hlt
    have hv : vars[i]? = some vars[i] := List.getElem?_eq_getElem hiv
    obtain ⟨l, hl, hfor⟩ := hw.get hv
    obtain ⟨l', w1, w2, w3⟩ := writeLeaf_ok hok hrow hw hr hv hl hx'
    have hil : i < ls.length := by rw [hw.length]; exact hiv
    have hw' : WInv vars (ls.set i l') := by
      refine ⟨by simp [hw.length], ?_⟩
      intro k w m hkw hkm
      by_cases hki : i = k
      · subst hki
        rw [List.getElem?_set_self hil] at hkm
        rw [hv] at hkw
        cases hkw; cases hkm
        exact w2
      · rw [List.getElem?_set_ne hki] at hkm
        exact hw.each k w m hkw hkm
    have hr' : Ready row (i + 1) (ls.set i l') := by
      intro j m n hj hm hc hn
      by_cases hji : i = j
      · subst hji
        rw [List.getElem?_set_self hil] at hm
        cases hm
        rw [hx'] at hn
        exact w3 n hc (by injection hn)
      · rw [List.getElem?_set_ne hji] at hm
        exact hr j m n (by omega) hm hc hn
    obtain ⟨ls', e1, e2⟩ := ih (i + 1) hvs' hlt (ls.set i l') hw' hr'
    refine ⟨ls', ?_, e2⟩
    have hb : i < (rowBytes vars row).length := by
      simp only [rowBytes, List.length_map, List.length_zip]; omega
    rw [List.drop_eq_getElem_cons hb]
    simp only [writeFrom, hl, w1, e1]
    congr 3
    simp [rowBytes, hx]

/-- All rows. -/
theorem writeRows_ok {vars : List Var} (hok : VarsOK vars) (rows : List (List Value))
    (hrows : ∀ row ∈ rows, RowOK vars row) (ls : List WLeaf) (hw : WInv vars ls) :
    ∃ ls', writeRows ls rows = some (rows.map (rowBytes vars), ls') ∧ WInv vars ls' := by
  induction rows generalizing ls with
  | nil => exact ⟨ls, rfl, hw⟩
  | cons row rows ih =>
    obtain ⟨l1, e1, e2⟩ := writeFrom_ok hok (hrows row (by simp)) row 0 rfl (by omega) ls hw
      (fun j _ _ hj => absurd hj (by omega))
    obtain ⟨l2, f1, f2⟩ := ih (fun r hr => hrows r (by simp [hr])) l1 e2
    refine ⟨l2, ?_, f2⟩
    simp only [writeRows, e1, f1, List.drop_zero, List.map_cons]

/-- **C145, writing.**  For variables a tree can be made of, any number of rows of fitting values
can be written; every variable of every row gets the bytes of the elements a reader has to see,
one after the other. -/
theorem C145_write (vars : List Var) (hok : VarsOK vars) (rows : List (List Value))
    (hrows : ∀ row ∈ rows, RowOK vars row) :
    ∃ ls0 ls, newLeaves [] vars = some ls0 ∧
      writeRows ls0 rows = some (rows.map (rowBytes vars), ls) ∧ WInv vars ls := by
  obtain ⟨ls0, h1, h2⟩ := newLeaves_inv [] vars [] (by simpa using hok)
    ⟨rfl, fun i v l h => by simp at h⟩
  obtain ⟨ls, h3, h4⟩ := writeRows_ok hok rows hrows ls0 (by simpa using h2)
  exact ⟨ls0, ls, h1, h3, h4⟩

/-- The bytes of a value of fixed size have that size, so that the branch of the variable can
find the entries by their number. -/
theorem C145_size (vars : List Var) (hok : VarsOK vars) (row : List Value)
    (hrow : RowOK vars row) (v : Var) (x : Value) (h : (v, x) ∈ vars.zip row) (n : Nat)
    (hk : v.kind = .fixed n) : (writeElems v.ty (seen vars row v x).elems).length = n := by
  have hfit := hrow.2 (v, x) h
  have hm := (List.of_mem_zip h).1
  unfold FitsVar at hfit
  simp only at hfit
  unfold Var.kind at hk
  cases hf : v.form with
  | val =>
    rw [hf] at hfit hk
    cases x with
    | list es => exact absurd hfit (by simp)
    | val e =>
      simp only at hfit hk
      split at hk
      · exact absurd hk (by simp)
      · next ht =>
        cases hk
        simp only [seen, hf, Value.elems]
        rw [writeElems_width v.ty [e] (fun y hy => by simp at hy; subst hy; exact hfit) ht]
        simp
  | arr dims =>
    rw [hf] at hfit hk
    cases x with
    | val e => exact absurd hfit (by simp)
    | list es =>
      simp only at hfit hk
      cases hk
      simp only [seen, hf, Value.elems]
      rw [writeElems_width v.ty es hfit.2 (hok.arr v hm dims hf).1, hfit.1, foldl_mul, Nat.one_mul]
  | sli c => rw [hf] at hk; simp at hk

end Verif.RTree.Leaf
