import Verif.RTree.Formula
import Mathlib.Data.List.Forall2
import Mathlib.Data.List.Nodup

/-!
# C166: formulas over tree variables
-/

namespace Verif.RTree.Formula

variable {N T V R : Type} [DecidableEq N] [DecidableEq T]

/-! ## Specification -/

/-- The leaf that the name of a branch stands for, and its type: that of the last variable of this name
that the user gave, or the first leaf of the branch. -/
def pick (leaves : List (Leaf N T)) (user : List (RVar N T)) (nm : N) : Option (N × T) :=
  match (user.filter fun v => decide (v.br = nm)).getLast? with
  | some v => some (v.leaf, v.ty)
  | none => ((leaves.filter fun l => decide (l.br = nm)).head?).map fun l => (l.leaf, l.ty)

/-- The variables the user gave have their own memory. -/
def Apart (user : List (RVar N T)) (next : Nat) : Prop :=
  (user.map RVar.addr).Nodup ∧ ∀ v ∈ user, v.addr < next

/-- No request for a formula fails. -/
def AllOk (leaves : List (Leaf N T)) (val : Nat → N → N → V) (s : Rdr N T V R) : List (Op N T V R) → Prop
  | [] => True
  | .formula names fn :: os => (formula leaves s names fn).2 = true ∧
      AllOk leaves val (apply leaves val s (.formula names fn)) os
  | o :: os => AllOk leaves val (apply leaves val s o) os

/-! ## Variables -/

omit [DecidableEq T] in
theorem loaded_append (vs : List (RVar N T)) (v : RVar N T) (nm : N) :
    loaded (vs ++ [v]) nm = if v.br = nm then some v else loaded vs nm := by
  simp only [loaded, List.reverse_append, List.reverse_cons, List.reverse_nil, List.nil_append,
    List.cons_append, List.find?_cons]
  by_cases h : v.br = nm <;> simp [h]

omit [DecidableEq T] in
theorem loaded_mem {vs : List (RVar N T)} {nm : N} {v : RVar N T} (h : loaded vs nm = some v) :
    v ∈ vs ∧ v.br = nm := by
  refine ⟨by simpa using List.mem_of_find?_eq_some h, ?_⟩
  simpa using List.find?_some h

omit [DecidableEq T] in
theorem loaded_none {vs : List (RVar N T)} {nm : N} (h : loaded vs nm = none) : ∀ v ∈ vs, v.br ≠ nm := by
  intro v hv
  simpa using List.find?_eq_none.1 h v (by simpa using hv)

omit [DecidableEq T] in
theorem pick_user {leaves : List (Leaf N T)} {user : List (RVar N T)} {nm : N} :
    pick leaves user nm = match loaded user nm with
      | some v => some (v.leaf, v.ty)
      | none => (leaves.find? fun l => decide (l.br = nm)).map fun l => (l.leaf, l.ty) := by
  simp only [pick, loaded]
  rw [List.getLast?_eq_head?_reverse, ← List.filter_reverse, List.head?_filter, List.head?_filter]

omit [DecidableEq T] [DecidableEq N] in
theorem newVars_addr (ls : List (Leaf N T)) (a : Nat) :
    ∀ v ∈ newVars ls a, a ≤ v.addr ∧ v.addr < a + ls.length := by
  induction ls generalizing a with
  | nil => simp [newVars]
  | cons l ls ih =>
    intro v hv
    simp only [newVars, List.mem_cons] at hv
    simp only [List.length_cons]
    rcases hv with rfl | hv
    · exact ⟨Nat.le_refl _, by simp only; omega⟩
    · have := ih (a + 1) v hv; omega

omit [DecidableEq T] [DecidableEq N] in
theorem newVars_nodup (ls : List (Leaf N T)) (a : Nat) : ((newVars ls a).map RVar.addr).Nodup := by
  induction ls generalizing a with
  | nil => simp [newVars]
  | cons l ls ih =>
    simp only [newVars, List.map_cons, List.nodup_cons, ih, and_true, List.mem_map, not_exists, not_and]
    intro v hv e
    have := newVars_addr ls (a + 1) v hv
    omega

omit [DecidableEq T] in
theorem firstNew_some {ls : List (Leaf N T)} {a : Nat} {nm : N} {v : RVar N T}
    (h : firstNew (newVars ls a) nm = some v) :
    v ∈ newVars ls a ∧ v.br = nm ∧
    (ls.find? fun l => decide (l.br = nm)).map (fun l => (l.leaf, l.ty)) = some (v.leaf, v.ty) := by
  refine ⟨List.mem_of_find?_eq_some h, by simpa using List.find?_some h, ?_⟩
  induction ls generalizing a with
  | nil => simp [newVars, firstNew] at h
  | cons l ls ih =>
    simp only [firstNew, newVars, List.find?_cons] at h ⊢
    by_cases hl : l.br = nm
    · simp only [hl, decide_true, Option.some.injEq] at h
      subst h
      simp [hl]
    · simp only [hl, decide_false] at h ⊢
      exact ih h

omit [DecidableEq T] in
theorem firstNew_none {ls : List (Leaf N T)} {a : Nat} {nm : N}
    (h : firstNew (newVars ls a) nm = none) : (ls.find? fun l => decide (l.br = nm)) = none := by
  induction ls generalizing a with
  | nil => rfl
  | cons l ls ih =>
    simp only [firstNew, newVars, List.find?_cons] at h ⊢
    by_cases hl : l.br = nm
    · simp [hl] at h
    · simp only [hl, decide_false] at h ⊢
      exact ih h

/-- What holds of the variables of a reader, `fr` being new ones. -/
structure VOk (leaves : List (Leaf N T)) (user : List (RVar N T)) (nx : Nat) (fr vs : List (RVar N T)) :
    Prop where
  nodup : (vs.map RVar.addr).Nodup
  lt : ∀ v ∈ vs, v.addr < nx ∨ v ∈ fr
  src : ∀ nm v, loaded vs nm = some v → pick leaves user nm = some (v.leaf, v.ty)
  non : ∀ nm, loaded vs nm = none → loaded user nm = none
  pre : user <+: vs

omit [DecidableEq T] in
theorem VOk.push {leaves : List (Leaf N T)} {user : List (RVar N T)} {nx : Nat} {vs : List (RVar N T)}
    (h : VOk leaves user nx (newVars leaves nx) vs) {nm : N} {v : RVar N T} (h0 : loaded vs nm = none)
    (hv : firstNew (newVars leaves nx) nm = some v) :
    VOk leaves user nx (newVars leaves nx) (vs ++ [v]) := by
  obtain ⟨hm, hb, hp⟩ := firstNew_some hv
  subst hb
  refine ⟨?_, ?_, ?_, ?_, h.pre.trans (List.prefix_append _ _)⟩
  · rw [List.map_append, List.nodup_append]
    refine ⟨h.nodup, by simp, ?_⟩
    intro a ha b hb e
    simp only [List.map_cons, List.map_nil, List.mem_singleton] at hb
    obtain ⟨w, hw, rfl⟩ := List.mem_map.1 ha
    have hne : w.br ≠ v.br := loaded_none h0 w hw
    rcases h.lt w hw with hl | hl
    · have := newVars_addr leaves nx v hm
      omega
    · have := List.inj_on_of_nodup_map (newVars_nodup leaves nx) hl hm (by omega)
      exact hne (by rw [this])
  · intro w hw
    rcases List.mem_append.1 hw with hw | hw
    · exact h.lt w hw
    · rw [List.mem_singleton.1 hw]; exact .inr hm
  · intro nm w hw
    rw [loaded_append] at hw
    split at hw
    · rename_i e
      subst e
      cases hw
      rw [pick_user, h.non _ h0]
      exact hp
    · exact h.src nm w hw
  · intro nm hw
    rw [loaded_append] at hw
    split at hw
    · cases hw
    · exact h.non nm hw

omit [DecidableEq T] in
theorem autoLoad_ok {leaves : List (Leaf N T)} {user : List (RVar N T)} {nx : Nat} {names : List N}
    {vs : List (RVar N T)} (h : VOk leaves user nx (newVars leaves nx) vs) :
    VOk leaves user nx (newVars leaves nx) (autoLoad (newVars leaves nx) names vs).1 ∧
    vs <+: (autoLoad (newVars leaves nx) names vs).1 ∧
    (∀ nm v, loaded vs nm = some v → loaded (autoLoad (newVars leaves nx) names vs).1 nm = some v) ∧
    (autoLoad (newVars leaves nx) names vs).2.length ≤ names.length ∧
    ((autoLoad (newVars leaves nx) names vs).2.length = names.length →
      List.Forall₂ (fun nm v => loaded (autoLoad (newVars leaves nx) names vs).1 nm = some v) names
        (autoLoad (newVars leaves nx) names vs).2) ∧
    ((∀ nm ∈ names, pick leaves user nm ≠ none) →
      (autoLoad (newVars leaves nx) names vs).2.length = names.length) := by
  induction names generalizing vs with
  | nil => simp [autoLoad, h]
  | cons nm nms ih =>
    cases hl : loaded vs nm with
    | some v =>
      obtain ⟨h1, h2, h3, h4, h5, h6⟩ := ih h
      simp only [autoLoad, hl, List.length_cons]
      refine ⟨h1, h2, h3, by omega, fun e => .cons (h3 nm v hl) (h5 (by omega)), fun e => ?_⟩
      rw [h6 fun x hx => e x (by simp [hx])]
    | none =>
      cases hf : firstNew (newVars leaves nx) nm with
      | some v =>
        obtain ⟨h1, h2, h3, h4, h5, h6⟩ := ih (h.push hl hf)
        simp only [autoLoad, hl, hf, List.length_cons]
        have hb := (firstNew_some hf).2.1
        refine ⟨h1, (List.prefix_append _ _).trans h2, ?_, by omega,
          fun e => .cons (h3 nm v (by rw [loaded_append]; simp [hb])) (h5 (by omega)), fun e => ?_⟩
        · intro nm' w hw
          refine h3 nm' w ?_
          rw [loaded_append]
          split
          · rename_i e
            rw [← e, hb, hl] at hw; cases hw
          · exact hw
        · rw [h6 fun x hx => e x (by simp [hx])]
      | none =>
        obtain ⟨h1, h2, h3, h4, h5, h6⟩ := ih h
        simp only [autoLoad, hl, hf, List.length_cons]
        refine ⟨h1, h2, h3, by omega, fun e => by omega, fun e => ?_⟩
        refine absurd ?_ (e nm (by simp))
        rw [pick_user, h.non nm hl, firstNew_none hf]
        rfl

omit [DecidableEq N] in
theorem bindOk_iff {vs : List (RVar N T)} {ts : List T} :
    bindOk vs ts = true ↔ List.Forall₂ (fun v t => v.ty = t) vs ts := by
  induction vs generalizing ts with
  | nil => cases ts <;> simp [bindOk]
  | cons v vs ih => cases ts <;> simp [bindOk, ih]

/-! ## The reader -/

/-- What holds of every reader. -/
structure Inv (leaves : List (Leaf N T)) (user : List (RVar N T)) (s : Rdr N T V R) : Prop where
  ok : VOk leaves user s.next [] s.rvars
  sub : ∀ v ∈ s.inner, v ∈ s.rvars
  nodup : (s.inner.map RVar.addr).Nodup
  forms : ∀ f ∈ s.evals, f.fn.outs = 1 ∧ ∃ vs, f.ptrs = vs.map RVar.addr ∧
    List.Forall₂ (fun nm v => loaded s.rvars nm = some v) f.names vs ∧
    List.Forall₂ (fun v t => v.ty = t) vs f.fn.ins

/-- The internal reader has all variables, or will be made again. -/
def Sync (s : Rdr N T V R) : Prop := s.dirty = true ∨ s.inner = s.rvars

omit [DecidableEq T] in
theorem VOk.weaken {leaves : List (Leaf N T)} {user vs fr : List (RVar N T)} {nx : Nat}
    (h : VOk leaves user nx [] vs) : VOk leaves user nx fr vs :=
  ⟨h.nodup, fun v hv => .inl (by simpa using h.lt v hv), h.src, h.non, h.pre⟩

omit [DecidableEq T] in
theorem VOk.later {leaves : List (Leaf N T)} {user vs : List (RVar N T)} {nx : Nat}
    (h : VOk leaves user nx (newVars leaves nx) vs) : VOk leaves user (nx + leaves.length) [] vs :=
  ⟨h.nodup, fun v hv => by
    rcases h.lt v hv with h | h
    · exact .inl (by omega)
    · exact .inl (newVars_addr leaves nx v h).2, h.src, h.non, h.pre⟩

theorem formula_inv {leaves : List (Leaf N T)} {user : List (RVar N T)} {s : Rdr N T V R}
    (h : Inv leaves user s) (names : List N) (fn : Fn T V R) :
    Inv leaves user (formula leaves s names fn).1 := by
  obtain ⟨h1, h2, h3, h4, h5, h6⟩ := autoLoad_ok (names := names) (h.ok.weaken (fr := newVars leaves s.next))
  have keep : ∀ f ∈ s.evals, f.fn.outs = 1 ∧ ∃ vs, f.ptrs = vs.map RVar.addr ∧
      List.Forall₂ (fun nm v => loaded (autoLoad (newVars leaves s.next) names s.rvars).1 nm = some v)
        f.names vs ∧ List.Forall₂ (fun v t => v.ty = t) vs f.fn.ins := by
    intro f hf
    obtain ⟨ho, vs, e, ha, hb⟩ := h.forms f hf
    exact ⟨ho, vs, e, ha.imp fun nm v => h3 nm v, hb⟩
  simp only [formula]
  split
  · rename_i hs
    split
    · rename_i hc
      refine ⟨h1.later, fun v hv => h2.subset (h.sub v hv), h.nodup, ?_⟩
      intro f hf
      rcases List.mem_append.1 hf with hf | hf
      · exact keep f hf
      · rw [List.mem_singleton.1 hf]
        simp only [suits, Bool.and_eq_true, decide_eq_true_eq] at hs
        exact ⟨hs.2, _, rfl, h5 hc.1, bindOk_iff.1 hc.2⟩
    · exact ⟨h1.later, fun v hv => h2.subset (h.sub v hv), h.nodup, keep⟩
  · exact h

theorem formula_sync {leaves : List (Leaf N T)} {user : List (RVar N T)} {s : Rdr N T V R}
    (h : Inv leaves user s) (hs : Sync s) {names : List N} {fn : Fn T V R}
    (hok : (formula leaves s names fn).2 = true) : Sync (formula leaves s names fn).1 := by
  obtain ⟨h1, h2, -⟩ := autoLoad_ok (names := names) (h.ok.weaken (fr := newVars leaves s.next))
  simp only [formula] at hok ⊢
  split at hok
  · rename_i hsu
    simp only [hsu, if_true]
    split at hok
    · rename_i hc
      rw [if_pos hc]
      simp only [Sync]
      rcases hs with hs | hs
      · left; simp [hs]
      · by_cases he : s.rvars.length = (autoLoad (newVars leaves s.next) names s.rvars).1.length
        · right
          rw [hs]
          exact h2.eq_of_length he
        · left; simp [he]
    · simp at hok
  · simp at hok

omit [DecidableEq T] in
theorem refresh_inv {leaves : List (Leaf N T)} {user : List (RVar N T)} {s : Rdr N T V R}
    (h : Inv leaves user s) : Inv leaves user (refresh s) := by
  simp only [refresh]
  split
  · exact ⟨h.ok, fun _ hv => hv, h.ok.nodup, h.forms⟩
  · exact h

omit [DecidableEq N] [DecidableEq T] in
theorem refresh_sync {s : Rdr N T V R} (hs : Sync s) : (refresh s).inner = (refresh s).rvars := by
  simp only [refresh]
  split
  · rfl
  · rename_i h
    exact hs.resolve_left h

theorem apply_inv {leaves : List (Leaf N T)} {user : List (RVar N T)} {val : Nat → N → N → V}
    {s : Rdr N T V R} (h : Inv leaves user s) (o : Op N T V R) : Inv leaves user (apply leaves val s o) := by
  cases o with
  | formula names fn => exact formula_inv h names fn
  | read =>
    have := refresh_inv h
    exact ⟨this.ok, this.sub, this.nodup, this.forms⟩
  | reset b e => exact ⟨h.ok, fun _ hv => hv, h.ok.nodup, h.forms⟩

theorem applyAll_inv {leaves : List (Leaf N T)} {user : List (RVar N T)} {val : Nat → N → N → V}
    {os : List (Op N T V R)} {s : Rdr N T V R} (h : Inv leaves user s) :
    Inv leaves user (applyAll leaves val s os) := by
  induction os generalizing s with
  | nil => exact h
  | cons o os ih => exact ih (apply_inv h o)

theorem applyAll_sync {leaves : List (Leaf N T)} {user : List (RVar N T)} {val : Nat → N → N → V}
    {os : List (Op N T V R)} {s : Rdr N T V R} (h : Inv leaves user s) (hs : Sync s)
    (hok : AllOk leaves val s os) : Sync (applyAll leaves val s os) := by
  induction os generalizing s with
  | nil => exact hs
  | cons o os ih =>
    cases o with
    | formula names fn => exact ih (apply_inv h _) (formula_sync h hs hok.1) hok.2
    | read => exact ih (apply_inv h _) (.inr (refresh_sync hs)) hok
    | reset b e => exact ih (apply_inv h _) (.inr rfl) hok

theorem applyAll_append (leaves : List (Leaf N T)) (val : Nat → N → N → V) (s : Rdr N T V R)
    (os os' : List (Op N T V R)) :
    applyAll leaves val s (os ++ os') = applyAll leaves val (applyAll leaves val s os) os' := by
  induction os generalizing s with
  | nil => rfl
  | cons o os ih => exact ih _

omit [DecidableEq T] in
theorem new_inv (leaves : List (Leaf N T)) {user : List (RVar N T)} {next : Nat} (h : Apart user next)
    (mem : Nat → V) (beg fin : Nat) : Inv leaves user (new user mem next beg fin : Rdr N T V R) := by
  refine ⟨⟨h.1, fun v hv => .inl (h.2 v hv), ?_, fun _ => id, List.prefix_refl _⟩, fun _ hv => hv, h.1, by simp [new]⟩
  intro nm v hv
  have hv : loaded user nm = some v := hv
  rw [pick_user, hv]

/-! ## Reading -/

omit [DecidableEq N] [DecidableEq T] in
theorem load_other (val : Nat → N → N → V) (i : Nat) {vs : List (RVar N T)} {m : Nat → V} {a : Nat}
    (h : a ∉ vs.map RVar.addr) : load val i vs m a = m a := by
  induction vs generalizing m with
  | nil => rfl
  | cons v vs ih =>
    simp only [List.map_cons, List.mem_cons, not_or] at h
    simp only [load]
    rw [ih h.2]
    simp [h.1]

omit [DecidableEq N] [DecidableEq T] in
theorem load_mem (val : Nat → N → N → V) (i : Nat) {vs : List (RVar N T)} {m : Nat → V}
    (h : (vs.map RVar.addr).Nodup) {v : RVar N T} (hv : v ∈ vs) :
    load val i vs m v.addr = val i v.br v.leaf := by
  induction vs generalizing m with
  | nil => simp at hv
  | cons w vs ih =>
    simp only [List.map_cons, List.nodup_cons] at h
    simp only [load]
    rcases List.mem_cons.1 hv with rfl | hv
    · rw [load_other val i h.1]; simp
    · exact ih h.2 hv

omit [DecidableEq N] [DecidableEq T] in
theorem loop_mem {val : Nat → N → N → V} {vs : List (RVar N T)} {i k : Nat} {m : Nat → V}
    {p : Nat × (Nat → V)} (h : p ∈ loop val vs i k m) : ∃ m', p.2 = load val p.1 vs m' := by
  induction k generalizing i m with
  | zero => simp [loop] at h
  | succ k ih =>
    simp only [loop, List.mem_cons] at h
    rcases h with rfl | h
    · exact ⟨m, rfl⟩
    · exact ih h

omit [DecidableEq N] [DecidableEq T] in
theorem loop_fst {val : Nat → N → N → V} {vs : List (RVar N T)} {i k : Nat} {m : Nat → V} :
    (loop val vs i k m).map Prod.fst = List.range' i k := by
  induction k generalizing i m with
  | zero => rfl
  | succ k ih => simp [loop, ih, List.range'_succ]

omit [DecidableEq N] [DecidableEq T] in
theorem forall₂_map_addr {P : N → RVar N T → Prop} {Q : N → V → Prop} {names : List N} {vs : List (RVar N T)}
    (g : Nat → V) (h : List.Forall₂ P names vs) (hq : ∀ nm v, P nm v → Q nm (g v.addr)) :
    List.Forall₂ Q names ((vs.map RVar.addr).map g) := by
  induction h with
  | nil => exact .nil
  | cons h1 _ ih => exact .cons (hq _ _ h1) ih

/-- **C166** (values): after any use of a reader in which no request for a formula failed since the last
`Reset` (or since the beginning), `Read` calls its callback for the entries of the range, in order; there
every formula that was given so far has the value of its function for the values that the leaves of its
names hold in this entry, and all variables of the user hold this entry. The function must have no
`...`. -/
theorem C166_value_partial (leaves : List (Leaf N T)) (val : Nat → N → N → V) {user : List (RVar N T)}
    {next : Nat} (hu : Apart user next) (mem : Nat → V) (beg fin : Nat) (os os' : List (Op N T V R))
    (hr : os = [] ∨ ∃ os0 b e, os = os0 ++ [.reset b e])
    (hok : AllOk leaves val (applyAll leaves val (new user mem next beg fin) os) os') :
    let s := applyAll leaves val (new user mem next beg fin) (os ++ os')
    (calls val s).map Prod.fst = List.range' s.beg (s.fin - s.beg) ∧
    ∀ i m, (i, m) ∈ calls val s →
      (∀ u ∈ user, m u.addr = val i u.br u.leaf) ∧
      ∀ f ∈ s.evals, f.fn.variadic = false → ∃ args,
        List.Forall₂ (fun nm x => ∃ lf t, pick leaves user nm = some (lf, t) ∧ x = val i nm lf) f.names args ∧
        eval f m = some (f.fn.ap args) := by
  intro s
  have h0 := new_inv (R := R) leaves hu mem beg fin
  have hI0 : Inv leaves user (applyAll leaves val (new user mem next beg fin) os) := applyAll_inv h0
  have hS0 : Sync (applyAll leaves val (new user mem next beg fin) os) := by
    rcases hr with rfl | ⟨os0, b, e, rfl⟩
    · exact .inr rfl
    · rw [applyAll_append]; exact .inr rfl
  have hI : Inv leaves user s := applyAll_inv h0
  have hS : Sync s := by
    show Sync (applyAll leaves val _ (os ++ os'))
    rw [applyAll_append]
    exact applyAll_sync hI0 hS0 hok
  have hR := refresh_inv hI
  have hin := refresh_sync hS
  refine ⟨loop_fst, fun i m hm => ?_⟩
  obtain ⟨m', e0⟩ := loop_mem hm
  have e0 : m = load val i (refresh s).inner m' := e0
  subst e0
  have get : ∀ v ∈ (refresh s).rvars, load val i (refresh s).inner m' v.addr = val i v.br v.leaf :=
    fun v hv => load_mem val i hR.nodup (by rw [hin]; exact hv)
  refine ⟨fun u hu => get u (hR.ok.pre.subset hu), fun f hf hv => ?_⟩
  have hf' : f ∈ (refresh s).evals := by
    simp only [refresh]; split <;> exact hf
  obtain ⟨-, vs, e, ha, -⟩ := hR.forms f hf'
  refine ⟨(vs.map RVar.addr).map (load val i (refresh s).inner m'), ?_, ?_⟩
  · refine forall₂_map_addr _ ha fun nm v hl => ?_
    obtain ⟨hm, hb⟩ := loaded_mem hl
    exact ⟨v.leaf, v.ty, hR.ok.src nm v hl, by rw [get v hm, hb]⟩
  · simp [eval, hv, e]

omit [DecidableEq N] [DecidableEq T] in
theorem forall₂_pick {names : List N} {vs : List (RVar N T)} {ts : List T} {P : N → RVar N T → Prop}
    {Q : N → T → Prop} (h1 : List.Forall₂ P names vs) (hpq : ∀ nm v, P nm v → ∀ t, v.ty = t ↔ Q nm t) :
    List.Forall₂ (fun v t => v.ty = t) vs ts ↔ List.Forall₂ Q names ts := by
  induction h1 generalizing ts with
  | nil => cases ts <;> simp
  | cons h _ ih =>
    cases ts with
    | nil => simp
    | cons t ts => simp only [List.forall₂_cons, ih, hpq _ _ h t]

/-- **C166** (requests): at any time a request for a formula succeeds exactly if the function has one
result and an argument for each name, of the type of the leaf that the name stands for. -/
theorem C166_accepted (leaves : List (Leaf N T)) (val : Nat → N → N → V) {user : List (RVar N T)}
    {next : Nat} (hu : Apart user next) (mem : Nat → V) (beg fin : Nat) (os : List (Op N T V R))
    (names : List N) (fn : Fn T V R) :
    (formula leaves (applyAll leaves val (new user mem next beg fin) os) names fn).2 = true ↔
      fn.outs = 1 ∧ List.Forall₂ (fun nm t => ∃ lf, pick leaves user nm = some (lf, t)) names fn.ins := by
  have hI : Inv leaves user (applyAll leaves val (new user mem next beg fin) os) :=
    applyAll_inv (new_inv leaves hu mem beg fin)
  generalize applyAll leaves val (new user mem next beg fin) os = s at hI ⊢
  obtain ⟨h1, h2, h3, h4, h5, h6⟩ := autoLoad_ok (names := names) (hI.ok.weaken (fr := newVars leaves s.next))
  have key : ∀ nm v, loaded (autoLoad (newVars leaves s.next) names s.rvars).1 nm = some v → ∀ t,
      v.ty = t ↔ ∃ lf, pick leaves user nm = some (lf, t) := by
    intro nm v hl t
    rw [h1.src nm v hl]
    constructor
    · rintro rfl; exact ⟨v.leaf, rfl⟩
    · rintro ⟨lf, e⟩; cases e; rfl
  constructor
  · intro h
    simp only [formula] at h
    split at h
    · rename_i hs
      simp only [suits, Bool.and_eq_true, decide_eq_true_eq] at hs
      split at h
      · rename_i hc
        exact ⟨hs.2, (forall₂_pick (h5 hc.1) key).1 (bindOk_iff.1 hc.2)⟩
      · simp at h
    · simp at h
  · rintro ⟨ho, hf⟩
    have hlen := hf.length_eq
    have hall : ∀ nm ∈ names, pick leaves user nm ≠ none := by
      intro nm hnm hnone
      obtain ⟨i, hi, rfl⟩ := List.mem_iff_getElem.1 hnm
      obtain ⟨lf, e⟩ := hf.get hi (by omega)
      simp only [List.get_eq_getElem] at e
      rw [hnone] at e; cases e
    have hn := h6 hall
    have hb := bindOk_iff.2 ((forall₂_pick (h5 hn) key).2 hf)
    simp [formula, suits, hlen, ho, hn, hb]

/-- **C166** (given formulas): a request that succeeds gives a formula of its names and its function, and
the reader keeps it whatever follows. -/
theorem C166_given (leaves : List (Leaf N T)) (val : Nat → N → N → V) (s : Rdr N T V R) (names : List N)
    (fn : Fn T V R) (h : (formula leaves s names fn).2 = true) (os : List (Op N T V R)) :
    ∃ f ∈ (applyAll leaves val s (.formula names fn :: os)).evals, f.names = names ∧ f.fn = fn := by
  have keep1 : ∀ (s : Rdr N T V R) o, ∀ f ∈ s.evals, f ∈ (apply leaves val s o).evals := by
    intro s o f hf
    cases o with
    | formula names fn =>
      simp only [apply, formula]
      split
      · split
        · exact List.mem_append_left _ hf
        · exact hf
      · exact hf
    | read =>
      simp only [apply, read, refresh]
      split <;> exact hf
    | reset b e => exact hf
  have keep : ∀ (os : List (Op N T V R)) (s : Rdr N T V R), ∀ f ∈ s.evals,
      f ∈ (applyAll leaves val s os).evals := by
    intro os
    induction os with
    | nil => intro s f hf; exact hf
    | cons o os ih => intro s f hf; exact ih _ f (keep1 s o f hf)
  obtain ⟨f, hf, hn⟩ : ∃ f ∈ (formula leaves s names fn).1.evals, f.names = names ∧ f.fn = fn := by
    simp only [formula] at h ⊢
    split at h
    · rename_i hs
      split at h
      · rename_i hc
        rw [if_pos hs, if_pos hc]
        exact ⟨_, List.mem_append_right _ (List.mem_singleton.2 rfl), rfl, rfl⟩
      · simp at h
    · simp at h
  exact ⟨f, keep os _ f hf, hn⟩

/-! ## Counterexamples and examples -/

/-- A tree with one branch `0` and leaf `0` of type 1, that holds `i + 10` in entry `i`. -/
def oneLeaf : List (Leaf Nat Nat) := [⟨0, 0, 1⟩]

def vals (i _ _ : Nat) : Nat := i + 10

/-- The identity as a function of an argument of the type `t`. -/
def idFn (t : Nat) (variadic : Bool) : Fn Nat Nat (List Nat) := ⟨[t], 1, variadic, id⟩

/-- The values of all formulas for all entries. -/
def results (s : Rdr Nat Nat Nat (List Nat)) : List (List (Option (List Nat))) :=
  (calls vals s).map fun p => s.evals.map fun f => eval f p.2

/-- After a request that fails because of the type of an argument, the right request succeeds, but its
branch is never read: the formula has the value of the zero value of the variable (here 0). -/
theorem C166_stale_counterexample :
    (formula oneLeaf (new [] (fun _ => 0) 0 0 2) [0] (idFn 2 false)).2 = false ∧
    results (applyAll oneLeaf vals (new [] (fun _ => 0) 0 0 2)
      [.formula [0] (idFn 2 false), .formula [0] (idFn 1 false)]) = [[some [0]], [some [0]]] ∧
    results (applyAll oneLeaf vals (new [] (fun _ => 0) 0 0 2)
      [.formula [0] (idFn 1 false)]) = [[some [10]], [some [11]]] := by
  decide +kernel

/-- A function with `...` is accepted for a branch of slices, and panics when the formula is used. -/
theorem C166_variadic_counterexample :
    (formula oneLeaf (new [] (fun _ => 0) 0 0 1) [0] (idFn 1 true)).2 = true ∧
    results (applyAll oneLeaf vals (new [] (fun _ => 0) 0 0 1) [.formula [0] (idFn 1 true)]) = [[none]] := by
  decide +kernel

/-- A branch of two leaves, and another. -/
def threeLeaves : List (Leaf Nat Nat) := [⟨0, 0, 1⟩, ⟨0, 1, 1⟩, ⟨2, 2, 1⟩]

def vals3 (i b l : Nat) : Nat := 100 * i + 10 * b + l

example : Apart ([⟨2, 2, 1, 5⟩] : List (RVar Nat Nat)) 6 ∧
    AllOk (V := Nat) (R := List Nat) threeLeaves vals3 (new [⟨2, 2, 1, 5⟩] (fun _ => 0) 6 0 3)
      [.formula [2, 0] ⟨[1, 1], 1, false, id⟩, .read, .reset 1 3] := by
  refine ⟨by simp [Apart], ?_, ?_⟩
  · decide +kernel
  · trivial

example : ((calls vals3 (applyAll threeLeaves vals3 (new [⟨2, 2, 1, 5⟩] (fun _ => 0) 6 0 3)
      [.formula [2, 0] (⟨[1, 1], 1, false, id⟩ : Fn Nat Nat (List Nat)), .read, .reset 1 3])).map fun p =>
        (p.1, (applyAll threeLeaves vals3 (new [⟨2, 2, 1, 5⟩] (fun _ => 0) 6 0 3)
      [.formula [2, 0] (⟨[1, 1], 1, false, id⟩ : Fn Nat Nat (List Nat)), .read, .reset 1 3]).evals.map
        fun f => eval f p.2)) = [(1, [some [122, 100]]), (2, [some [222, 200]])] := by decide +kernel

end Verif.RTree.Formula
