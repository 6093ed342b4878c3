import Verif.Riofs.NestedMore
import Verif.Rcmd.Merge
import Mathlib.Data.List.Forall2

/-!
# Merging ROOT files (C128)
-/

namespace Verif.Rcmd

open Verif.Riofs

variable {S E A : Type}

/-! ### Specification -/

/-- What the object `x` of the first file and the objects `ys` of the others give: for trees (which have to
be of class TTree in the other files) the entries one after another; for histograms and graphs the
results of merging one after another; two-dimensional histograms cannot be merged. -/
inductive Combines (env : Env S E A) : Ob S E A → List (Ob S E A) → Ob S E A → Prop
  | tree {c t s e} (ys : List (List UInt8 × S × List E)) (es : List (List E)) :
      List.Forall₂ (fun y e' => env.rd s y.2.1 y.2.2 = some e') ys es →
      Combines env (.tree c t s e) (ys.map fun y => .tree tTree y.1 y.2.1 y.2.2) (.tree tTree t s (e ++ es.flatten))
  | mer {c a r} (bs : List A) : List.foldlM env.mrg a bs = some r → Combines env (.mer c a) (bs.map (.mer c)) (.mer c r)
  | h2 {c a} : Combines env (.h2 c a) [] (.h2 c a)

/-- The objects at the path `p` in all files. -/
def AllAt (p : List (List UInt8)) (fs : List (Keys (Ob S E A))) (ys : List (Ob S E A)) : Prop :=
  List.Forall₂ (fun f y => Reaches f p (.obj y)) fs ys

/-! ### One object -/

def mergeList (env : Env S E A) : Ob S E A → List (Ob S E A) → Out (Ob S E A)
  | x, [] => .ok x
  | x, y :: ys => (mergeObj env x y).bind fun x' => mergeList env x' ys

theorem mergeList_tree (env : Env S E A) (t : List UInt8) (s : S) (e : List E) (ys : List (Ob S E A)) (v : Ob S E A) :
    mergeList env (.tree tTree t s e) ys = .ok v ↔
      ∃ (zs : List (List UInt8 × S × List E)) (es : List (List E)), ys = zs.map (fun y => Ob.tree tTree y.1 y.2.1 y.2.2) ∧
        List.Forall₂ (fun y e' => env.rd s y.2.1 y.2.2 = some e') zs es ∧ v = .tree tTree t s (e ++ es.flatten) := by
  induction ys generalizing e with
  | nil =>
    simp only [mergeList, Out.ok.injEq]
    constructor
    · rintro rfl
      exact ⟨[], [], rfl, .nil, by simp⟩
    · rintro ⟨zs, es, h1, h2, rfl⟩
      have : zs = [] := by simpa using h1.symm
      subst this
      cases h2
      simp
  | cons y ys ih =>
    constructor
    · intro h
      cases y with
      | tree c' t' s' e' =>
        simp only [mergeList, mergeObj, Ob.cls] at h
        by_cases hc : tTree = c'
        · subst hc
          simp only [ne_eq, not_true_eq_false, if_false] at h
          cases hr : env.rd s s' e' with
          | none => rw [hr] at h; cases h
          | some e'' =>
            rw [hr] at h
            simp only [Out.bind] at h
            obtain ⟨zs, es, h1, h2, h3⟩ := (ih (e ++ e'')).mp h
            refine ⟨(t', s', e') :: zs, e'' :: es, by rw [h1]; rfl, .cons hr h2, ?_⟩
            rw [h3]
            simp
        · simp only [ne_eq, hc, not_false_eq_true, if_true] at h
          cases h
      | mer c' a =>
        simp only [mergeList, mergeObj] at h
        split at h <;> cases h
      | h2 c' a =>
        simp only [mergeList, mergeObj] at h
        split at h <;> cases h
      | other c' =>
        simp only [mergeList, mergeObj] at h
        split at h <;> cases h
    · rintro ⟨zs, es, h1, h2, rfl⟩
      cases zs with
      | nil => cases h1
      | cons z zs =>
        cases h2 with
        | @cons _ e'' _ es' hr h2 =>
          simp only [List.map_cons, List.cons.injEq] at h1
          obtain ⟨rfl, rfl⟩ := h1
          simp only [mergeList, mergeObj, Ob.cls, ne_eq, not_true_eq_false, if_false, hr, Out.bind]
          exact (ih (e ++ e'')).mpr ⟨zs, es', rfl, h2, by simp⟩

theorem mergeList_mer (env : Env S E A) (c : List UInt8) (a : A) (ys : List (Ob S E A)) (v : Ob S E A) :
    mergeList env (.mer c a) ys = .ok v ↔
      ∃ (bs : List A) (r : A), ys = bs.map (Ob.mer c) ∧ List.foldlM env.mrg a bs = some r ∧ v = .mer c r := by
  induction ys generalizing a with
  | nil =>
    simp only [mergeList, Out.ok.injEq]
    constructor
    · rintro rfl
      exact ⟨[], a, rfl, rfl, rfl⟩
    · rintro ⟨bs, r, h1, h2, rfl⟩
      have : bs = [] := by simpa using h1.symm
      subst this
      injection h2 with h2
      rw [h2]
  | cons y ys ih =>
    constructor
    · intro h
      cases y with
      | mer c' b =>
        simp only [mergeList, mergeObj, Ob.cls] at h
        by_cases hc : c = c'
        · subst hc
          simp only [ne_eq, not_true_eq_false, if_false] at h
          cases hr : env.mrg a b with
          | none => rw [hr] at h; cases h
          | some r' =>
            rw [hr] at h
            simp only [Out.bind] at h
            obtain ⟨bs, r, h1, h2, h3⟩ := (ih r').mp h
            refine ⟨b :: bs, r, by rw [h1]; rfl, ?_, h3⟩
            rw [List.foldlM_cons, hr]
            exact h2
        · simp only [ne_eq, hc, not_false_eq_true, if_true] at h
          cases h
      | tree c' t' s' e' =>
        simp only [mergeList, mergeObj] at h
        split at h <;> cases h
      | h2 c' a =>
        simp only [mergeList, mergeObj] at h
        split at h <;> cases h
      | other c' =>
        simp only [mergeList, mergeObj] at h
        split at h <;> cases h
    · rintro ⟨bs, r, h1, h2, rfl⟩
      cases bs with
      | nil => cases h1
      | cons b bs =>
        simp only [List.map_cons, List.cons.injEq] at h1
        obtain ⟨rfl, rfl⟩ := h1
        rw [List.foldlM_cons] at h2
        cases hr : env.mrg a b with
        | none => rw [hr] at h2; cases h2
        | some r' =>
          rw [hr] at h2
          simp only [mergeList, mergeObj, Ob.cls, ne_eq, not_true_eq_false, if_false, hr, Out.bind]
          exact (ih r').mpr ⟨bs, r, rfl, h2, rfl⟩

/-- The law needed of reading: a tree is read into variables for its own branches unchanged. -/
def Env.Faithful (env : Env S E A) : Prop := ∀ s e, env.rd s s e = some e

/-- The object of the task made for `x`. -/
def seeded : Ob S E A → Ob S E A
  | .tree _ t s e => .tree tTree t s e
  | x => x

theorem seed_eq {env : Env S E A} (hl : env.Faithful) (x : Ob S E A) : seed env x = .ok (seeded x) := by
  cases x with
  | tree c t s e => simp only [seed, hl s e, seeded]
  | mer c a => rfl
  | h2 c a => rfl
  | other c => rfl

theorem combines_iff (env : Env S E A) {x : Ob S E A} (hx : accept x = true) (ys : List (Ob S E A)) (v : Ob S E A) :
    mergeList env (seeded x) ys = .ok v ↔ Combines env x ys v := by
  cases x with
  | tree c t s e =>
    simp only [seeded]
    rw [mergeList_tree]
    constructor
    · rintro ⟨zs, es, rfl, h2, rfl⟩
      exact .tree zs es h2
    · intro h
      cases h with
      | tree zs es h2 => exact ⟨zs, es, rfl, h2, rfl⟩
  | mer c a =>
    simp only [seeded]
    rw [mergeList_mer]
    constructor
    · rintro ⟨bs, r, rfl, h2, rfl⟩
      exact .mer bs h2
    · intro h
      cases h with
      | mer bs h2 => exact ⟨bs, _, rfl, h2, rfl⟩
  | h2 c a =>
    simp only [seeded]
    cases ys with
    | nil =>
      simp only [mergeList, Out.ok.injEq]
      constructor
      · rintro rfl
        exact .h2
      · intro h
        cases h
        rfl
    | cons y ys =>
      constructor
      · intro h
        simp only [mergeList, mergeObj] at h
        split at h <;> cases h
      · intro h
        cases h
  | other c => simp [accept] at hx

/-! ### Looking up -/

theorem reaches_good {O : Type} {ks : Keys O} (h : WF ks) {p n} (hr : Reaches ks p n) : ∀ x ∈ p, Good x := by
  have dirs : ∀ {q : List (List UInt8)} {ks d : Keys O}, WF ks → DirAt ks q d → ∀ x ∈ q, Good x := by
    intro q ks d h hd
    induction hd with
    | here ks => simp
    | @down ks c cy sub cs d hh _ ih =>
      intro x hx
      rcases List.mem_cons.mp hx with rfl | hx
      · obtain ⟨k, hk, rfl, _⟩ := hh
        exact h.names k hk
      · exact ih (h.holds_sub hh) x hx
  rcases hr with ⟨rfl, _⟩ | ⟨q, x, d, rfl, hd, cy, ⟨k, hk, hn, _⟩, _⟩
  · simp
  · intro y hy
    rcases List.mem_append.mp hy with hy | hy
    · exact dirs h hd y hy
    · rw [List.mem_singleton.mp hy, ← hn]
      exact (hd.wf h).names k hk

theorem rget_reaches {O : Type} {ks : Keys O} (h : WF ks) {p x} (hp : ∀ y ∈ p, Good y) (hx : Good x) (n : Node O) :
    rget ks (slash (p ++ [x])) = .ok n ↔ Reaches ks (p ++ [x]) n := by
  have hg : ∀ y ∈ p ++ [x], Good y := by
    intro y hy
    rcases List.mem_append.mp hy with hy | hy
    · exact hp y hy
    · rw [List.mem_singleton.mp hy]; exact hx
  unfold slash
  rw [rget_slash ks _ hg, (C126_get h p x hp hx).1 n]
  unfold Reaches
  constructor
  · rintro ⟨d, h1, h2⟩
    exact Or.inr ⟨p, x, d, rfl, h1, h2⟩
  · rintro (⟨e, _⟩ | ⟨q, y, d, e, h1, h2⟩)
    · simp at e
    · obtain ⟨rfl, e2⟩ := List.append_inj' e rfl
      injection e2 with e2
      subst e2
      exact ⟨d, h1, h2⟩

theorem reaches_dir {O : Type} {ks : Keys O} (h : WF ks) {p d} : Reaches ks p (.dir d) ↔ DirAt ks p d := by
  constructor
  · rintro (⟨rfl, e⟩ | ⟨q, x, d', rfl, hd, cy, hh, _⟩)
    · injection e with e
      rw [e]
      exact .here ks
    · exact DirAt.append_iff.mpr ⟨d', hd, .down hh (.here d)⟩
  · intro hd
    by_cases hp : p = []
    · subst hp
      rw [DirAt.nil_iff.mp hd]
      exact Or.inl ⟨rfl, rfl⟩
    · obtain ⟨q, x, rfl⟩ : ∃ q x, p = q ++ [x] := ⟨p.dropLast, p.getLast hp, (List.dropLast_concat_getLast hp).symm⟩
      obtain ⟨e, he, h2⟩ := DirAt.append_iff.mp hd
      obtain ⟨cy, s, hh, h3⟩ := DirAt.cons_iff.mp h2
      have := DirAt.nil_iff.mp h3
      subst this
      refine Or.inr ⟨q, x, e, rfl, he, cy, hh, ?_⟩
      intro c' n' h'
      rw [((he.wf h).uniq hh h').1]
      exact Int.le_refl _

theorem reaches_obj {O : Type} {ks : Keys O} {p o} (hr : Reaches ks p (.obj o)) : IsObj ks p := by
  rcases hr with ⟨_, e⟩ | ⟨q, x, d, rfl, hd, cy, hh, _⟩
  · cases e
  · exact ⟨q, x, cy, o, rfl, d, hd, hh⟩

/-! ### The tasks -/

/-- The task made at a visit, if any. -/
def taskOf (v : Visit (Ob S E A)) : Option (Task S E A) :=
  match v.2 with
  | some (.obj x) => if accept x then some ⟨v.1.dropLast, v.1.getLast?.getD [], seeded x⟩ else none
  | _ => none

/-- The state after the visits `done`. -/
def Inv (done : List (Visit (Ob S E A))) (st : Keys (Ob S E A) × List (Task S E A)) : Prop :=
  WF st.1 ∧ (∀ q x cy v, ¬ HeldAt st.1 q x cy (.obj v)) ∧
  (∀ q, IsDir st.1 q ↔ q = [] ∨ ∃ d, (q, some (Node.dir d)) ∈ done) ∧ st.2 = done.filterMap taskOf

theorem visit_inv {env : Env S E A} (hl : env.Faithful) {done : List (Visit (Ob S E A))} {st} (hi : Inv done st)
    {p : List (List UInt8)} {n : Node (Ob S E A)} (hp : ∀ x ∈ p, Good x) (hobj : p = [] → ∃ d, n = .dir d)
    (hpar : p ≠ [] → p.dropLast = [] ∨ ∃ d, (p.dropLast, some (Node.dir d)) ∈ done) :
    ∃ st', visit env st (p, some n) = .ok st' ∧ Inv (done ++ [(p, some n)]) st' := by
  obtain ⟨h1, h2, h3, h4⟩ := hi
  cases n with
  | dir d =>
    by_cases hp0 : p = []
    · subst hp0
      refine ⟨st, by simp [visit], h1, h2, ?_, ?_⟩
      · intro q
        rw [h3]
        constructor
        · rintro (g | ⟨d, g⟩)
          · exact Or.inl g
          · exact Or.inr ⟨d, by simp [g]⟩
        · rintro (g | ⟨d', g⟩)
          · exact Or.inl g
          · rcases List.mem_append.mp g with g | g
            · exact Or.inr ⟨d', g⟩
            · left
              have := List.mem_singleton.mp g
              injection this
      · rw [h4, List.filterMap_append]
        simp [taskOf]
    · have hno : ∀ r, r <+: p → r ≠ [] → ¬ IsObj st.1 r := by
        rintro r _ _ ⟨q, x, cy, o, _, hh⟩
        exact h2 q x cy o hh
      obtain ⟨o', e, m⟩ := C126_mkdir_slash h1 p hp0 hp hno
      refine ⟨(o', st.2), ?_, m.1, ?_, ?_, ?_⟩
      · simp only [visit, hp0, if_false, slash, e, Out.map]
      · intro q x cy v hh
        exact h2 q x cy v ((m.2.2 q x cy v).mp hh)
      · intro q
        have hpd : IsDir st.1 p.dropLast := (h3 _).mpr (hpar hp0)
        have key : IsDir o' q ↔ IsDir st.1 q ∨ q = p := by
          rw [m.2.1 q]
          constructor
          · rintro (g | g)
            · exact Or.inl g
            · by_cases hq : q = p
              · exact Or.inr hq
              · left
                refine hpd.prefix ?_
                have e : p = p.dropLast ++ [p.getLast hp0] := (List.dropLast_concat_getLast hp0).symm
                rw [e, List.prefix_concat_iff] at g
                rcases g with g | g
                · exact absurd (by rw [g]; exact e.symm) hq
                · exact g
          · rintro (g | rfl)
            · exact Or.inl g
            · exact Or.inr (List.prefix_refl _)
        show IsDir o' q ↔ _
        rw [key, h3]
        constructor
        · rintro ((g | ⟨d', g⟩) | rfl)
          · exact Or.inl g
          · exact Or.inr ⟨d', by simp [g]⟩
          · exact Or.inr ⟨d, by simp⟩
        · rintro (g | ⟨d', g⟩)
          · exact Or.inl (Or.inl g)
          · rcases List.mem_append.mp g with g | g
            · exact Or.inl (Or.inr ⟨d', g⟩)
            · right
              have := List.mem_singleton.mp g
              injection this
      · rw [List.filterMap_append, ← h4]
        simp [taskOf]
  | obj x =>
    have hp0 : p ≠ [] := by
      intro e
      obtain ⟨d, hd⟩ := hobj e
      cases hd
    have hdirs : ∀ q, IsDir st.1 q ↔ q = [] ∨ ∃ d, (q, some (Node.dir d)) ∈ done ++ [(p, some (.obj x))] := by
      intro q
      rw [h3]
      simp
    cases ha : accept x with
    | false =>
      refine ⟨st, by simp [visit, hp0, ha], h1, h2, hdirs, ?_⟩
      rw [h4, List.filterMap_append]
      simp [taskOf, ha]
    | true =>
      have hthere : dirThere st.1 p.dropLast = .ok () := by
        unfold dirThere
        split
        · rfl
        · have hpd : IsDir st.1 p.dropLast := (h3 _).mpr (hpar hp0)
          obtain ⟨d, hd⟩ := hpd
          have hg : ∀ y ∈ p.dropLast, Good y := fun y hy => hp y ((List.dropLast_prefix p).subset hy)
          unfold slash
          rw [rget_slash _ _ hg, rget_dir h1 hd hg]
      refine ⟨(st.1, st.2 ++ [⟨p.dropLast, p.getLast?.getD [], seeded x⟩]), ?_, h1, h2, hdirs, ?_⟩
      · simp only [visit, hp0, if_false, ha, Bool.true_eq_false, hthere, Out.bind, seed_eq hl, Out.map]
      · rw [h4, List.filterMap_append]
        simp [taskOf, ha]

/-- The visits of a walk: parents first. -/
def Ordered (vs : List (Visit (Ob S E A))) : Prop :=
  ∀ l1 v l2, vs = l1 ++ v :: l2 → v.1 ≠ [] → v.1.dropLast = [] ∨ ∃ d, (v.1.dropLast, some (Node.dir d)) ∈ l1

theorem visitAll_inv {env : Env S E A} (hl : env.Faithful) (rest done : List (Visit (Ob S E A))) (st)
    (hord : Ordered (done ++ rest)) (hn : ∀ v ∈ rest, ∃ n, v.2 = some n ∧ (∀ x ∈ v.1, Good x) ∧ (v.1 = [] → ∃ d, n = Node.dir d))
    (hi : Inv done st) : ∃ st', visitAll env rest st = .ok st' ∧ Inv (done ++ rest) st' := by
  induction rest generalizing done st with
  | nil => exact ⟨st, rfl, by simpa using hi⟩
  | cons v rest ih =>
    obtain ⟨n, e, hg, h0⟩ := hn v (by simp)
    obtain ⟨p, w⟩ := v
    simp only at e hg h0
    subst e
    obtain ⟨st1, e1, hi1⟩ := visit_inv hl hi hg h0 (hord done (p, some n) rest rfl)
    obtain ⟨st2, e2, hi2⟩ := ih (done ++ [(p, some n)]) st1 (by simpa using hord) (fun v hv => hn v (by simp [hv])) hi1
    refine ⟨st2, ?_, by simpa using hi2⟩
    simp only [visitAll, e1, Out.bind]
    exact e2

/-- What is known about the walk through a file. -/
theorem walk_facts {f : Keys (Ob S E A)} (h : WF f) : ∃ F, ∀ g, F ≤ g →
    (∀ v, v ∈ (walkTop (fun _ => Verdict.go) g f).1 ↔ ∃ p m, v = (p, some m) ∧ Reaches f p m) ∧
    (walkTop (fun _ => Verdict.go) g f).1.Pairwise (fun a b => ¬ b.1 <+: a.1) ∧
    Ordered (walkTop (fun _ => Verdict.go) g f).1 := by
  obtain ⟨F, hF⟩ := C127_walk h
  refine ⟨F, fun g hg => ?_⟩
  obtain ⟨_, h2, h3⟩ := hF g hg (fun _ => Verdict.go) (by simp)
  have hmem : ∀ v, v ∈ (walkTop (fun _ => Verdict.go) g f).1 ↔ ∃ p m, v = (p, some m) ∧ Reaches f p m := by
    intro v
    rw [h2]
    simp
  refine ⟨hmem, h3, ?_⟩
  intro l1 v l2 e hne
  right
  have hv : v ∈ (walkTop (fun _ => Verdict.go) g f).1 := by rw [e]; simp
  obtain ⟨p, m, rfl, hr⟩ := (hmem v).mp hv
  simp only at hne
  have hd : ∃ d, DirAt f p.dropLast d := by
    rcases hr with ⟨rfl, _⟩ | ⟨q, x, d, rfl, hd, _⟩
    · exact absurd rfl hne
    · rw [List.dropLast_concat]
      exact ⟨d, hd⟩
  obtain ⟨d, hd⟩ := hd
  refine ⟨d, ?_⟩
  have hm : (p.dropLast, some (Node.dir d)) ∈ (walkTop (fun _ => Verdict.go) g f).1 :=
    (hmem _).mpr ⟨_, _, rfl, (reaches_dir h).mpr hd⟩
  rw [e] at hm h3
  rcases List.mem_append.mp hm with hm | hm
  · exact hm
  · exfalso
    rcases List.mem_cons.mp hm with hm | hm
    · injection hm with hm _
      have := congrArg List.length hm
      simp only [List.length_dropLast] at this
      have : 0 < p.length := List.length_pos_of_ne_nil hne
      omega
    · have := (List.pairwise_append.mp h3).2.1
      have := (List.pairwise_cons.mp this).1 _ hm
      exact this (List.dropLast_prefix p)

/-! ### Merging the tasks -/

def Task.mergeAll (env : Env S E A) : List (Keys (Ob S E A)) → Task S E A → Out (Task S E A)
  | [], t => .ok t
  | f :: fs, t => (t.merge env f).bind (Task.mergeAll env fs)

theorem process_ok {env : Env S E A} {f : Keys (Ob S E A)} {ts ts' : List (Task S E A)} :
    process env f ts = .ok ts' ↔ List.Forall₂ (fun t t' => t.merge env f = .ok t') ts ts' := by
  induction ts generalizing ts' with
  | nil =>
    simp only [process, Out.ok.injEq]
    constructor
    · rintro rfl
      exact .nil
    · intro h
      cases h
      rfl
  | cons t ts ih =>
    constructor
    · intro h
      simp only [process] at h
      cases e : t.merge env f with
      | ok t1 =>
        rw [e] at h
        simp only [Out.bind] at h
        cases e2 : process env f ts with
        | ok ts1 =>
          rw [e2] at h
          simp only [Out.map, Out.ok.injEq] at h
          subst h
          exact .cons e (ih.mp e2)
        | noKey => rw [e2] at h; cases h
        | err => rw [e2] at h; cases h
        | panic => rw [e2] at h; cases h
      | noKey => rw [e] at h; cases h
      | err => rw [e] at h; cases h
      | panic => rw [e] at h; cases h
    · intro h
      cases h with
      | cons h1 h2 =>
        simp only [process, h1, Out.bind, ih.mpr h2, Out.map]

theorem processAll_ok {env : Env S E A} (fs : List (Keys (Ob S E A))) {ts ts' : List (Task S E A)} :
    processAll env fs ts = .ok ts' ↔ List.Forall₂ (fun t t' => t.mergeAll env fs = .ok t') ts ts' := by
  induction fs generalizing ts with
  | nil =>
    simp only [processAll, Task.mergeAll, Out.ok.injEq]
    constructor
    · rintro rfl
      exact List.forall₂_same.mpr (fun _ _ => rfl)
    · intro h
      exact List.forall₂_eq_eq_eq ▸ h
  | cons f fs ih =>
    constructor
    · intro h
      simp only [processAll] at h
      cases e : process env f ts with
      | ok ts1 =>
        rw [e] at h
        simp only [Out.bind] at h
        have h1 := process_ok.mp e
        have h2 := ih.mp h
        clear e h ih
        induction h1 generalizing ts' with
        | nil => cases h2; exact .nil
        | cons g1 _ ih' =>
          cases h2 with
          | cons g2 g3 =>
            refine .cons ?_ (ih' g3)
            simp only [Task.mergeAll, g1, Out.bind, g2]
      | noKey => rw [e] at h; cases h
      | err => rw [e] at h; cases h
      | panic => rw [e] at h; cases h
    · intro h
      have key : ∃ ts1, List.Forall₂ (fun t t' => t.merge env f = .ok t') ts ts1 ∧
          List.Forall₂ (fun t t' => t.mergeAll env fs = .ok t') ts1 ts' := by
        clear ih
        induction h with
        | nil => exact ⟨[], .nil, .nil⟩
        | @cons t t' l l' g _ ih' =>
          obtain ⟨ts1, h1, h2⟩ := ih'
          simp only [Task.mergeAll] at g
          cases e : t.merge env f with
          | ok t1 =>
            rw [e] at g
            exact ⟨t1 :: ts1, .cons e h1, .cons g h2⟩
          | noKey => rw [e] at g; cases g
          | err => rw [e] at g; cases g
          | panic => rw [e] at g; cases g
      obtain ⟨ts1, h1, h2⟩ := key
      simp only [processAll, process_ok.mpr h1, Out.bind, ih.mpr h2]

theorem mergeAll_ok {env : Env S E A} (fs : List (Keys (Ob S E A))) (hf : ∀ f ∈ fs, WF f) {t : Task S E A}
    (hd : ∀ x ∈ t.dir, Good x) (hk : Good t.key) (t' : Task S E A) :
    t.mergeAll env fs = .ok t' ↔ ∃ ys, AllAt (t.dir ++ [t.key]) fs ys ∧ mergeList env t.obj ys = .ok t'.obj ∧
      t'.dir = t.dir ∧ t'.key = t.key := by
  induction fs generalizing t with
  | nil =>
    simp only [Task.mergeAll, Out.ok.injEq, AllAt]
    constructor
    · rintro rfl
      exact ⟨[], .nil, rfl, rfl, rfl⟩
    · rintro ⟨ys, h1, h2, h3, h4⟩
      cases h1
      simp only [mergeList, Out.ok.injEq] at h2
      cases t; cases t'
      simp only at h2 h3 h4
      rw [h2, h3, h4]
  | cons f fs ih =>
    have hw := hf f (by simp)
    have ih' := fun {t : Task S E A} => @ih (fun f hf' => hf f (by simp [hf'])) t
    constructor
    · intro h
      simp only [Task.mergeAll, Task.merge] at h
      cases e : rget f (slash (t.dir ++ [t.key])) with
      | ok n =>
        rw [e] at h
        cases n with
        | dir d => cases h
        | obj y =>
          simp only at h
          cases e2 : mergeObj env t.obj y with
          | ok x =>
            rw [e2] at h
            simp only [Out.map, Out.bind] at h
            obtain ⟨ys, h1, h2, h3, h4⟩ := (ih' (t := { t with obj := x }) hd hk).mp h
            refine ⟨y :: ys, .cons ((rget_reaches hw hd hk _).mp e) h1, ?_, h3, h4⟩
            simp only [mergeList, e2, Out.bind]
            exact h2
          | noKey => rw [e2] at h; cases h
          | err => rw [e2] at h; cases h
          | panic => rw [e2] at h; cases h
      | noKey => rw [e] at h; cases h
      | err => rw [e] at h; cases h
      | panic => rw [e] at h; cases h
    · rintro ⟨ys, h1, h2, h3, h4⟩
      cases h1 with
      | @cons _ y _ ys g1 g2 =>
        simp only [mergeList] at h2
        cases e2 : mergeObj env t.obj y with
        | ok x =>
          rw [e2] at h2
          simp only [Out.bind] at h2
          simp only [Task.mergeAll, Task.merge, (rget_reaches hw hd hk _).mpr g1, e2, Out.map, Out.bind]
          exact (ih' (t := { t with obj := x }) hd hk).mpr ⟨ys, g2, h2, h3, h4⟩
        | noKey => rw [e2] at h2; cases h2
        | err => rw [e2] at h2; cases h2
        | panic => rw [e2] at h2; cases h2

/-! ### Closing -/

/-- The state of the output file when the tasks `done` are closed; `D` are its directories. -/
def Closed (D : List (List UInt8) → Prop) (done : List (Task S E A)) (o : Keys (Ob S E A)) : Prop :=
  WF o ∧ (∀ q, IsDir o q ↔ D q) ∧
  ∀ q x cy v, HeldAt o q x cy (.obj v) ↔ cy = 1 ∧ ∃ t ∈ done, t.dir = q ∧ t.key = x ∧ t.obj = v

def Ob.isTree : Ob S E A → Bool
  | .tree _ _ _ _ => true
  | _ => false

theorem close_step {D : List (List UInt8) → Prop} {done : List (Task S E A)} {o : Keys (Ob S E A)} (hc : Closed D done o)
    {t : Task S E A} (hd : ∀ x ∈ t.dir, Good x) (hk : Good t.key) (hD : D t.dir) (hnD : ¬ D (t.dir ++ [t.key]))
    (hfresh : ∀ u ∈ done, ¬ (u.dir = t.dir ∧ u.key = t.key)) (htop : t.dir = [] → t.obj.isTree = true) :
    ∃ o', t.close o = .ok o' ∧ Closed D (done ++ [t]) o' := by
  obtain ⟨h1, h2, h3⟩ := hc
  obtain ⟨d, hdir⟩ := (h2 t.dir).mpr hD
  have hno : ∀ cy n, ¬ Holds d t.key cy n := by
    intro cy n hh
    cases n with
    | dir s => exact hnD ((h2 _).mp ⟨s, DirAt.append_iff.mpr ⟨d, hdir, .down hh (.here s)⟩⟩)
    | obj v =>
      obtain ⟨_, u, hu, hu1, hu2, _⟩ := (h3 t.dir t.key cy v).mp ⟨d, hdir, hh⟩
      exact hfresh u hu ⟨hu1, hu2⟩
  have fin : ∀ (x : Ob S E A) cls keyCls, x = t.obj → ∃ o', updAt (put1 t.key [] cls keyCls x) t.dir o = .ok o' ∧
      Closed D (done ++ [t]) o' := by
    intro x cls keyCls hx
    obtain ⟨o', e, w, g1, g2⟩ := updAt_put_fresh h1 hdir hd t.key [] cls keyCls x hk hno
    refine ⟨o', e, w, fun q => (g2 q).trans (h2 q), ?_⟩
    intro q y cy v
    rw [g1, h3]
    constructor
    · rintro (⟨g, u, hu, g'⟩ | ⟨rfl, rfl, rfl, rfl⟩)
      · exact ⟨g, u, by simp [hu], g'⟩
      · exact ⟨rfl, t, by simp, rfl, rfl, hx.symm⟩
    · rintro ⟨g, u, hu, g1, g2, g3⟩
      rcases List.mem_append.mp hu with hu | hu
      · exact Or.inl ⟨g, u, hu, g1, g2, g3⟩
      · rw [List.mem_singleton.mp hu] at g1 g2 g3
        exact Or.inr ⟨g1.symm, g2.symm, g, by rw [← g3, hx]⟩
  unfold Task.close
  cases ho : t.obj with
  | tree c a s e => exact fin _ c c ho.symm
  | mer c a =>
    have hne : t.dir ≠ [] := by
      intro e
      have := htop e
      rw [ho] at this
      cases this
    simp only [slash]
    rw [rput_slash_fresh h1 hne hdir hd _ _ _ _ _ hk]
    exact fin _ c c ho.symm
  | h2 c a =>
    have hne : t.dir ≠ [] := by
      intro e
      have := htop e
      rw [ho] at this
      cases this
    simp only [slash]
    rw [rput_slash_fresh h1 hne hdir hd _ _ _ _ _ hk]
    exact fin _ c c ho.symm
  | other c =>
    have hne : t.dir ≠ [] := by
      intro e
      have := htop e
      rw [ho] at this
      cases this
    simp only [slash]
    rw [rput_slash_fresh h1 hne hdir hd _ _ _ _ _ hk]
    exact fin _ c c ho.symm

theorem closeAll_ok {D : List (List UInt8) → Prop} (ts done : List (Task S E A)) (o : Keys (Ob S E A)) (hc : Closed D done o)
    (hg : ∀ t ∈ ts, (∀ x ∈ t.dir, Good x) ∧ Good t.key ∧ D t.dir ∧ ¬ D (t.dir ++ [t.key]) ∧ (t.dir = [] → t.obj.isTree = true))
    (hp : (done ++ ts).Pairwise (fun a b => ¬ (a.dir = b.dir ∧ a.key = b.key))) :
    ∃ o', closeAll ts o = .ok o' ∧ Closed D (done ++ ts) o' := by
  induction ts generalizing done o with
  | nil => exact ⟨o, rfl, by simpa using hc⟩
  | cons t ts ih =>
    obtain ⟨g1, g2, g3, g4, g5⟩ := hg t (by simp)
    have hfresh : ∀ u ∈ done, ¬ (u.dir = t.dir ∧ u.key = t.key) := fun u hu => (List.pairwise_append.mp hp).2.2 u hu t (by simp)
    obtain ⟨o1, e1, hc1⟩ := close_step hc g1 g2 g3 g4 hfresh g5
    obtain ⟨o2, e2, hc2⟩ := ih (done ++ [t]) o1 hc1 (fun t' ht' => hg t' (by simp [ht'])) (by simpa using hp)
    exact ⟨o2, by simp only [closeAll, e1, Out.bind, e2], by simpa using hc2⟩

/-- A task at the top of the file that is not a tree cannot be closed. -/
theorem closeAll_top (ts : List (Task S E A)) (o o' : Keys (Ob S E A)) {t : Task S E A} (ht : t ∈ ts) (hd : t.dir = [])
    (hk : Good t.key) (hnt : t.obj.isTree = false) : closeAll ts o ≠ .ok o' := by
  induction ts generalizing o with
  | nil => cases ht
  | cons u ts ih =>
    intro h
    simp only [closeAll] at h
    cases e : u.close o with
    | ok o1 =>
      rw [e] at h
      simp only [Out.bind] at h
      rcases List.mem_cons.mp ht with rfl | ht
      · have herr : t.close o = .err := by
          have key : ∀ x : Ob S E A, rput o (slash (t.dir ++ [t.key])) [] x.cls x.cls x = .err := by
            intro x
            rw [hd]
            exact C126_top_slash_counterexample o t.key [] x.cls x.cls x hk
          unfold Task.close
          cases ho : t.obj with
          | tree c a s e => rw [ho] at hnt; cases hnt
          | mer c a => exact key (.mer c a)
          | h2 c a => exact key (.h2 c a)
          | other c => exact key (.other c)
        rw [herr] at e
        cases e
      · exact ih o1 ht h
    | noKey => rw [e] at h; cases h
    | err => rw [e] at h; cases h
    | panic => rw [e] at h; cases h

theorem mergeList_isTree {env : Env S E A} (ys : List (Ob S E A)) {x v : Ob S E A} (h : mergeList env x ys = .ok v) :
    v.isTree = x.isTree := by
  induction ys generalizing x with
  | nil =>
    simp only [mergeList, Out.ok.injEq] at h
    rw [h]
  | cons y ys ih =>
    simp only [mergeList] at h
    cases e : mergeObj env x y with
    | ok x' =>
      rw [e] at h
      simp only [Out.bind] at h
      rw [ih h]
      simp only [mergeObj] at e
      split at e
      · cases e
      · split at e
        · cases e
        · split at e
          · injection e with e
            rw [← e]; rfl
          · cases e
        · split at e
          · injection e with e
            rw [← e]; rfl
          · cases e
        · cases e
    | noKey => rw [e] at h; cases h
    | err => rw [e] at h; cases h
    | panic => rw [e] at h; cases h

theorem seeded_isTree (x : Ob S E A) : (seeded x).isTree = x.isTree := by
  cases x <;> rfl

/-! ### The theorems -/

/-- The objects of the first file that are merged can be combined with those of the others. -/
def Mergeable (env : Env S E A) (f : Keys (Ob S E A)) (fs : List (Keys (Ob S E A))) : Prop :=
  ∀ p x, Reaches f p (.obj x) → accept x = true → ∃ ys v, AllAt p fs ys ∧ Combines env x ys v

/-- Only trees are at the top of the first file, among what is merged. -/
def TopTrees (f : Keys (Ob S E A)) : Prop :=
  ∀ name x, Latest f name (.obj x) → accept x = true → x.isTree = true

theorem task_mem {vs : List (Visit (Ob S E A))} {f : Keys (Ob S E A)}
    (hm : ∀ v, v ∈ vs ↔ ∃ p m, v = (p, some m) ∧ Reaches f p m) (t : Task S E A) :
    t ∈ vs.filterMap taskOf ↔ ∃ x, Reaches f (t.dir ++ [t.key]) (.obj x) ∧ accept x = true ∧ t.obj = seeded x := by
  rw [List.mem_filterMap]
  constructor
  · rintro ⟨v, hv, e⟩
    obtain ⟨p, m, rfl, hr⟩ := (hm v).mp hv
    cases m with
    | dir d => simp [taskOf] at e
    | obj x =>
      simp only [taskOf] at e
      split at e
      · rename_i ha
        injection e with e
        rcases hr with ⟨_, e2⟩ | ⟨q, y, d, rfl, hd, hl⟩
        · cases e2
        · rw [← e]
          refine ⟨x, ?_, ha, rfl⟩
          simp only [List.dropLast_concat, List.getLast?_append, List.getLast?_singleton, Option.some_or, Option.getD_some]
          exact Or.inr ⟨q, y, d, rfl, hd, hl⟩
      · cases e
  · rintro ⟨x, hr, ha, e⟩
    refine ⟨(t.dir ++ [t.key], some (.obj x)), (hm _).mpr ⟨_, _, rfl, hr⟩, ?_⟩
    simp only [taskOf, ha, if_true, List.dropLast_concat, List.getLast?_append, List.getLast?_singleton, Option.some_or,
      Option.getD_some]
    rw [← e]

/-- The outcome of the first two steps of `Merge`. -/
theorem merge_start {env : Env S E A} (hl : env.Faithful) {f : Keys (Ob S E A)} (h : WF f) : ∃ F, ∀ g, F ≤ g → ∃ o ts,
    (∀ fs, merge env g (f :: fs) = (processAll env fs ts).bind fun ts' => closeAll ts' o) ∧
    Closed (IsDir f) ([] : List (Task S E A)) o ∧
    (∀ t, t ∈ ts ↔ ∃ x, Reaches f (t.dir ++ [t.key]) (.obj x) ∧ accept x = true ∧ t.obj = seeded x) ∧
    ts.Pairwise (fun a b => ¬ (a.dir = b.dir ∧ a.key = b.key)) := by
  obtain ⟨F, hF⟩ := walk_facts h
  refine ⟨F, fun g hg => ?_⟩
  obtain ⟨hm, hpair, hord⟩ := hF g hg
  have hn : ∀ v ∈ (walkTop (fun _ => Verdict.go) g f).1, ∃ n, v.2 = some n ∧ (∀ x ∈ v.1, Good x) ∧
      (v.1 = [] → ∃ d, n = Node.dir d) := by
    intro v hv
    obtain ⟨p, m, rfl, hr⟩ := (hm v).mp hv
    refine ⟨m, rfl, reaches_good h hr, ?_⟩
    intro e
    simp only at e
    subst e
    rcases hr with ⟨_, rfl⟩ | ⟨q, x, d, e, _⟩
    · exact ⟨f, rfl⟩
    · simp at e
  have hi0 : Inv ([] : List (Visit (Ob S E A))) (([], []) : Keys (Ob S E A) × List (Task S E A)) := by
    refine ⟨WF.nil, ?_, ?_, rfl⟩
    · rintro q x cy v ⟨d, hd, k, hk, _⟩
      cases q with
      | nil =>
        rw [DirAt.nil_iff.mp hd] at hk
        cases hk
      | cons c q =>
        obtain ⟨_, _, ⟨k', hk', _⟩, _⟩ := DirAt.cons_iff.mp hd
        cases hk'
    · intro q
      constructor
      · rintro ⟨d, hd⟩
        cases q with
        | nil => exact Or.inl rfl
        | cons c q =>
          obtain ⟨_, _, ⟨k', hk', _⟩, _⟩ := DirAt.cons_iff.mp hd
          cases hk'
      · rintro (rfl | ⟨d, hd⟩)
        · exact ⟨[], .here []⟩
        · cases hd
  obtain ⟨st, e, hi⟩ := visitAll_inv hl _ [] ([], []) (by simpa using hord) hn hi0
  obtain ⟨w1, w2, w3, w4⟩ := hi
  simp only [List.nil_append] at w3 w4
  refine ⟨st.1, st.2, ?_, ⟨w1, ?_, ?_⟩, ?_, ?_⟩
  · intro fs
    simp only [merge, e, Out.bind]
  · intro q
    rw [w3]
    constructor
    · rintro (rfl | ⟨d, hd⟩)
      · exact ⟨f, .here f⟩
      · obtain ⟨p, m, e2, hr⟩ := (hm _).mp hd
        injection e2 with e2 e3
        injection e3 with e3
        subst e2
        rw [← e3] at hr
        exact ⟨d, (reaches_dir h).mp hr⟩
    · rintro ⟨d, hd⟩
      exact Or.inr ⟨d, (hm _).mpr ⟨_, _, rfl, (reaches_dir h).mpr hd⟩⟩
  · intro q x cy v
    simp only [List.not_mem_nil, false_and, exists_false, and_false, iff_false]
    exact w2 q x cy v
  · intro t
    rw [w4]
    exact task_mem hm t
  · rw [w4, List.pairwise_filterMap]
    refine (List.Pairwise.and_mem.mp hpair).imp ?_
    rintro a b ⟨ha, hb, hab⟩ t ht u hu ⟨e1, e2⟩
    apply hab
    have path : ∀ v ∈ (walkTop (fun _ => Verdict.go) g f).1, ∀ t : Task S E A, taskOf v = some t → v.1 = t.dir ++ [t.key] := by
      intro v hv t ht
      obtain ⟨p, m, rfl, hr⟩ := (hm v).mp hv
      cases m with
      | dir d => simp [taskOf] at ht
      | obj x =>
        simp only [taskOf] at ht
        split at ht
        · injection ht with ht
          rcases hr with ⟨_, e2⟩ | ⟨q, y, d, rfl, hd, hl⟩
          · cases e2
          · rw [← ht]
            simp
        · cases ht
    rw [path a ha t ht, path b hb u hu, e1, e2]
    exact List.prefix_refl _

theorem reaches_unique {O : Type} {ks : Keys O} (h : WF ks) {p n n'} (h1 : Reaches ks p n) (h2 : Reaches ks p n') : n = n' := by
  by_cases hp : p = []
  · subst hp
    rcases h1 with ⟨_, rfl⟩ | ⟨q, x, d, e, _⟩
    · rcases h2 with ⟨_, rfl⟩ | ⟨q, x, d, e, _⟩
      · rfl
      · simp at e
    · simp at e
  · obtain ⟨q, x, rfl⟩ : ∃ q x, p = q ++ [x] := ⟨p.dropLast, p.getLast hp, (List.dropLast_concat_getLast hp).symm⟩
    have hg := reaches_good h h1
    have a := (rget_reaches h (fun y hy => hg y (by simp [hy])) (hg x (by simp)) n).mpr h1
    have b := (rget_reaches h (fun y hy => hg y (by simp [hy])) (hg x (by simp)) n').mpr h2
    rw [a] at b
    injection b

theorem allAt_unique {p : List (List UInt8)} {fs : List (Keys (Ob S E A))} (hf : ∀ f ∈ fs, WF f) {ys ys'}
    (h1 : AllAt p fs ys) (h2 : AllAt p fs ys') : ys = ys' := by
  unfold AllAt at h1 h2
  induction h1 generalizing ys' with
  | nil => cases h2; rfl
  | cons g _ ih =>
    cases h2 with
    | cons g' h2 =>
      have := reaches_unique (hf _ (by simp)) g g'
      injection this with this
      rw [this, ih (fun f hf' => hf f (by simp [hf'])) h2]

theorem reaches_parent {O : Type} {ks : Keys O} {p x n} (h : Reaches ks (p ++ [x]) n) : IsDir ks p := by
  rcases h with ⟨e, _⟩ | ⟨q, y, d, e, hd, _⟩
  · simp at e
  · obtain ⟨rfl, _⟩ := List.append_inj' e rfl
    exact ⟨d, hd⟩

/-- **C128** (what `Merge` writes): if every tree, histogram and graph of the first file can be combined with
those at the same place in the other files, and no histogram or graph of the first file is outside of
a directory, `Merge` succeeds; the output has the directories of the first file, and its objects,
each with cycle 1, are the combinations: for a tree the entries of all files in the order of the
files, with the title of the first; for other objects the result of merging them in this order.
Nothing else is in it. -/
theorem C128_merge_partial {env : Env S E A} (hl : env.Faithful) {f : Keys (Ob S E A)} (h : WF f) (fs : List (Keys (Ob S E A)))
    (hfs : ∀ f ∈ fs, WF f) (hm : Mergeable env f fs) (ht : TopTrees f) :
    ∃ F, ∀ g, F ≤ g → ∃ o, merge env g (f :: fs) = .ok o ∧ WF o ∧ (∀ q, IsDir o q ↔ IsDir f q) ∧
      ∀ q x cy v, HeldAt o q x cy (.obj v) ↔
        cy = 1 ∧ ∃ x0 ys, Reaches f (q ++ [x]) (.obj x0) ∧ accept x0 = true ∧ AllAt (q ++ [x]) fs ys ∧ Combines env x0 ys v := by
  obtain ⟨F, hF⟩ := merge_start hl h
  refine ⟨F, fun g hg => ?_⟩
  obtain ⟨o, ts, e, hc, hts, hpair⟩ := hF g hg
  -- every task succeeds
  have each : ∀ t ∈ ts, ∃ t', t.mergeAll env fs = .ok t' := by
    intro t ht
    obtain ⟨x, hr, ha, ho⟩ := (hts t).mp ht
    have hgood := reaches_good h hr
    obtain ⟨ys, v, h1, h2⟩ := hm _ x hr ha
    refine ⟨⟨t.dir, t.key, v⟩, (mergeAll_ok fs hfs (fun y hy => hgood y (by simp [hy])) (hgood _ (by simp)) _).mpr
      ⟨ys, h1, ?_, rfl, rfl⟩⟩
    rw [ho]
    exact (combines_iff env ha ys v).mpr h2
  obtain ⟨ts', hall⟩ : ∃ ts', List.Forall₂ (fun t t' => t.mergeAll env fs = .ok t') ts ts' := by
    clear e hts hpair
    induction ts with
    | nil => exact ⟨[], .nil⟩
    | cons t ts ih =>
      obtain ⟨t', h1⟩ := each t (by simp)
      obtain ⟨ts', h2⟩ := ih (fun t ht => each t (by simp [ht]))
      exact ⟨t' :: ts', .cons h1 h2⟩
  have same : ∀ t t' : Task S E A, t ∈ ts → t.mergeAll env fs = .ok t' → t'.dir = t.dir ∧ t'.key = t.key ∧
      ∃ x ys, Reaches f (t.dir ++ [t.key]) (.obj x) ∧ accept x = true ∧ AllAt (t.dir ++ [t.key]) fs ys ∧ Combines env x ys t'.obj := by
    intro t t' ht h1
    obtain ⟨x, hr, ha, ho⟩ := (hts t).mp ht
    have hgood := reaches_good h hr
    obtain ⟨ys, g1, g2, g3, g4⟩ := (mergeAll_ok fs hfs (fun y hy => hgood y (by simp [hy])) (hgood _ (by simp)) _).mp h1
    refine ⟨g3, g4, x, ys, hr, ha, g1, ?_⟩
    rw [ho] at g2
    exact (combines_iff env ha ys _).mp g2
  have back : ∀ t' ∈ ts', ∃ t ∈ ts, t.mergeAll env fs = .ok t' := by
    intro t' ht'
    clear each same e hts hpair
    induction hall with
    | nil => cases ht'
    | cons g _ ih =>
      rcases List.mem_cons.mp ht' with rfl | ht'
      · exact ⟨_, by simp, g⟩
      · obtain ⟨t, h1, h2⟩ := ih ht'
        exact ⟨t, by simp [h1], h2⟩
  have forth : ∀ t ∈ ts, ∃ t' ∈ ts', t.mergeAll env fs = .ok t' := by
    intro t ht
    clear each same e hts hpair back
    induction hall with
    | nil => cases ht
    | cons g _ ih =>
      rcases List.mem_cons.mp ht with rfl | ht
      · exact ⟨_, by simp, g⟩
      · obtain ⟨t', h1, h2⟩ := ih ht
        exact ⟨t', by simp [h1], h2⟩
  have hpair' : ts'.Pairwise (fun a b => ¬ (a.dir = b.dir ∧ a.key = b.key)) := by
    clear each back forth e
    have hts1 : ∀ t t' : Task S E A, t ∈ ts → t.mergeAll env fs = .ok t' → t'.dir = t.dir ∧ t'.key = t.key :=
      fun t t' h1 h2 => ⟨(same t t' h1 h2).1, (same t t' h1 h2).2.1⟩
    clear same hts
    induction hall with
    | nil => exact .nil
    | @cons t t' l l' g hl' ih =>
      rw [List.pairwise_cons] at hpair ⊢
      refine ⟨?_, ih hpair.2 (fun t t' h1 h2 => hts1 t t' (by simp [h1]) h2)⟩
      intro u' hu' heq
      have : ∃ u ∈ l, u.mergeAll env fs = .ok u' := by
        clear ih hpair hts1
        induction hl' with
        | nil => cases hu'
        | cons g _ ih =>
          rcases List.mem_cons.mp hu' with rfl | hu'
          · exact ⟨_, by simp, g⟩
          · obtain ⟨t, h1, h2⟩ := ih hu'
            exact ⟨t, by simp [h1], h2⟩
      obtain ⟨u, hu, hu2⟩ := this
      have a := hts1 t t' (by simp) g
      have b := hts1 u u' (by simp [hu]) hu2
      exact hpair.1 u hu ⟨by rw [← a.1, ← b.1]; exact heq.1, by rw [← a.2, ← b.2]; exact heq.2⟩
  have hgoods : ∀ t' ∈ ts', (∀ x ∈ t'.dir, Good x) ∧ Good t'.key ∧ IsDir f t'.dir ∧ ¬ IsDir f (t'.dir ++ [t'.key]) ∧
      (t'.dir = [] → t'.obj.isTree = true) := by
    intro t' ht'
    obtain ⟨t, h1, h2⟩ := back t' ht'
    obtain ⟨g1, g2, x, ys, hr, ha, _, hco⟩ := same t t' h1 h2
    have hgood := reaches_good h hr
    rw [g1, g2]
    refine ⟨fun y hy => hgood y (by simp [hy]), hgood _ (by simp), reaches_parent hr, ?_, ?_⟩
    · intro hd
      exact IsDir.not_obj h hd (reaches_obj hr)
    · intro e0
      have hlat : Latest f t.key (.obj x) := by
        rcases hr with ⟨e, _⟩ | ⟨q, y, d, e, hd, hl⟩
        · simp at e
        · obtain ⟨e1, e2⟩ := List.append_inj' e rfl
          injection e2 with e2
          rw [← e1, e0] at hd
          rw [DirAt.nil_iff.mp hd, ← e2] at hl
          exact hl
      have := ht _ x hlat ha
      rw [← this, ← seeded_isTree x]
      exact mergeList_isTree ys ((combines_iff env ha ys _).mpr hco)
  obtain ⟨o', e2, w, d, hh⟩ := closeAll_ok ts' [] o hc hgoods (by simpa using hpair')
  refine ⟨o', ?_, w, d, ?_⟩
  · rw [e fs, (processAll_ok fs).mpr hall]
    exact e2
  · intro q x cy v
    rw [hh]
    simp only [List.nil_append]
    refine and_congr_right fun _ => ?_
    constructor
    · rintro ⟨t', ht', rfl, rfl, rfl⟩
      obtain ⟨t, h1, h2⟩ := back t' ht'
      obtain ⟨g1, g2, x, ys, hr, ha, hy, hco⟩ := same t t' h1 h2
      rw [g1, g2]
      exact ⟨x, ys, hr, ha, hy, hco⟩
    · rintro ⟨x0, ys, hr, ha, hy, hco⟩
      obtain ⟨t', ht', h2⟩ := forth ⟨q, x, seeded x0⟩ ((hts _).mpr ⟨x0, hr, ha, rfl⟩)
      obtain ⟨g1, g2, x1, ys', hr', ha', hy', hco'⟩ := same _ t' ((hts _).mpr ⟨x0, hr, ha, rfl⟩) h2
      refine ⟨t', ht', g1, g2, ?_⟩
      have e1 := reaches_unique h hr' hr
      injection e1 with e1
      subst e1
      have e3 := allAt_unique hfs hy' hy
      subst e3
      have a := (combines_iff env ha _ _).mpr hco
      have b := (combines_iff env ha _ _).mpr hco'
      rw [a] at b
      injection b with b
      exact b.symm

/-- **C128** (when `Merge` fails): it does so, with an error or a panic, exactly if something cannot be combined -
a tree, histogram or graph of the first file is missing in another one, is of another class there,
or is a two-dimensional histogram - or if a histogram or graph is outside of a directory. -/
theorem C128_merge_iff {env : Env S E A} (hl : env.Faithful) {f : Keys (Ob S E A)} (h : WF f) (fs : List (Keys (Ob S E A)))
    (hfs : ∀ f ∈ fs, WF f) :
    ∃ F, ∀ g, F ≤ g → ((∃ o, merge env g (f :: fs) = .ok o) ↔ Mergeable env f fs ∧ TopTrees f) := by
  obtain ⟨F, hF⟩ := merge_start hl h
  by_cases hgood : Mergeable env f fs ∧ TopTrees f
  · obtain ⟨F', hF'⟩ := C128_merge_partial hl h fs hfs hgood.1 hgood.2
    refine ⟨F', fun g hg => ⟨fun _ => hgood, fun _ => ?_⟩⟩
    obtain ⟨o, e, _⟩ := hF' g hg
    exact ⟨o, e⟩
  · refine ⟨F, fun g hg => ⟨?_, fun h => absurd h hgood⟩⟩
    rintro ⟨o', e'⟩
    exfalso
    apply hgood
    obtain ⟨o, ts, e, hc, hts, hpair⟩ := hF g hg
    rw [e fs] at e'
    cases ep : processAll env fs ts with
    | ok ts' =>
      rw [ep] at e'
      simp only [Out.bind] at e'
      have hall := (processAll_ok fs).mp ep
      have forth : ∀ t ∈ ts, ∃ t' ∈ ts', t.mergeAll env fs = .ok t' := by
        intro t ht
        clear e hts hpair ep e'
        induction hall with
        | nil => cases ht
        | cons g _ ih =>
          rcases List.mem_cons.mp ht with rfl | ht
          · exact ⟨_, by simp, g⟩
          · obtain ⟨t', h1, h2⟩ := ih ht
            exact ⟨t', by simp [h1], h2⟩
      have comb : ∀ q y x, Reaches f (q ++ [y]) (.obj x) → accept x = true → ∃ t' ∈ ts', ∃ ys, t'.dir = q ∧ t'.key = y ∧
          AllAt (q ++ [y]) fs ys ∧ Combines env x ys t'.obj := by
        intro q y x hr ha
        have hgood' := reaches_good h hr
        obtain ⟨t', ht', h1⟩ := forth ⟨q, y, seeded x⟩ ((hts _).mpr ⟨x, hr, ha, rfl⟩)
        obtain ⟨ys, g1, g2, g3, g4⟩ := (mergeAll_ok fs hfs (t := ⟨q, y, seeded x⟩) (fun z hz => hgood' z (by simp [hz]))
          (hgood' y (by simp)) t').mp h1
        exact ⟨t', ht', ys, g3, g4, g1, (combines_iff env ha ys _).mp g2⟩
      constructor
      · intro p x hr ha
        rcases hr with ⟨_, e2⟩ | ⟨q, y, d, rfl, hd, hl'⟩
        · cases e2
        · obtain ⟨t', _, ys, _, _, g1, g2⟩ := comb q y x (Or.inr ⟨q, y, d, rfl, hd, hl'⟩) ha
          exact ⟨ys, t'.obj, g1, g2⟩
      · intro name x hlat ha
        have hr : Reaches f ([] ++ [name]) (.obj x) := Or.inr ⟨[], name, f, rfl, .here f, hlat⟩
        obtain ⟨t', ht', ys, g1, g2, _, g4⟩ := comb [] name x hr ha
        have hgood' := reaches_good h hr
        cases hx : x.isTree with
        | true => rfl
        | false =>
          exfalso
          refine closeAll_top ts' o o' ht' g1 (by rw [g2]; exact hgood' name (by simp)) ?_ e'
          rw [mergeList_isTree ys ((combines_iff env ha ys _).mpr g4), seeded_isTree, hx]
    | noKey => rw [ep] at e'; cases e'
    | err => rw [ep] at e'; cases e'
    | panic => rw [ep] at e'; cases e'

/-! ### Examples -/

/-- Trees of numbers, histograms that are numbers and are merged by adding. -/
def exEnv : Env Unit Nat Nat := ⟨fun _ _ e => some e, fun a b => some (a + b)⟩

/-- "TH1D" -/
def cH : List UInt8 := [84, 72, 49, 68]

/-- A file with a tree "x" at the top and a directory "a" with a histogram "b". -/
def exM (title : List UInt8) (e : List Nat) (n : Nat) : Keys (Ob Unit Nat Nat) :=
  [⟨nX, 1, tTree, .obj (.tree tTree title () e)⟩, ⟨nA, 1, dirClass, .dir [⟨nB, 1, cH, .obj (.mer cH n)⟩]⟩]

/-- The entries of a tree or the content of a histogram. -/
def Ob.nums : Ob Unit Nat Nat → List Nat
  | .tree _ _ _ e => e
  | .mer _ a => [a]
  | .h2 _ a => [a]
  | .other _ => []

/-- What a file holds. -/
def listing (o : Out (Keys (Ob Unit Nat Nat))) : Option (List (List (List UInt8) × List Nat)) :=
  match o with
  | .ok ks => some ((walkTop (fun _ => Verdict.go) 9 ks).1.map fun v =>
      (v.1, match v.2 with | some (.obj x) => x.nums | _ => []))
  | _ => none

/-- Three files merged. -/
example : listing (merge exEnv 9 [exM [] [1, 2] 10, exM [] [] 20, exM [7] [3] 30]) =
    some [([], []), ([nA], []), ([nA, nB], [60]), ([nX], [1, 2, 3])] := by
  decide

theorem wf_exM (title : List UInt8) (e : List Nat) (n : Nat) : WF (exM title e n) := by
  have sub : WF ([⟨nB, 1, cH, .obj (.mer cH n)⟩] : Keys (Ob Unit Nat Nat)) := by
    refine .mk ⟨by simp, by simp⟩ ?_ ?_ ?_
    · intro k hk
      rw [List.mem_singleton.mp hk]
      exact good_ex.2.1
    · intro k hk d hd
      rw [List.mem_singleton.mp hk] at hd
      cases hd
    · intro k hk d hd
      rw [List.mem_singleton.mp hk] at hd
      cases hd
  refine .mk ⟨by simp [exM, nX, nA], by simp [exM]⟩ ?_ ?_ ?_
  · intro k hk
    simp only [exM, List.mem_cons, List.not_mem_nil, or_false] at hk
    rcases hk with rfl | rfl
    · exact good_ex.2.2
    · exact good_ex.1
  · intro k hk d hd
    simp only [exM, List.mem_cons, List.not_mem_nil, or_false] at hk
    rcases hk with rfl | rfl
    · cases hd
    · refine ⟨rfl, ?_⟩
      intro k' hk' hn
      simp only [exM, List.mem_cons, List.not_mem_nil, or_false] at hk'
      rcases hk' with rfl | rfl
      · simp [nX, nA] at hn
      · rfl
  · intro k hk d hd
    simp only [exM, List.mem_cons, List.not_mem_nil, or_false] at hk
    rcases hk with rfl | rfl
    · cases hd
    · injection hd with hd
      rw [← hd]
      exact sub

/-- What is in the files of the example. -/
theorem reaches_exM {title : List UInt8} {e : List Nat} {n : Nat} {p x} :
    Reaches (exM title e n) p (.obj x) ↔ (p = [nX] ∧ x = .tree tTree title () e) ∨ (p = [nA, nB] ∧ x = .mer cH n) := by
  have one : ∀ (ks : Keys (Ob Unit Nat Nat)) k c (m : Node (Ob Unit Nat Nat)), k ∈ ks → k.name = c → k.obj = m →
      (∀ k' ∈ ks, k'.cycle = 1) → Latest ks c m := by
    intro ks k c m hk hn ho h1
    refine ⟨1, ⟨k, hk, hn, h1 k hk, ho⟩, ?_⟩
    rintro c' n' ⟨k', hk', _, rfl, _⟩
    rw [h1 k' hk']
    exact Int.le_refl _
  constructor
  · intro h
    rcases h with ⟨_, e2⟩ | ⟨q, y, d, rfl, hd, cy, ⟨k, hk, hn, _, ho⟩, _⟩
    · cases e2
    · cases q with
      | nil =>
        rw [DirAt.nil_iff.mp hd] at hk
        simp only [exM, List.mem_cons, List.not_mem_nil, or_false] at hk
        rcases hk with rfl | rfl
        · injection ho with ho
          exact Or.inl ⟨by rw [← hn]; rfl, ho.symm⟩
        · cases ho
      | cons c q =>
        obtain ⟨cy', s, ⟨k', hk', hn', _, ho'⟩, h2⟩ := DirAt.cons_iff.mp hd
        simp only [exM, List.mem_cons, List.not_mem_nil, or_false] at hk'
        rcases hk' with rfl | rfl
        · cases ho'
        · injection ho' with ho'
          subst ho'
          cases q with
          | nil =>
            rw [DirAt.nil_iff.mp h2] at hk
            rw [List.mem_singleton.mp hk] at hn ho
            injection ho with ho
            exact Or.inr ⟨by rw [← hn, ← hn']; rfl, ho.symm⟩
          | cons c' q =>
            obtain ⟨_, _, ⟨k2, hk2, _, _, ho2⟩, _⟩ := DirAt.cons_iff.mp h2
            rw [List.mem_singleton.mp hk2] at ho2
            cases ho2
  · rintro (⟨rfl, rfl⟩ | ⟨rfl, rfl⟩)
    · exact Or.inr ⟨[], nX, _, rfl, .here _, one _ ⟨nX, 1, tTree, .obj _⟩ _ _ (by simp [exM]) rfl rfl (by simp [exM])⟩
    · exact Or.inr ⟨[nA], nB, _, rfl, .down ⟨_, List.mem_cons_of_mem _ List.mem_cons_self, rfl, rfl, rfl⟩ (.here _),
        one _ ⟨nB, 1, cH, .obj _⟩ _ _ (by simp) rfl rfl (by simp)⟩

/-- The hypotheses of `C128_merge_partial` are met by these files. -/
example : exEnv.Faithful ∧ WF (exM [] [1, 2] 10) ∧ WF (exM [] [] 20) ∧ WF (exM [7] [3] 30) ∧
    Mergeable exEnv (exM [] [1, 2] 10) [exM [] [] 20, exM [7] [3] 30] ∧ TopTrees (exM [] [1, 2] 10) := by
  refine ⟨fun _ _ => rfl, wf_exM _ _ _, wf_exM _ _ _, wf_exM _ _ _, ?_, ?_⟩
  · intro p x hr _
    rcases reaches_exM.mp hr with ⟨rfl, rfl⟩ | ⟨rfl, rfl⟩
    · exact ⟨_, _, .cons (reaches_exM.mpr (Or.inl ⟨rfl, rfl⟩)) (.cons (reaches_exM.mpr (Or.inl ⟨rfl, rfl⟩)) .nil),
        .tree [([], (), []), ([7], (), [3])] [[], [3]] (.cons rfl (.cons rfl .nil))⟩
    · exact ⟨_, _, .cons (reaches_exM.mpr (Or.inr ⟨rfl, rfl⟩)) (.cons (reaches_exM.mpr (Or.inr ⟨rfl, rfl⟩)) .nil),
        .mer [20, 30] rfl⟩
  · intro name x hl _
    have hr : Reaches (exM [] [1, 2] 10) [name] (.obj x) := Or.inr ⟨[], name, _, rfl, .here _, hl⟩
    rcases reaches_exM.mp hr with ⟨_, rfl⟩ | ⟨e, _⟩
    · rfl
    · simp at e

/-- A histogram outside of a directory makes `Merge` fail, for all files (C128_merge_iff); for instance this
single file. What only the later files have is not in the output; of an object with several cycles
only the last one is; objects that are neither trees nor can be merged are left out silently. -/
theorem C128_dropped_counterexample :
    listing (merge exEnv 9 [[⟨nB, 1, cH, .obj (.mer cH 1)⟩]]) = none ∧
    listing (merge exEnv 9 [[⟨nX, 1, tTree, .obj (.tree tTree [] () [1])⟩], exM [] [2] 10]) = some [([], []), ([nX], [1, 2])] ∧
    listing (merge exEnv 9 [[⟨nX, 1, tTree, .obj (.tree tTree [] () [1])⟩, ⟨nX, 2, tTree, .obj (.tree tTree [] () [2])⟩,
      ⟨nA, 1, cObj, .obj (.other cObj)⟩]]) = some [([], []), ([nX], [2])] := by
  decide

end Verif.Rcmd
