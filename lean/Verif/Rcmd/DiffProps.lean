import Verif.Rcmd.Diff
import Verif.Riofs.NestedProps
import Mathlib.Data.List.Forall2
import Mathlib.Data.List.Perm.Subperm
import Mathlib.Data.List.Nodup

/-!
# C164: comparing two files
-/

namespace Verif.Rcmd.Diff

open Verif.Riofs

variable {T V A : Type} [DecidableEq T] {deq : A → A → Bool} {ceq : V → V → Bool}

/-! ## Specification -/

/-- At the path `p` there is a directory whose highest cycle of `name` holds `n`. -/
def AtPath {O : Type} (ks : Keys O) (p : List (List UInt8)) (name : List UInt8) (n : Node O) : Prop :=
  ∃ d, DirAt ks p d ∧ Latest d name n

/-- What no error says about two objects: they are equal or, for trees, have the same entries in the
variables of the reference, the other tree having these first. -/
def Seen : DOb T V A → DOb T V A → Prop
  | .tree t _ r, .tree t' _ c => t = t' ∧ List.Forall₂ (fun a b => a <+: b) r c
  | .other t a, .other t' a' => t = t' ∧ a = a'
  | _, _ => False

/-- All that is in `r` is in `c`, under the same paths. -/
def Covers (r c : Keys (DOb T V A)) : Prop :=
  (∀ p, IsDir r p → IsDir c p) ∧
  ∀ p name o, AtPath r p name (.obj o) → ∃ o', AtPath c p name (.obj o') ∧ Seen o o'

/-- Under every path of `c` that begins with a name in `S` there is something of the same kind in `r`. -/
def Within (S : List UInt8 → Prop) (c r : Keys (DOb T V A)) : Prop :=
  (∀ x p, S x → IsDir c (x :: p) → IsDir r (x :: p)) ∧
  ∀ p name o', S (p.headD name) → AtPath c p name (.obj o') → ∃ o, AtPath r p name (.obj o)

/-- The two files hold the same directories and the same objects under the same paths, and as many
keys (cycles) in every directory below the top. -/
def Alike (r c : Keys (DOb T V A)) : Prop :=
  (∀ p, IsDir r p ↔ IsDir c p) ∧
  (∀ p name o, AtPath r p name (.obj o) ↔ AtPath c p name (.obj o)) ∧
  ∀ p d d', p ≠ [] → DirAt r p d → DirAt c p d' → d.length = d'.length

/-- What two compared objects or directories have to do with each other. -/
def Rel : Node (DOb T V A) → Node (DOb T V A) → Prop
  | .obj a, .obj b => Seen a b
  | .dir r, .dir c => Covers r c ∧ Within (fun _ => True) c r
  | _, _ => False

/-! ## Loops -/

theorem next_same {a b : Vd} : a.next b = .same ↔ a = .same ∧ b = .same := by
  cases a <;> simp [Vd.next]

theorem every_same {f : List UInt8 → Vd} {ks : List (List UInt8)} :
    every f ks = .same ↔ ∀ k ∈ ks, f k = .same := by
  induction ks with
  | nil => simp [every]
  | cons k ks ih => simp [every, next_same, ih]

theorem every_deep {f : List UInt8 → Vd} {ks : List (List UInt8)} (h : ∀ k ∈ ks, f k ≠ .deep) :
    every f ks ≠ .deep := by
  induction ks with
  | nil => simp [every]
  | cons k ks ih =>
    have h1 := h k (by simp)
    have h2 := ih fun x hx => h x (by simp [hx])
    simp only [every]
    cases hk : f k <;> simp_all [Vd.next]

theorem fetch_same {O : Type} {f : Node O → Node O → Vd} {r c : Keys O} {k : List UInt8} :
    fetch f r c k = .same ↔ ∃ n m, get r k = .found n ∧ get c k = .found m ∧ f n m = .same := by
  simp only [fetch]
  cases get r k <;> simp [onFound]
  cases get c k <;> simp

theorem mem_nameSet {O : Type} {ks : Keys O} {x : List UInt8} :
    x ∈ nameSet ks ↔ ∃ k ∈ ks, k.name = x := by
  induction ks with
  | nil => simp [nameSet]
  | cons k ks ih =>
    simp only [nameSet]
    split
    · rename_i h
      rw [ih]
      constructor
      · rintro ⟨y, hy, rfl⟩; exact ⟨y, by simp [hy], rfl⟩
      · rintro ⟨y, hy, rfl⟩
        rcases List.mem_cons.1 hy with rfl | hy
        · exact ih.1 h
        · exact ⟨y, hy, rfl⟩
    · rw [List.mem_cons, ih]
      constructor
      · rintro (rfl | ⟨y, hy, rfl⟩)
        · exact ⟨k, by simp, rfl⟩
        · exact ⟨y, by simp [hy], rfl⟩
      · rintro ⟨y, hy, rfl⟩
        rcases List.mem_cons.1 hy with rfl | hy
        · exact .inl rfl
        · exact .inr ⟨y, hy, rfl⟩

theorem nodup_nameSet {O : Type} (ks : Keys O) : (nameSet ks).Nodup := by
  induction ks with
  | nil => simp [nameSet]
  | cons k ks ih =>
    simp only [nameSet]
    split
    · exact ih
    · rename_i h
      exact List.nodup_cons.2 ⟨h, ih⟩

theorem holds_name {O : Type} {ks : Keys O} {x : List UInt8} :
    (∃ k ∈ ks, k.name = x) ↔ ∃ cy n, Holds ks x cy n := by
  constructor
  · rintro ⟨k, hk, rfl⟩; exact ⟨k.cycle, k.obj, k, hk, rfl, rfl, rfl⟩
  · rintro ⟨cy, n, k, hk, h, -⟩; exact ⟨k, hk, h⟩

theorem get_latest {O : Type} {ks : Keys O} (h : WF ks) {x : List UInt8} (hx : (59 : UInt8) ∉ x)
    {n : Node O} : get ks x = .found n ↔ Latest ks x n := get_bare ks h.dist x hx n

theorem get_there {O : Type} {ks : Keys O} {x : List UInt8} (hx : (59 : UInt8) ∉ x) :
    (∃ n, get ks x = .found n) ↔ ∃ k ∈ ks, k.name = x := by
  rw [holds_name]
  have h1 := get_noKey ks x hx
  have h2 := get_noPanic ks x hx
  cases hg : get ks x with
  | found n =>
    simp only [hg, reduceCtorEq, false_iff] at h1
    simp only [GetResult.found.injEq, exists_eq', true_iff]
    by_contra hc
    exact h1 fun cy m hm => hc ⟨cy, m, hm⟩
  | noKey =>
    simp only [hg, true_iff] at h1
    simp only [reduceCtorEq, exists_false, false_iff]
    rintro ⟨cy, m, hm⟩
    exact h1 cy m hm
  | panic => exact absurd hg h2

theorem get_mem {O : Type} {ks : Keys O} {x : List UInt8} {n : Node O} (h : get ks x = .found n) :
    ∃ k ∈ ks, k.obj = n := by
  unfold Riofs.get at h
  split at h
  · simp at h
  · split at h
    · split at h
      · rename_i k hk
        simp only [GetResult.found.injEq] at h
        exact ⟨k, List.mem_of_find?_eq_some hk, h⟩
      · simp at h
    · split at h
      · rename_i k hk
        simp only [GetResult.found.injEq] at h
        refine ⟨k, ?_, h⟩
        generalize hf : ks.filter _ = l at hk
        have hne : l ≠ [] := by
          rintro rfl; simp [maxCycle] at hk
        obtain ⟨m, e, hm, -⟩ := maxCycle_some l hne
        rw [hk] at e
        cases e
        rw [← hf] at hm
        exact (List.mem_filter.1 hm).1
      · simp at h

theorem _root_.Verif.Riofs.WF.good {O : Type} {ks : Keys O} (h : WF ks) {x : List UInt8} (hx : ∃ k ∈ ks, k.name = x) :
    (59 : UInt8) ∉ x := by
  obtain ⟨k, hk, rfl⟩ := hx
  exact (h.names k hk).2.2

/-! ## Trees -/

theorem rowSame_true (hc : ∀ x y, ceq x y = true → x = y) {r c : List V} :
    rowSame ceq r c = some true → r <+: c := by
  induction r generalizing c with
  | nil => intro _; exact List.nil_prefix
  | cons x xs ih =>
    cases c with
    | nil => simp [rowSame]
    | cons y ys =>
      intro h
      simp only [rowSame, Option.map_eq_some_iff, Bool.and_eq_true] at h
      obtain ⟨b, hb, h1, rfl⟩ := h
      rw [hc x y h1]
      exact List.cons_prefix_cons.2 ⟨rfl, ih hb⟩

theorem rowsSame_true (hc : ∀ x y, ceq x y = true → x = y) {r c : List (List V)}
    (hl : r.length = c.length) : rowsSame ceq r c = some true →
    List.Forall₂ (fun a b => a <+: b) r c := by
  induction r generalizing c with
  | nil => cases c with
    | nil => intro _; exact .nil
    | cons y ys => simp at hl
  | cons x xs ih =>
    cases c with
    | nil => simp at hl
    | cons y ys =>
      intro h
      simp only [rowsSame, Option.bind_eq_some_iff, Option.map_eq_some_iff, Bool.and_eq_true] at h
      obtain ⟨b, hb, b', hb', rfl, rfl⟩ := h
      exact .cons (rowSame_true hc hb) (ih (by simpa using hl) hb')

theorem rowSame_refl (hc : ∀ x, ceq x x = true) (r : List V) : rowSame ceq r r = some true := by
  induction r with
  | nil => rfl
  | cons x xs ih => simp [rowSame, ih, hc]

theorem rowsSame_refl (hc : ∀ x, ceq x x = true) (r : List (List V)) :
    rowsSame ceq r r = some true := by
  induction r with
  | nil => rfl
  | cons x xs ih => simp [rowsSame, ih, rowSame_refl hc]

theorem diffOb_same (hd : ∀ x y, deq x y = true → x = y) (hc : ∀ x y, ceq x y = true → x = y)
    {a b : DOb T V A} (h : diffOb deq ceq a b = .same) : Seen a b := by
  cases a with
  | tree t n r =>
    cases b with
    | tree t' n' c =>
      simp only [diffOb] at h
      split at h
      · rename_i ht
        simp only [diffTree] at h
        split at h
        · simp at h
        · rename_i hl
          refine ⟨ht, rowsSame_true hc (by simpa using hl) ?_⟩
          cases hr : rowsSame ceq r c with
          | none => simp [hr, ofRows] at h
          | some b => cases b <;> simp_all [ofRows]
      · simp at h
    | other t' a' => simp [diffOb] at h
  | other t a =>
    cases b with
    | tree t' n' c => simp [diffOb] at h
    | other t' a' =>
      simp only [diffOb] at h
      split at h
      · split at h
        · rename_i h1 h2; exact ⟨h1, hd _ _ h2⟩
        · simp at h
      · simp at h

theorem diffOb_refl (hd : ∀ x, deq x x = true) (hc : ∀ x, ceq x x = true) (a : DOb T V A) :
    diffOb deq ceq a a = .same := by
  cases a with
  | tree t n r => simp [diffOb, diffTree, rowsSame_refl hc, ofRows]
  | other t a => simp [diffOb, hd]

/-! ## Directories -/

section
variable {ord : List (List UInt8) → List (List UInt8)}

omit [DecidableEq T] in
theorem names_eq {r c : Keys (DOb T V A)} (hl : (nameSet r).length = (nameSet c).length)
    (h : ∀ x ∈ nameSet r, x ∈ nameSet c) : ∀ x ∈ nameSet c, x ∈ nameSet r := by
  have hs : (nameSet r).Subperm (nameSet c) := (nodup_nameSet r).subperm h
  have hp := hs.perm_of_length_le (by omega)
  intro x hx
  exact hp.mem_iff.2 hx

omit [DecidableEq T] in
theorem diffDir_same (ho : ∀ l, (ord l).Perm l) {f : Node (DOb T V A) → Node (DOb T V A) → Vd}
    {r c : Keys (DOb T V A)} : diffDir ord f r c = .same ↔ r.length = c.length ∧
      (nameSet r).length = (nameSet c).length ∧ ∀ x ∈ nameSet r, fetch f r c x = .same := by
  simp only [diffDir]
  split
  · rename_i h; simp at h; simp [h]
  · rename_i h
    split
    · rename_i h'; simp at h'; simp [h']
    · rename_i h'
      simp only [ne_eq, Decidable.not_not] at h h'
      rw [every_same]
      simp only [h, h', true_and, (ho _).mem_iff]

/-- One directory against another, the entries having been compared. -/
theorem dir_rel {n : Nat} (ih : ∀ a b : Node (DOb T V A), diffNode deq ceq ord n a b = .same →
      (∀ d, a = .dir d → WF d) → (∀ d, b = .dir d → WF d) → Rel a b)
    {r c : Keys (DOb T V A)} (hr : WF r) (hc : WF c)
    {S : List UInt8 → Prop}
    (hSc : ∀ x, S x → (∃ k ∈ c, k.name = x) → ∃ k ∈ r, k.name = x)
    (h : ∀ x, (∃ k ∈ r, k.name = x) → fetch (diffNode deq ceq ord n) r c x = .same) :
    Covers r c ∧ Within S c r := by
  have step : ∀ x a, get r x = .found a → (∃ k ∈ r, k.name = x) →
      ∃ b, get c x = .found b ∧ Rel a b := by
    intro x a ha hx
    obtain ⟨a', b, h1, h2, h3⟩ := fetch_same.1 (h x hx)
    rw [ha] at h1
    cases h1
    refine ⟨b, h2, ih a b h3 ?_ ?_⟩
    · rintro d rfl
      obtain ⟨k, hk, hd⟩ := get_mem ha
      exact hr.sub k hk d hd
    · rintro d rfl
      obtain ⟨k, hk, hd⟩ := get_mem h2
      exact hc.sub k hk d hd
  have back : ∀ x b, S x → get c x = .found b → (∃ k ∈ c, k.name = x) →
      ∃ a, get r x = .found a ∧ Rel a b := by
    intro x b hx hb hcx
    have hrx := hSc x hx hcx
    obtain ⟨a, ha⟩ := (get_there (hr.good hrx)).2 hrx
    obtain ⟨b', hb', hR⟩ := step x a ha hrx
    rw [hb] at hb'
    cases hb'
    exact ⟨a, ha, hR⟩
  have named : ∀ {ks : Keys (DOb T V A)} {x cy m}, Holds ks x cy m → ∃ k ∈ ks, k.name = x :=
    fun hh => holds_name.2 ⟨_, _, hh⟩
  refine ⟨⟨?_, ?_⟩, ?_, ?_⟩
  · rintro p ⟨d, hd⟩
    cases hd with
    | here => exact ⟨c, .here c⟩
    | @down _ x cy sub cs _ hh hd' =>
      have hx := named hh
      have hg := (get_dir hr (hr.good hx)).2 ⟨cy, hh⟩
      obtain ⟨b, hb, hR⟩ := step x _ hg hx
      cases b with
      | obj o => exact absurd hR (by simp [Rel])
      | dir sub' =>
        obtain ⟨d', hd''⟩ := hR.1.1 cs ⟨d, hd'⟩
        obtain ⟨cy', hh'⟩ := (get_dir hc (hr.good hx)).1 hb
        exact ⟨d', .down hh' hd''⟩
  · rintro p name o ⟨d, hd, hlat⟩
    cases hd with
    | here =>
      obtain ⟨cy, hh, hmax⟩ := hlat
      have hx := named hh
      have hg := (get_latest hr (hr.good hx)).2 ⟨cy, hh, hmax⟩
      obtain ⟨b, hb, hR⟩ := step name _ hg hx
      cases b with
      | dir s => exact absurd hR (by simp [Rel])
      | obj o' => exact ⟨o', ⟨c, .here c, (get_latest hc (hr.good hx)).1 hb⟩, hR⟩
    | @down _ x cy sub cs _ hh hd' =>
      have hx := named hh
      have hg := (get_dir hr (hr.good hx)).2 ⟨cy, hh⟩
      obtain ⟨b, hb, hR⟩ := step x _ hg hx
      cases b with
      | obj o => exact absurd hR (by simp [Rel])
      | dir sub' =>
        obtain ⟨o', ⟨d', hd'', hl'⟩, hs⟩ := hR.1.2 cs name o ⟨d, hd', hlat⟩
        obtain ⟨cy', hh'⟩ := (get_dir hc (hr.good hx)).1 hb
        exact ⟨o', ⟨d', .down hh' hd'', hl'⟩, hs⟩
  · rintro x p hSx ⟨d, hd⟩
    cases hd with
    | @down _ _ cy sub _ _ hh hd' =>
      have hx := named hh
      have hg := (get_dir hc (hc.good hx)).2 ⟨cy, hh⟩
      obtain ⟨a, ha, hR⟩ := back x _ hSx hg hx
      cases a with
      | obj o => exact absurd hR (by simp [Rel])
      | dir sub' =>
        have hall : ∀ q, IsDir sub q → IsDir sub' q := by
          intro q hq
          cases q with
          | nil => exact ⟨sub', .here sub'⟩
          | cons y q => exact hR.2.1 y q trivial hq
        obtain ⟨d', hd''⟩ := hall p ⟨d, hd'⟩
        obtain ⟨cy', hh'⟩ := (get_dir hr (hc.good hx)).1 ha
        exact ⟨d', .down hh' hd''⟩
  · rintro p name o' hSx ⟨d, hd, hlat⟩
    cases hd with
    | here =>
      obtain ⟨cy, hh, hmax⟩ := hlat
      have hx := named hh
      have hg := (get_latest hc (hc.good hx)).2 ⟨cy, hh, hmax⟩
      obtain ⟨a, ha, hR⟩ := back name _ hSx hg hx
      cases a with
      | dir s => exact absurd hR (by simp [Rel])
      | obj o => exact ⟨o, r, .here r, (get_latest hr (hc.good hx)).1 ha⟩
    | @down _ x cy sub cs _ hh hd' =>
      have hx := named hh
      have hg := (get_dir hc (hc.good hx)).2 ⟨cy, hh⟩
      obtain ⟨a, ha, hR⟩ := back x _ hSx hg hx
      cases a with
      | obj o => exact absurd hR (by simp [Rel])
      | dir sub' =>
        obtain ⟨o, d', hd'', hl'⟩ := hR.2.2 cs name o' trivial ⟨d, hd', hlat⟩
        obtain ⟨cy', hh'⟩ := (get_dir hr (hc.good hx)).1 ha
        exact ⟨o, d', .down hh' hd'', hl'⟩

theorem diffNode_rel (ho : ∀ l, (ord l).Perm l) (hd : ∀ x y, deq x y = true → x = y)
    (hc : ∀ x y, ceq x y = true → x = y) : ∀ (n : Nat) (a b : Node (DOb T V A)),
    diffNode deq ceq ord n a b = .same → (∀ d, a = .dir d → WF d) → (∀ d, b = .dir d → WF d) →
    Rel a b
  | 0, _, _, h, _, _ => by simp [diffNode] at h
  | _ + 1, .obj a, .obj b, h, _, _ => diffOb_same hd hc h
  | _ + 1, .obj _, .dir _, h, _, _ => by simp [diffNode] at h
  | _ + 1, .dir _, .obj _, h, _, _ => by simp [diffNode] at h
  | n + 1, .dir r, .dir c, h, ha, hb => by
    simp only [diffNode] at h
    obtain ⟨-, h2, h3⟩ := (diffDir_same ho).1 h
    have hwr := ha r rfl
    have hwc := hb c rfl
    refine dir_rel (diffNode_rel ho hd hc n) hwr hwc ?_ ?_
    · intro x _ hx
      refine mem_nameSet.1 (names_eq h2 ?_ x (mem_nameSet.2 hx))
      intro y hy
      obtain ⟨_, m, _, hm, _⟩ := fetch_same.1 (h3 y hy)
      have hg := hwr.good (mem_nameSet.1 hy)
      exact mem_nameSet.2 ((get_there hg).1 ⟨m, hm⟩)
    · intro x hx
      exact h3 x (mem_nameSet.2 hx)

/-! ## Theorems: what no error means -/

theorem thereIn_true {O : Type} {k : List UInt8} {ks : Keys O} :
    thereIn k ks = some true ↔ ∃ n, get ks k = .found n := by
  simp only [thereIn]
  cases get ks k <;> simp

theorem allThere_true {O : Type} {r c : Keys O} {u : List (List UInt8)} :
    allThere r c u = some true ↔ ∀ k ∈ u, (∃ n, get r k = .found n) ∧ ∃ n, get c k = .found n := by
  induction u with
  | nil => simp [allThere]
  | cons k ks ih =>
    simp only [allThere, Option.bind_eq_some_iff, Option.map_eq_some_iff, List.forall_mem_cons, ← ih]
    rw [← thereIn_true, ← thereIn_true]
    constructor
    · rintro ⟨a, ha, b, hb, d, hd, h⟩
      simp only [Bool.and_eq_true] at h
      obtain ⟨⟨rfl, rfl⟩, rfl⟩ := h
      exact ⟨⟨ha, hb⟩, hd⟩
    · rintro ⟨⟨ha, hb⟩, hd⟩
      exact ⟨true, ha, true, hb, true, hd, rfl⟩

theorem start_same (ho : ∀ l, (ord l).Perm l) {n : Nat} {r c : Keys (DOb T V A)}
    {u : List (List UInt8)} : start deq ceq ord n r c u = .same ↔
      u ≠ [] ∧ ∀ k ∈ u, fetch (diffNode deq ceq ord n) r c k = .same := by
  simp only [start]
  constructor
  · intro h
    split at h
    · simp at h
    · split at h
      · simp at h
      · split at h
        · simp at h
        · rename_i hu _
          refine ⟨hu, ?_⟩
          simpa only [every_same, (ho _).mem_iff] using h
  · rintro ⟨hu, h⟩
    have : allThere r c u = some true := allThere_true.2 fun k hk => by
      obtain ⟨a, b, h1, h2, _⟩ := fetch_same.1 (h k hk)
      exact ⟨⟨a, h1⟩, b, h2⟩
    simp only [this, hu, if_false, Bool.true_eq_false, every_same, (ho _).mem_iff]
    exact h

/-- **C164** (all keys): if comparing two files without naming keys gives no error, everything in the
reference is in the other file under the same path and is equal to it (for trees: the same entries in
the variables of the reference, in the order of the variables); and inside the top-level directories of
the reference the other file has nothing more. Whatever else is at the top of the other file is not seen
(`C164_extra_counterexample`). -/
theorem C164_found_partial (ho : ∀ l, (ord l).Perm l) (hd : ∀ x y, deq x y = true → x = y)
    (hq : ∀ x y, ceq x y = true → x = y) {trim : List UInt8 → List UInt8} {n : Nat}
    {r c : Keys (DOb T V A)} (hr : WF r) (hc : WF c)
    (h : diff deq ceq ord trim n r c [] = .same) :
    Covers r c ∧ Within (fun x => ∃ k ∈ r, k.name = x) c r := by
  simp only [diff, wanted, if_true] at h
  obtain ⟨-, h⟩ := (start_same ho).1 h
  refine dir_rel (diffNode_rel ho hd hq n) hr hc (fun _ hx _ => hx) ?_
  rintro x ⟨k, hk, rfl⟩
  exact h _ (List.mem_map.2 ⟨k, hk, rfl⟩)

/-- **C164** (chosen keys): if comparing two files under the given keys gives no error, there is a key
other than spaces, and each of them (without a cycle) is in both files, the latest versions being
equal in the sense of `C164_found_partial`, directories with all that is below. -/
theorem C164_keys_partial (ho : ∀ l, (ord l).Perm l) (hd : ∀ x y, deq x y = true → x = y)
    (hq : ∀ x y, ceq x y = true → x = y) {trim : List UInt8 → List UInt8} {n : Nat}
    {r c : Keys (DOb T V A)} (hr : WF r) (hc : WF c) {keys : List (List UInt8)} (hne : keys ≠ [])
    (h : diff deq ceq ord trim n r c keys = .same) :
    (∃ k ∈ keys, trim k ≠ []) ∧
    ∀ k ∈ keys, trim k ≠ [] → (59 : UInt8) ∉ trim k →
      ∃ a b, Latest r (trim k) a ∧ Latest c (trim k) b ∧ Rel a b := by
  simp only [diff, wanted, hne, if_false] at h
  split at h
  · simp at h
  · rename_i u hu
    split at hu
    · simp at hu
    · rename_i hl
      simp only [Option.some.injEq] at hu
      subst hu
      obtain ⟨-, h⟩ := (start_same ho).1 h
      constructor
      · obtain ⟨y, hy⟩ := List.exists_mem_of_ne_nil _ hl
        simp only [List.mem_filter, List.mem_map, decide_eq_true_eq] at hy
        obtain ⟨⟨k, hk, rfl⟩, h0⟩ := hy
        exact ⟨k, hk, h0⟩
      · intro k hk h0 h59
        obtain ⟨a, b, h1, h2, h3⟩ := fetch_same.1 (h (trim k)
          (List.mem_filter.2 ⟨List.mem_map.2 ⟨k, hk, rfl⟩, by simpa using h0⟩))
        refine ⟨a, b, (get_latest hr h59).1 h1, (get_latest hc h59).1 h2,
          diffNode_rel ho hd hq n a b h3 ?_ ?_⟩
        · rintro d rfl
          obtain ⟨k, hk, e⟩ := get_mem h1
          exact hr.sub k hk d e
        · rintro d rfl
          obtain ⟨k, hk, e⟩ := get_mem h2
          exact hc.sub k hk d e

/-! ## Theorems: files that are alike -/

theorem bound {α : Type} {P : α → Nat → Prop} {l : List α}
    (h : ∀ a ∈ l, ∃ N, ∀ n ≥ N, P a n) : ∃ N, ∀ n ≥ N, ∀ a ∈ l, P a n := by
  induction l with
  | nil => exact ⟨0, by simp⟩
  | cons a l ih =>
    obtain ⟨N, hN⟩ := h a (by simp)
    obtain ⟨M, hM⟩ := ih fun b hb => h b (by simp [hb])
    refine ⟨max N M, fun n hn b hb => ?_⟩
    rcases List.mem_cons.1 hb with rfl | hb
    · exact hN n (by omega)
    · exact hM n (by omega) b hb

/-- `Alike`, with as many keys also at the top. -/
def AlikeAll (r c : Keys (DOb T V A)) : Prop := Alike r c ∧ r.length = c.length

omit [DecidableEq T] in
theorem alike_child {r c : Keys (DOb T V A)} (hr : WF r) (hc : WF c) (h : Alike r c) {x : List UInt8}
    (hx : ∃ k ∈ r, k.name = x) : ∃ a b, get r x = .found a ∧ get c x = .found b ∧
      ((∃ o, a = .obj o ∧ b = .obj o) ∨ ∃ s s', a = .dir s ∧ b = .dir s' ∧ AlikeAll s s') := by
  have h59 := hr.good hx
  obtain ⟨a, ha⟩ := (get_there h59).2 hx
  cases a with
  | obj o =>
    obtain ⟨d, hd, hl⟩ := (h.2.1 [] x o).1 ⟨r, .here r, (get_latest hr h59).1 ha⟩
    cases hd
    exact ⟨_, _, ha, (get_latest hc h59).2 hl, .inl ⟨o, rfl, rfl⟩⟩
  | dir s =>
    obtain ⟨cy, hh⟩ := (get_dir hr h59).1 ha
    obtain ⟨d, hd⟩ := (h.1 [x]).1 ⟨s, .down hh (.here s)⟩
    obtain ⟨s', cy', hh', -⟩ : ∃ s' cy', Holds c x cy' (.dir s') ∧ True := by
      cases hd with
      | @down _ _ cy' s' _ _ hh' _ => exact ⟨s', cy', hh', trivial⟩
    refine ⟨_, _, ha, (get_dir hc h59).2 ⟨cy', hh'⟩, .inr ⟨s, s', rfl, rfl, ⟨?_, ?_, ?_⟩, ?_⟩⟩
    · have key : ∀ {ks : Keys (DOb T V A)} {t cz}, WF ks → Holds ks x cz (.dir t) → ∀ p,
          IsDir ks (x :: p) ↔ IsDir t p := by
        intro ks t cz hw hz p
        constructor
        · rintro ⟨e, he⟩
          cases he with
          | @down _ _ cw t' _ _ hw' he' =>
            have := (hw.uniq hz hw').2
            cases this
            exact ⟨e, he'⟩
        · rintro ⟨e, he⟩; exact ⟨e, .down hz he⟩
      intro p
      rw [← key hr hh, ← key hc hh']
      exact h.1 (x :: p)
    · have key : ∀ {ks : Keys (DOb T V A)} {t cz}, WF ks → Holds ks x cz (.dir t) → ∀ p name o,
          AtPath ks (x :: p) name o ↔ AtPath t p name o := by
        intro ks t cz hw hz p name o
        constructor
        · rintro ⟨e, he, hl⟩
          cases he with
          | @down _ _ cw t' _ _ hw' he' =>
            have := (hw.uniq hz hw').2
            cases this
            exact ⟨e, he', hl⟩
        · rintro ⟨e, he, hl⟩; exact ⟨e, .down hz he, hl⟩
      intro p name o
      rw [← key hr hh, ← key hc hh']
      exact h.2.1 (x :: p) name o
    · intro p d d' _ h1 h2
      exact h.2.2 (x :: p) d d' (by simp) (.down hh h1) (.down hh' h2)
    · exact h.2.2 [x] s s' (by simp) (.down hh (.here s)) (.down hh' (.here s'))

omit [DecidableEq T] in
theorem Alike.symm {r c : Keys (DOb T V A)} (h : Alike r c) : Alike c r :=
  ⟨fun p => (h.1 p).symm, fun p n o => (h.2.1 p n o).symm,
    fun p d d' hp h1 h2 => (h.2.2 p d' d hp h2 h1).symm⟩

omit [DecidableEq T] in
theorem alike_names {r c : Keys (DOb T V A)} (hr : WF r) (hc : WF c) (h : Alike r c) {x : List UInt8}
    (hx : x ∈ nameSet r) : x ∈ nameSet c := by
  have hx' := mem_nameSet.1 hx
  obtain ⟨_, b, _, hb, _⟩ := alike_child hr hc h hx'
  exact mem_nameSet.2 ((get_there (hr.good hx')).1 ⟨b, hb⟩)

theorem alike_dir (ho : ∀ l, (ord l).Perm l) (hd : ∀ x, deq x x = true) (hq : ∀ x, ceq x x = true)
    {r : Keys (DOb T V A)} (hr : WF r) : ∃ N, ∀ n ≥ N, ∀ c, WF c → AlikeAll r c →
      diffNode deq ceq ord n (.dir r) (.dir c) = .same := by
  induction hr with
  | @mk ks d1 d2 d3 d4 ih =>
    have hr : WF ks := .mk d1 d2 d3 d4
    have : ∀ k ∈ ks, ∃ N, ∀ n ≥ N, ∀ d, k.obj = .dir d → ∀ c, WF c → AlikeAll d c →
        diffNode deq ceq ord n (.dir d) (.dir c) = .same := by
      intro k hk
      cases hko : k.obj with
      | obj o => exact ⟨0, fun _ _ d hd => by cases hd⟩
      | dir d =>
        obtain ⟨N, hN⟩ := ih k hk d hko
        exact ⟨N, fun n hn d' hd' => by cases hd'; exact hN n hn⟩
    obtain ⟨N, hN⟩ := bound this
    refine ⟨N + 2, fun n hn c hc hA => ?_⟩
    obtain ⟨n, rfl⟩ : ∃ m, n = m + 1 := ⟨n - 1, by omega⟩
    simp only [diffNode]
    rw [diffDir_same ho]
    refine ⟨hA.2, ?_, ?_⟩
    · refine List.Perm.length_eq ((List.perm_ext_iff_of_nodup (nodup_nameSet _) (nodup_nameSet _)).2 ?_)
      exact fun x => ⟨alike_names hr hc hA.1, alike_names hc hr hA.1.symm⟩
    · intro x hx
      obtain ⟨a, b, h1, h2, h3⟩ := alike_child hr hc hA.1 (mem_nameSet.1 hx)
      refine fetch_same.2 ⟨a, b, h1, h2, ?_⟩
      obtain ⟨m, rfl⟩ : ∃ m, n = m + 1 := ⟨n - 1, by omega⟩
      rcases h3 with ⟨o, rfl, rfl⟩ | ⟨s, s', rfl, rfl, hs⟩
      · exact diffOb_refl hd hq o
      · obtain ⟨k, hk, e⟩ := get_mem h1
        obtain ⟨k', hk', e'⟩ := get_mem h2
        exact hN (m + 1) (by omega) k hk s e s' (hc.sub k' hk' s' e') hs

/-- **C164** (no false alarm): two files with something in them, the same directories and, under the same
paths, the same objects (in their latest versions) are found equal, if there are as many keys in every
subdirectory and values are equal to themselves; old versions at the top do not matter. -/
theorem C164_alike (ho : ∀ l, (ord l).Perm l) (hd : ∀ x, deq x x = true) (hq : ∀ x, ceq x x = true)
    (trim : List UInt8 → List UInt8) {r : Keys (DOb T V A)} (hr : WF r) (hne : r ≠ []) :
    ∃ N, ∀ n ≥ N, ∀ c, WF c → Alike r c → diff deq ceq ord trim n r c [] = .same := by
  have : ∀ k ∈ r, ∃ N, ∀ n ≥ N, ∀ d, k.obj = .dir d → ∀ c, WF c → AlikeAll d c →
      diffNode deq ceq ord n (.dir d) (.dir c) = .same := by
    intro k hk
    cases hko : k.obj with
    | obj o => exact ⟨0, fun _ _ d hd => by cases hd⟩
    | dir d =>
      obtain ⟨N, hN⟩ := alike_dir ho hd hq (hr.sub k hk d hko)
      exact ⟨N, fun n hn d' hd' => by cases hd'; exact hN n hn⟩
  obtain ⟨N, hN⟩ := bound this
  refine ⟨N + 1, fun n hn c hc hA => ?_⟩
  simp only [diff, wanted, if_true]
  rw [start_same ho]
  refine ⟨by simpa using hne, fun x hx => ?_⟩
  obtain ⟨k, hk, rfl⟩ := List.mem_map.1 hx
  obtain ⟨a, b, h1, h2, h3⟩ := alike_child hr hc hA ⟨k, hk, rfl⟩
  refine fetch_same.2 ⟨a, b, h1, h2, ?_⟩
  obtain ⟨m, rfl⟩ : ∃ m, n = m + 1 := ⟨n - 1, by omega⟩
  rcases h3 with ⟨o, rfl, rfl⟩ | ⟨s, s', rfl, rfl, hs⟩
  · exact diffOb_refl hd hq o
  · obtain ⟨k, hk, e⟩ := get_mem h1
    obtain ⟨k', hk', e'⟩ := get_mem h2
    exact hN (m + 1) (by omega) k hk s e s' (hc.sub k' hk' s' e') hs

/-! ## The comparison ends -/

theorem diffOb_deep (a b : DOb T V A) : diffOb deq ceq a b ≠ .deep := by
  cases a <;> cases b <;> simp only [diffOb] <;> (try split) <;> (try simp) <;> (try split) <;>
    (try simp)
  simp only [diffTree]
  split
  · simp
  · generalize rowsSame ceq _ _ = q
    cases q with
    | none => simp [ofRows]
    | some b => cases b <;> simp [ofRows]

omit [DecidableEq T] in
theorem fetch_deep {f : Node (DOb T V A) → Node (DOb T V A) → Vd} {r c : Keys (DOb T V A)}
    (h : ∀ k ∈ r, ∀ b, f k.obj b ≠ .deep) (x : List UInt8) : fetch f r c x ≠ .deep := by
  simp only [fetch]
  cases h1 : get r x with
  | noKey => simp [onFound]
  | panic => simp [onFound]
  | found a =>
    cases h2 : get c x with
    | noKey => simp [onFound]
    | panic => simp [onFound]
    | found b =>
      obtain ⟨k, hk, rfl⟩ := get_mem h1
      exact h k hk b

theorem deep_dir {r : Keys (DOb T V A)} (hr : WF r) :
    ∃ N, ∀ n ≥ N, ∀ b, diffNode deq ceq ord n (.dir r) b ≠ .deep := by
  induction hr with
  | @mk ks d1 d2 d3 d4 ih =>
    have : ∀ k ∈ ks, ∃ N, ∀ n ≥ N, ∀ b, diffNode deq ceq ord n k.obj b ≠ .deep := by
      intro k hk
      cases hko : k.obj with
      | obj o =>
        refine ⟨1, fun n hn b => ?_⟩
        obtain ⟨m, rfl⟩ : ∃ m, n = m + 1 := ⟨n - 1, by omega⟩
        cases b with
        | obj o' => exact diffOb_deep o o'
        | dir d => simp [diffNode]
      | dir d => exact ih k hk d hko
    obtain ⟨N, hN⟩ := bound this
    refine ⟨N + 1, fun n hn b => ?_⟩
    obtain ⟨m, rfl⟩ : ∃ m, n = m + 1 := ⟨n - 1, by omega⟩
    cases b with
    | obj o => simp [diffNode]
    | dir c =>
      simp only [diffNode, diffDir]
      split
      · simp
      · split
        · simp
        · exact every_deep fun x _ => fetch_deep (fun k hk b => hN m (by omega) k hk b) x

/-- **C164** (it ends): whatever the other file and the keys, the comparison ends, after a recursion whose
depth is bounded for each reference file. -/
theorem C164_ends (trim : List UInt8 → List UInt8) {r : Keys (DOb T V A)} (hr : WF r) :
    ∃ N, ∀ n ≥ N, ∀ c keys, diff deq ceq ord trim n r c keys ≠ .deep := by
  have : ∀ k ∈ r, ∃ N, ∀ n ≥ N, ∀ b, diffNode deq ceq ord n k.obj b ≠ .deep := by
    intro k hk
    cases hko : k.obj with
    | obj o =>
      refine ⟨1, fun n hn b => ?_⟩
      obtain ⟨m, rfl⟩ : ∃ m, n = m + 1 := ⟨n - 1, by omega⟩
      cases b with
      | obj o' => exact diffOb_deep o o'
      | dir d => simp [diffNode]
    | dir d => exact deep_dir (hr.sub k hk d hko)
  obtain ⟨N, hN⟩ := bound this
  refine ⟨N, fun n hn c keys => ?_⟩
  simp only [diff]
  split
  · simp
  · simp only [start]
    split
    · simp
    · split
      · simp
      · split
        · simp
        · exact every_deep fun x _ => fetch_deep (fun k hk b => hN n hn k hk b) x

end

/-! ## Examples and counterexamples -/

/-- A key of a directory (the class plays no role here). -/
def key {O : Type} (name : UInt8) (cycle : Int) (o : Node O) : DKey (Node O) :=
  ⟨[name], cycle, dirClass, o⟩

/-- Objects of the examples: numbers and trees of numbers. -/
abbrev Ob := DOb Nat Nat Nat

/-- `rcmd.Diff` without keys on files of numbers and trees. -/
def run (r c : Keys Ob) : Vd := diff (· == ·) (· == ·) id id 5 r c []

/-- What is only at the top of the second file is not noticed; the other way round it is. -/
theorem C164_extra_counterexample :
    run [key 97 1 (.obj (.other 0 7))] [key 97 1 (.obj (.other 0 7)), key 98 1 (.obj (.other 0 8))] =
      .same ∧
    run [key 97 1 (.obj (.other 0 7)), key 98 1 (.obj (.other 0 8))] [key 97 1 (.obj (.other 0 7))] =
      .differ := by decide +kernel

/-- The names of the variables of trees are not compared, nor are further variables of the second tree,
nor any of them in trees without entries. -/
theorem C164_tree_counterexample :
    run [key 97 1 (.obj (.tree 0 [[120]] [[1], [2]]))] [key 97 1 (.obj (.tree 0 [[121]] [[1], [2]]))] =
      .same ∧
    run [key 97 1 (.obj (.tree 0 [[120]] [[1], [2]]))]
      [key 97 1 (.obj (.tree 0 [[120], [121]] [[1, 5], [2, 6]]))] = .same ∧
    run [key 97 1 (.obj (.tree 0 [[120], [121]] []))] [key 97 1 (.obj (.tree 0 [[122]] []))] = .same := by
  decide +kernel

/-- If the second tree has fewer variables, the program panics. -/
theorem C164_panic_counterexample :
    run [key 97 1 (.obj (.tree 0 [[120], [121]] [[1, 5]]))] [key 97 1 (.obj (.tree 0 [[120]] [[1]]))] =
      .panic := by decide +kernel

/-- Two empty files give an error. -/
theorem C164_empty_counterexample : run [] [] = .differ := by decide +kernel

/-- An older version of an object makes two directories different, although all the objects that can be
had by name are the same; at the top it does not. -/
theorem C164_cycles_counterexample :
    run [key 100 1 (.dir [key 97 1 (.obj (.other 0 7))])]
      [key 100 1 (.dir [key 97 2 (.obj (.other 0 7)), key 97 1 (.obj (.other 0 7))])] = .differ ∧
    run [key 97 1 (.obj (.other 0 7))]
      [key 97 2 (.obj (.other 0 7)), key 97 1 (.obj (.other 0 7))] = .same := by decide +kernel

/-- A file is not equal to itself if one of its trees holds a value that is not equal to itself (NaN). -/
theorem C164_nan_counterexample (ceq : Nat → Nat → Bool) (h : ceq 0 0 = false) :
    diff (T := Nat) (A := Nat) (· == ·) ceq id id 5 [key 97 1 (.obj (.tree 0 [[120]] [[0]]))]
      [key 97 1 (.obj (.tree 0 [[120]] [[0]]))] [] = .differ := by
  have e : diffTree ceq [[0]] [[0]] = .differ := by
    simp [diffTree, rowsSame, rowSame, h, ofRows]
  have g : get [key 97 1 (.obj (.tree 0 [[120]] [[0]]) : Node Ob)] [97] =
      .found (.obj (.tree 0 [[120]] [[0]])) := rfl
  simp only [diff, wanted, if_true, List.map_cons, List.map_nil]
  show start _ _ _ _ _ _ [[97]] = _
  simp [start, allThere, thereIn, g, every, fetch, onFound, diffNode, diffOb, e, Vd.next]

/-- A file with a directory and a tree in it. -/
def exRef : Keys Ob :=
  [key 100 1 (.dir [key 97 1 (.obj (.tree 0 [[120]] [[1], [2]])), key 98 1 (.obj (.other 1 7))]),
   key 97 2 (.obj (.other 1 3)), key 97 1 (.obj (.other 1 2))]

/-- The same without the old version at the top. -/
def exChk : Keys Ob :=
  [key 97 1 (.obj (.other 1 3)),
   key 100 1 (.dir [key 98 1 (.obj (.other 1 7)), key 97 1 (.obj (.tree 0 [[120]] [[1], [2]]))])]

/-- The same with another value in the tree. -/
def exBad : Keys Ob :=
  [key 97 1 (.obj (.other 1 3)),
   key 100 1 (.dir [key 98 1 (.obj (.other 1 7)), key 97 1 (.obj (.tree 0 [[120]] [[1], [3]]))])]

theorem wf_dir {ks : Keys Ob} (h1 : Distinct ks) (h2 : ∀ k ∈ ks, Good k.name)
    (h3 : ∀ k ∈ ks, ∃ o, k.obj = .obj o) : WF ks := by
  refine .mk h1 h2 ?_ ?_
  · intro k hk d hd
    obtain ⟨o, ho⟩ := h3 k hk
    rw [ho] at hd; cases hd
  · intro k hk d hd
    obtain ⟨o, ho⟩ := h3 k hk
    rw [ho] at hd; cases hd

theorem exRef_wf : WF exRef := by
  refine .mk ?_ ?_ ?_ ?_
  · constructor
    · simp [exRef, key]
    · simp [exRef, key]
  · simp [exRef, key, Good]
  · simp [exRef, key]
  · simp only [exRef, key, List.forall_mem_cons, reduceCtorEq, Node.dir.injEq, false_implies,
      implies_true, List.not_mem_nil, and_true, forall_eq']
    exact wf_dir ⟨by simp, by simp⟩ (by simp [Good]) (by simp)

theorem exChk_wf : WF exChk := by
  refine .mk ?_ ?_ ?_ ?_
  · constructor
    · simp [exChk, key]
    · simp [exChk, key]
  · simp [exChk, key, Good]
  · simp [exChk, key]
  · simp only [exChk, key, List.forall_mem_cons, reduceCtorEq, Node.dir.injEq, false_implies,
      implies_true, List.not_mem_nil, and_true, true_and, forall_eq']
    exact wf_dir ⟨by simp, by simp⟩ (by simp [Good]) (by simp)

example : Covers exRef exChk ∧ Within (fun x => ∃ k ∈ exRef, k.name = x) exChk exRef :=
  C164_found_partial (deq := (· == ·)) (ceq := (· == ·)) (ord := id) (trim := id) (n := 5)
    (fun _ => .refl _) (by simp) (by simp) exRef_wf exChk_wf (by decide +kernel)

example : ∃ N, ∀ n ≥ N, diff (T := Nat) (A := Nat) (V := Nat) (· == ·) (· == ·) id id n exRef exRef [] = .same := by
  obtain ⟨N, hN⟩ := C164_alike (deq := (· == ·)) (ceq := (· == ·)) (ord := id) (fun _ => .refl _) (by simp)
    (by simp) id exRef_wf (by simp [exRef])
  exact ⟨N, fun n hn => hN n hn exRef exRef_wf ⟨fun _ => .rfl, fun _ _ _ => .rfl,
    fun _ _ _ _ h1 h2 => by rw [DirAt.unique exRef_wf h1 h2]⟩⟩

example : run exRef exChk = .same ∧ run exRef exBad = .differ ∧
    diff (T := Nat) (A := Nat) (V := Nat) (· == ·) (· == ·) id id 5 exRef exBad [[97]] = .same ∧
    diff (T := Nat) (A := Nat) (V := Nat) (· == ·) (· == ·) id id 5 exRef exBad [[97, 59, 49]] = .differ := by
  decide +kernel

end Verif.Rcmd.Diff
