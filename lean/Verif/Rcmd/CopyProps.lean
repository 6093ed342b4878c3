import Verif.Rcmd.Copy
import Verif.Rcmd.MergeProps

/-!
# Copying ROOT files (C130)
-/

namespace Verif.Rcmd

open Verif.Riofs

variable {S E A : Type}

/-- An argument of `Copy`: a selection and a file. -/
abbrev Arg (S E A : Type) := (List (List UInt8) → Bool) × Keys (Ob S E A)

/-! ### Specification -/

/-- What an argument selects: of every name the last cycle. -/
def Selects (a : Arg S E A) (p : List (List UInt8)) (n : Node (Ob S E A)) : Prop := Reaches a.2 p n ∧ a.1 p = true

/-- What becomes of an object: a tree loses its title and is of class TTree, anything else is as it was. -/
def copied : Ob S E A → Ob S E A
  | .tree _ _ s e => .tree tTree [] s e
  | x => x

/-- The directories needed for what is selected. -/
def NeedsDir (a : Arg S E A) (q : List (List UInt8)) : Prop :=
  ∃ p n, Selects a p n ∧ q <+: p ∧ (q = p → ∃ d, n = .dir d)

/-- What the second argument selects is not there yet after the first, and no object is in the way. -/
def Apart (a b : Arg S E A) : Prop :=
  ∀ p n q m, Selects a p n → Selects b q m → ¬ q <+: p ∧ (p <+: q → ∃ d, n = .dir d)

/-! ### One object -/

theorem reaches_prefix {O : Type} {f : Keys O} {p n q} (hr : Reaches f p n) (hq : q <+: p) (hne : q ≠ p) : IsDir f q := by
  rcases hr with ⟨rfl, _⟩ | ⟨r, x, d, rfl, hd, _⟩
  · rw [List.prefix_nil] at hq
    exact absurd hq hne
  · rw [List.prefix_concat_iff] at hq
    rcases hq with hq | hq
    · exact absurd hq hne
    · exact IsDir.prefix ⟨d, hd⟩ hq

theorem outDir_spec {o : Keys (Ob S E A)} (h : WF o) (p : List (List UInt8)) (hp : ∀ x ∈ p, Good x)
    (hno : ∀ r, r <+: p → r ≠ [] → ¬ IsObj o r) : ∃ o', outDir o (slash p) = .ok o' ∧ MoreDirs o o' (fun q => q <+: p) := by
  unfold outDir
  by_cases hd : IsDir o p
  · obtain ⟨d, hd⟩ := hd
    refine ⟨o, ?_, MoreDirs.refl h (fun q hq => IsDir.prefix ⟨d, hd⟩ hq)⟩
    unfold slash
    rw [rget_slash o p hp, rget_dir h hd hp]
  · by_cases hp0 : p = []
    · subst hp0
      exact absurd ⟨o, .here o⟩ hd
    · obtain ⟨o', e, m⟩ := C126_mkdir_slash h p hp0 hp hno
      obtain ⟨r, x, rfl⟩ : ∃ r x, p = r ++ [x] := ⟨p.dropLast, p.getLast hp0, (List.dropLast_concat_getLast hp0).symm⟩
      have hr : ∀ y ∈ r, Good y := fun y hy => hp y (by simp [hy])
      have hx : Good x := hp x (by simp)
      refine ⟨o', ?_, m⟩
      have hpanic : rget o (slash (r ++ [x])) ≠ .panic := by
        have hget := C126_get h r x hr hx
        unfold slash
        rw [hget.2.2.1]
        exact hget.2.2.2.2.2.2
      cases eg : rget o (slash (r ++ [x])) with
      | ok n =>
        have := (rget_reaches h hr hx n).mp eg
        cases n with
        | dir d => exact absurd ⟨d, (reaches_dir h).mp this⟩ hd
        | obj v => exact absurd (reaches_obj this) (hno _ (List.prefix_refl _) hp0)
      | panic => exact absurd eg hpanic
      | noKey => exact e
      | err => exact e

/-- One call of the function, with a selected object or directory that is new. -/
theorem copyVisit_spec {env : Env S E A} (hl : env.Faithful) {sel : List (List UInt8) → Bool} {o : Keys (Ob S E A)} (h : WF o)
    {p : List (List UInt8)} {n : Node (Ob S E A)} (hp : ∀ x ∈ p, Good x) (hp0 : p ≠ []) (hs : sel p = true)
    (hnd : ¬ IsDir o p) (hno : ∀ r, r <+: p → r ≠ [] → ¬ IsObj o r) :
    ∃ o', copyVisit env sel o (p, some n) = .ok o' ∧ WF o' ∧
      (∀ q, IsDir o' q ↔ IsDir o q ∨ (q <+: p ∧ (q = p → ∃ d, n = .dir d))) ∧
      (∀ q x cy v, HeldAt o' q x cy (.obj v) ↔ HeldAt o q x cy (.obj v) ∨ (q ++ [x] = p ∧ cy = 1 ∧ ∃ y, n = .obj y ∧ v = copied y)) := by
  obtain ⟨r, k, rfl⟩ : ∃ r x, p = r ++ [x] := ⟨p.dropLast, p.getLast hp0, (List.dropLast_concat_getLast hp0).symm⟩
  have hr : ∀ y ∈ r, Good y := fun y hy => hp y (by simp [hy])
  have hk : Good k := hp k (by simp)
  obtain ⟨o1, e1, m1⟩ := outDir_spec h r hr (fun q hq => hno q (hq.trans (List.prefix_append _ _)))
  obtain ⟨d, hd⟩ := (m1.2.1 r).mpr (Or.inr (List.prefix_refl r))
  have hfresh : ∀ cy m, ¬ Holds d k cy m := by
    intro cy m hh
    cases m with
    | obj v =>
      have := (m1.2.2 r k cy v).mp ⟨d, hd, hh⟩
      exact hno _ (List.prefix_refl _) (by simp) ⟨r, k, cy, v, rfl, this⟩
    | dir sub =>
      have : IsDir o1 (r ++ [k]) := ⟨sub, DirAt.append_iff.mpr ⟨d, hd, .down hh (.here _)⟩⟩
      rcases (m1.2.1 _).mp this with g | g
      · exact hnd g
      · have := g.length_le
        simp at this
        omega
  have hstep : copyVisit env sel o (r ++ [k], some n) = updAt (copyObj env k n) r o1 := by
    unfold copyVisit
    simp only [hs, Bool.true_eq_false, if_false]
    have e3 : dirName (r ++ [k]) = slash r := by simp [dirName]
    have e4 : dirParts (r ++ [k]) = r := by simp [dirParts]
    have e5 : baseName (r ++ [k]) = k := by simp [baseName]
    rw [e3, e4, e5, e1]
    rfl
  have hpre : ∀ q, q <+: r ++ [k] ↔ q = r ++ [k] ∨ q <+: r := fun q => List.prefix_concat_iff
  have hput : ∀ (v : Ob S E A) (y : Ob S E A) c, n = .obj y → v = copied y → copyObj env k n = put1 k [] c c v → ∃ o', updAt (copyObj env k n) r o1 = .ok o' ∧ WF o' ∧
      (∀ q, IsDir o' q ↔ IsDir o q ∨ (q <+: r ++ [k] ∧ (q = r ++ [k] → ∃ d, n = .dir d))) ∧
      (∀ q x cy v, HeldAt o' q x cy (.obj v) ↔ HeldAt o q x cy (.obj v) ∨ (q ++ [x] = r ++ [k] ∧ cy = 1 ∧ ∃ y, n = .obj y ∧ v = copied y)) := by
    intro v y c hn hv he
    obtain ⟨o', e2, w2, f1, f2⟩ := updAt_put_fresh m1.1 hd hr k [] c c v hk hfresh
    refine ⟨o', by rw [he]; exact e2, w2, ?_, ?_⟩
    · intro q
      rw [f2, m1.2.1, hpre]
      constructor
      · rintro (g | g)
        · exact Or.inl g
        · refine Or.inr ⟨Or.inr g, ?_⟩
          rintro rfl
          have := g.length_le
          simp at this
          omega
      · rintro (g | ⟨g | g, g2⟩)
        · exact Or.inl g
        · obtain ⟨d, e⟩ := g2 g
          rw [hn] at e
          cases e
        · exact Or.inr g
    · intro q x cy w
      rw [f1, m1.2.2]
      constructor
      · rintro (g | ⟨rfl, rfl, g3, rfl⟩)
        · exact Or.inl g
        · exact Or.inr ⟨rfl, g3, y, hn, hv⟩
      · rintro (g | ⟨g1, g2, y', g3, g4⟩)
        · exact Or.inl g
        · obtain ⟨rfl, e⟩ := List.append_inj' g1 rfl
          injection e with e
          rw [hn] at g3
          injection g3 with g3
          subst g3
          exact Or.inr ⟨rfl, e, g2, by rw [g4, hv]⟩
  rw [hstep]
  cases n with
  | obj y =>
    cases y with
    | tree c t s e =>
      exact hput (.tree tTree [] s e) _ tTree rfl rfl (by funext d; simp only [copyObj, hl s e])
    | mer c a => exact hput _ (.mer c a) c rfl rfl rfl
    | h2 c a => exact hput _ (.h2 c a) c rfl rfl rfl
    | other c => exact hput _ (.other c) c rfl rfl rfl
  | dir sub =>
    obtain ⟨o', e2, m2⟩ := updAt_mkdir m1.1 hd hr hk hfresh
    refine ⟨o', e2, m2.1, ?_, ?_⟩
    · intro q
      rw [m2.2.1, m1.2.1, hpre]
      constructor
      · rintro ((g | g) | g)
        · exact Or.inl g
        · exact Or.inr ⟨Or.inr g, fun _ => ⟨_, rfl⟩⟩
        · exact Or.inr ⟨Or.inl g, fun _ => ⟨_, rfl⟩⟩
      · rintro (g | ⟨g | g, _⟩)
        · exact Or.inl (Or.inl g)
        · exact Or.inr g
        · exact Or.inl (Or.inr g)
    · intro q x cy v
      rw [m2.2.2, m1.2.2]
      constructor
      · exact Or.inl
      · rintro (g | ⟨_, _, y, g, _⟩)
        · exact g
        · cases g

/-! ### One file -/

/-- The output after the visits `done`. -/
def CopyInv (sel : List (List UInt8) → Bool) (o : Keys (Ob S E A)) (done : List (Visit (Ob S E A))) (o' : Keys (Ob S E A)) : Prop :=
  WF o' ∧
  (∀ q, IsDir o' q ↔ IsDir o q ∨ ∃ p n, (p, some n) ∈ done ∧ sel p = true ∧ q <+: p ∧ (q = p → ∃ d, n = Node.dir d)) ∧
  (∀ q x cy v, HeldAt o' q x cy (.obj v) ↔ HeldAt o q x cy (.obj v) ∨
    (cy = 1 ∧ ∃ y, (q ++ [x], some (Node.obj y)) ∈ done ∧ sel (q ++ [x]) = true ∧ v = copied y))

theorem copyVisits_spec {env : Env S E A} (hl : env.Faithful) {sel : List (List UInt8) → Bool} {f o : Keys (Ob S E A)} (hf : WF f)
    (htop : sel [] = false)
    (hnew : ∀ p n, Selects (sel, f) p n → ¬ IsDir o p ∧ ∀ r, r <+: p → r ≠ [] → ¬ IsObj o r)
    (rest : List (Visit (Ob S E A))) : ∀ (done : List (Visit (Ob S E A))) (o1 : Keys (Ob S E A)),
    (∀ v ∈ done ++ rest, ∃ p m, v = (p, some m) ∧ Reaches f p m) →
    (done ++ rest).Pairwise (fun a b => ¬ b.1 <+: a.1) → CopyInv sel o done o1 →
    ∃ o2, copyVisits env sel rest o1 = .ok o2 ∧ CopyInv sel o (done ++ rest) o2 := by
  induction rest with
  | nil =>
    intro done o1 _ _ hi
    exact ⟨o1, rfl, by simpa using hi⟩
  | cons v rest ih =>
    intro done o1 hm hpw hi
    obtain ⟨p, n, rfl, hr⟩ := hm v (by simp)
    have hcons : done ++ (p, some n) :: rest = (done ++ [(p, some n)]) ++ rest := by simp
    have hbefore : ∀ w ∈ done, ¬ p <+: w.1 := by
      intro w hw
      rw [List.pairwise_append] at hpw
      exact hpw.2.2 w hw (p, some n) (by simp)
    suffices hs : ∃ o2, copyVisit env sel o1 (p, some n) = .ok o2 ∧ CopyInv sel o (done ++ [(p, some n)]) o2 by
      obtain ⟨o2, e2, i2⟩ := hs
      obtain ⟨o3, e3, i3⟩ := ih (done ++ [(p, some n)]) o2 (by rw [← hcons]; exact hm) (by rw [← hcons]; exact hpw) i2
      refine ⟨o3, ?_, by rw [hcons]; exact i3⟩
      simp only [copyVisits, e2, Out.bind]
      exact e3
    obtain ⟨w1, d1, h1⟩ := hi
    cases hsel : sel p with
    | false =>
      refine ⟨o1, by simp [copyVisit, hsel], w1, ?_, ?_⟩
      · intro q
        rw [d1]
        apply or_congr Iff.rfl
        constructor
        · rintro ⟨p', n', g, g2⟩
          exact ⟨p', n', by simp [g], g2⟩
        · rintro ⟨p', n', g, g2, g3⟩
          rcases List.mem_append.mp g with g | g
          · exact ⟨p', n', g, g2, g3⟩
          · have := List.mem_singleton.mp g
            injection this with e1 _
            rw [e1, hsel] at g2
            cases g2
      · intro q x cy v
        rw [h1]
        apply or_congr Iff.rfl
        apply and_congr Iff.rfl
        constructor
        · rintro ⟨y, g, g2⟩
          exact ⟨y, by simp [g], g2⟩
        · rintro ⟨y, g, g2, g3⟩
          rcases List.mem_append.mp g with g | g
          · exact ⟨y, g, g2, g3⟩
          · have := List.mem_singleton.mp g
            injection this with e1 _
            rw [e1, hsel] at g2
            cases g2
    | true =>
      have hp0 : p ≠ [] := by
        rintro rfl
        rw [htop] at hsel
        cases hsel
      obtain ⟨n1, n2⟩ := hnew p n ⟨hr, hsel⟩
      have hnd : ¬ IsDir o1 p := by
        rw [d1]
        rintro (g | ⟨p', n', g, _, g2, _⟩)
        · exact n1 g
        · exact hbefore _ g g2
      have hno : ∀ r, r <+: p → r ≠ [] → ¬ IsObj o1 r := by
        rintro r hrp hr0 ⟨q, x, cy, v, rfl, hh⟩
        rcases (h1 q x cy v).mp hh with g | ⟨_, y, g, _, _⟩
        · exact n2 _ hrp hr0 ⟨q, x, cy, v, rfl, g⟩
        · by_cases heq : q ++ [x] = p
          · exact hbefore _ g (by rw [heq]; exact List.prefix_refl p)
          · have hdir := reaches_prefix hr hrp heq
            obtain ⟨p', m', e, hr'⟩ := hm _ (List.mem_append_left _ g)
            injection e with ea eb
            injection eb with eb
            subst eb ea
            exact hdir.not_obj hf (reaches_obj hr')
      obtain ⟨o2, e2, w2, d2, h2⟩ := copyVisit_spec hl w1 (reaches_good hf hr) hp0 hsel hnd hno (n := n)
      refine ⟨o2, e2, w2, ?_, ?_⟩
      · intro q
        rw [d2, d1]
        constructor
        · rintro ((g | ⟨p', n', g, g2⟩) | ⟨g, g2⟩)
          · exact Or.inl g
          · exact Or.inr ⟨p', n', by simp [g], g2⟩
          · exact Or.inr ⟨p, n, by simp, hsel, g, g2⟩
        · rintro (g | ⟨p', n', g, g2, g3, g4⟩)
          · exact Or.inl (Or.inl g)
          · rcases List.mem_append.mp g with g | g
            · exact Or.inl (Or.inr ⟨p', n', g, g2, g3, g4⟩)
            · have := List.mem_singleton.mp g
              injection this with ea eb
              injection eb with eb
              subst ea eb
              exact Or.inr ⟨g3, g4⟩
      · intro q x cy v
        rw [h2, h1]
        constructor
        · rintro ((g | ⟨g1, y, g, g2⟩) | ⟨g1, g2, y, g3, g4⟩)
          · exact Or.inl g
          · exact Or.inr ⟨g1, y, by simp [g], g2⟩
          · exact Or.inr ⟨g2, y, by simp [g1, g3], by rw [g1]; exact hsel, g4⟩
        · rintro (g | ⟨g1, y, g, g2, g3⟩)
          · exact Or.inl (Or.inl g)
          · rcases List.mem_append.mp g with g | g
            · exact Or.inl (Or.inr ⟨g1, y, g, g2, g3⟩)
            · have := List.mem_singleton.mp g
              injection this with ea eb
              injection eb with eb
              exact Or.inr ⟨ea, g1, y, eb.symm, g3⟩

/-- The walk through the file is complete with this bound on the depth. -/
def Walked (f : Keys (Ob S E A)) (fuel : Nat) : Prop :=
  (∀ v, v ∈ (walkTop (fun _ => Verdict.go) fuel f).1 ↔ ∃ p m, v = (p, some m) ∧ Reaches f p m) ∧
  (walkTop (fun _ => Verdict.go) fuel f).1.Pairwise (fun a b => ¬ b.1 <+: a.1)

theorem copyFile_spec {env : Env S E A} (hl : env.Faithful) {o : Keys (Ob S E A)} (ho : WF o) (a : Arg S E A) (hf : WF a.2)
    (htop : a.1 [] = false)
    (hnew : ∀ p n, Selects a p n → ¬ IsDir o p ∧ ∀ r, r <+: p → r ≠ [] → ¬ IsObj o r) (fuel : Nat) (hw : Walked a.2 fuel) :
    ∃ o', copyFile env fuel a.1 a.2 o = .ok o' ∧ WF o' ∧
      (∀ q, IsDir o' q ↔ IsDir o q ∨ NeedsDir a q) ∧
      (∀ q x cy v, HeldAt o' q x cy (.obj v) ↔ HeldAt o q x cy (.obj v) ∨
        (cy = 1 ∧ ∃ y, Selects a (q ++ [x]) (.obj y) ∧ v = copied y)) := by
  obtain ⟨w1, w2⟩ := hw
  obtain ⟨o2, e, i1, i2, i3⟩ := copyVisits_spec hl hf htop hnew (walkTop (fun _ => Verdict.go) fuel a.2).1 [] o
    (fun v hv => (w1 v).mp hv) w2 ⟨ho, by simp, by simp⟩
  have hmem : ∀ p n, (p, some n) ∈ (walkTop (fun _ => Verdict.go) fuel a.2).1 ↔ Reaches a.2 p n := by
    intro p n
    rw [w1]
    constructor
    · rintro ⟨p', m', e, g⟩
      injection e with ea eb
      injection eb with eb
      rw [ea, eb]
      exact g
    · intro g
      exact ⟨p, n, rfl, g⟩
  refine ⟨o2, e, i1, ?_, ?_⟩
  · intro q
    rw [i2]
    apply or_congr Iff.rfl
    simp only [List.nil_append, hmem, NeedsDir, Selects]
    constructor
    · rintro ⟨p, n, g1, g2, g3⟩
      exact ⟨p, n, ⟨g1, g2⟩, g3⟩
    · rintro ⟨p, n, ⟨g1, g2⟩, g3⟩
      exact ⟨p, n, g1, g2, g3⟩
  · intro q x cy v
    rw [i3]
    simp only [List.nil_append, hmem, Selects, and_assoc]

/-- **C130** (one argument): what is selected of a file is copied into an output file that does not have any of
it yet: afterwards it has what it had, every object selected (of every name the last cycle) under its
path with cycle 1, the directories selected and the directories of what was selected; nothing else. -/
theorem C130_copy_one {env : Env S E A} (hl : env.Faithful) {o : Keys (Ob S E A)} (ho : WF o) (a : Arg S E A) (hf : WF a.2)
    (htop : a.1 [] = false)
    (hnew : ∀ p n, Selects a p n → ¬ IsDir o p ∧ ∀ r, r <+: p → r ≠ [] → ¬ IsObj o r) :
    ∃ F, ∀ fuel, F ≤ fuel → ∃ o', copyFile env fuel a.1 a.2 o = .ok o' ∧ WF o' ∧
      (∀ q, IsDir o' q ↔ IsDir o q ∨ NeedsDir a q) ∧
      (∀ q x cy v, HeldAt o' q x cy (.obj v) ↔ HeldAt o q x cy (.obj v) ∨
        (cy = 1 ∧ ∃ y, Selects a (q ++ [x]) (.obj y) ∧ v = copied y)) := by
  obtain ⟨F, hF⟩ := walk_facts hf
  exact ⟨F, fun fuel hfu => copyFile_spec hl ho a hf htop hnew fuel ⟨(hF fuel hfu).1, (hF fuel hfu).2.1⟩⟩

theorem walked_all (args : List (Arg S E A)) (hf : ∀ a ∈ args, WF a.2) : ∃ F, ∀ fuel, F ≤ fuel → ∀ a ∈ args, Walked a.2 fuel := by
  induction args with
  | nil => exact ⟨0, by simp⟩
  | cons a args ih =>
    obtain ⟨F, hF⟩ := ih (fun b hb => hf b (by simp [hb]))
    obtain ⟨G, hG⟩ := walk_facts (hf a (by simp))
    refine ⟨max F G, fun fuel hfu b hb => ?_⟩
    rcases List.mem_cons.mp hb with rfl | hb
    · exact ⟨(hG fuel (by omega)).1, (hG fuel (by omega)).2.1⟩
    · exact hF fuel (by omega) b hb

theorem copyFiles_spec {env : Env S E A} (hl : env.Faithful) (fuel : Nat) (args : List (Arg S E A)) (hf : ∀ a ∈ args, WF a.2)
    (htop : ∀ a ∈ args, a.1 [] = false) (hw : ∀ a ∈ args, Walked a.2 fuel) (hpw : args.Pairwise Apart) : ∀ {o : Keys (Ob S E A)}, WF o →
    (∀ a ∈ args, ∀ p n, Selects a p n → ¬ IsDir o p ∧ ∀ r, r <+: p → r ≠ [] → ¬ IsObj o r) →
    ∃ o', copyFiles env fuel args o = .ok o' ∧ WF o' ∧
      (∀ q, IsDir o' q ↔ IsDir o q ∨ ∃ a ∈ args, NeedsDir a q) ∧
      (∀ q x cy v, HeldAt o' q x cy (.obj v) ↔ HeldAt o q x cy (.obj v) ∨
        (cy = 1 ∧ ∃ a ∈ args, ∃ y, Selects a (q ++ [x]) (.obj y) ∧ v = copied y)) := by
  induction args with
  | nil =>
    intro o ho _
    exact ⟨o, rfl, ho, by simp, by simp⟩
  | cons a args ih =>
    intro o ho hnew
    rw [List.pairwise_cons] at hpw
    obtain ⟨o1, e1, w1, d1, h1⟩ := copyFile_spec hl ho a (hf a (by simp)) (htop a (by simp)) (hnew a (by simp)) fuel (hw a (by simp))
    obtain ⟨o2, e2, w2, d2, h2⟩ := ih (fun b hb => hf b (by simp [hb])) (fun b hb => htop b (by simp [hb]))
      (fun b hb => hw b (by simp [hb])) hpw.2 w1 (by
        intro b hb p n hs
        obtain ⟨n1, n2⟩ := hnew b (by simp [hb]) p n hs
        constructor
        · rw [d1]
          rintro (g | ⟨p', n', g, g2, _⟩)
          · exact n1 g
          · exact (hpw.1 b hb p' n' p n g hs).1 g2
        · rintro r hr hr0 ⟨q, x, cy, v, rfl, hh⟩
          rcases (h1 q x cy v).mp hh with g | ⟨_, y, g, _⟩
          · exact n2 _ hr hr0 ⟨q, x, cy, v, rfl, g⟩
          · obtain ⟨d, e⟩ := (hpw.1 b hb _ _ p n g hs).2 hr
            cases e)
    refine ⟨o2, ?_, w2, ?_, ?_⟩
    · simp only [copyFiles, e1, Out.bind]
      exact e2
    · intro q
      rw [d2, d1, or_assoc]
      simp
    · intro q x cy v
      rw [h2, h1, or_assoc]
      apply or_congr Iff.rfl
      constructor
      · rintro (⟨g1, y, g⟩ | ⟨g1, b, hb, g⟩)
        · exact ⟨g1, a, by simp, y, g⟩
        · exact ⟨g1, b, by simp [hb], g⟩
      · rintro ⟨g1, b, hb, g⟩
        rcases List.mem_cons.mp hb with rfl | hb
        · exact Or.inl ⟨g1, g⟩
        · exact Or.inr ⟨g1, b, hb, g⟩

/-- **C130** (copying): if nothing that a later argument selects is what an earlier one selects, or a directory of it,
or below an object of it, `Copy` succeeds and the output file holds exactly what was selected: every
object (of every name the last cycle) under its path with cycle 1, the directories selected and the
directories of what was selected. Partial: trees lose their titles (see `copied`), and files that have a
selected directory in common cannot be copied together (C130_shared_directory_counterexample). -/
theorem C130_copy_partial {env : Env S E A} (hl : env.Faithful) (args : List (Arg S E A)) (hf : ∀ a ∈ args, WF a.2)
    (htop : ∀ a ∈ args, a.1 [] = false) (hpw : args.Pairwise Apart) :
    ∃ F, ∀ fuel, F ≤ fuel → ∃ o', copy env fuel args = .ok o' ∧ WF o' ∧
      (∀ q, IsDir o' q ↔ q = [] ∨ ∃ a ∈ args, NeedsDir a q) ∧
      (∀ q x cy v, HeldAt o' q x cy (.obj v) ↔ cy = 1 ∧ ∃ a ∈ args, ∃ y, Selects a (q ++ [x]) (.obj y) ∧ v = copied y) := by
  obtain ⟨F, hF⟩ := walked_all args hf
  refine ⟨F, fun fuel hfu => ?_⟩
  have hempty : ∀ q x cy v, ¬ HeldAt ([] : Keys (Ob S E A)) q x cy (.obj v) := by
    rintro q x cy v ⟨d, hd, k, hk, _⟩
    cases q with
    | nil => rw [DirAt.nil_iff.mp hd] at hk; cases hk
    | cons c q =>
      obtain ⟨_, _, ⟨k, hk, _⟩, _⟩ := DirAt.cons_iff.mp hd
      cases hk
  have hdir : ∀ q, IsDir ([] : Keys (Ob S E A)) q ↔ q = [] := by
    intro q
    constructor
    · rintro ⟨d, hd⟩
      cases q with
      | nil => rfl
      | cons c q =>
        obtain ⟨_, _, ⟨k, hk, _⟩, _⟩ := DirAt.cons_iff.mp hd
        cases hk
    · rintro rfl
      exact ⟨[], .here _⟩
  obtain ⟨o', e, w, d, h⟩ := copyFiles_spec hl fuel args hf htop (hF fuel hfu) hpw WF.nil (by
    intro a ha p n hs
    constructor
    · rw [hdir]
      rintro rfl
      have := hs.2
      rw [htop a ha] at this
      cases this
    · rintro r _ _ ⟨q, x, cy, v, _, hh⟩
      exact hempty q x cy v hh)
  refine ⟨o', e, w, fun q => by rw [d, hdir], ?_⟩
  intro q x cy v
  rw [h]
  constructor
  · rintro (g | g)
    · exact absurd g (hempty q x cy v)
    · exact g
  · exact Or.inr

/-! ### Directories in common -/

theorem mkdir1_used {O : Type} {d : Keys O} {k : List UInt8} (hk : Good k) {cy n} (hh : Holds d k cy n) : mkdir1 d k = .err := by
  unfold mkdir1
  cases e : get d k with
  | found m => rfl
  | panic => exact absurd e (get_noPanic d k hk.2.2)
  | noKey => exact absurd hh ((get_noKey d k hk.2.2).mp e cy n)

/-- A directory selected that the output file has already gives an error. -/
theorem copyVisit_used {env : Env S E A} {sel : List (List UInt8) → Bool} {o : Keys (Ob S E A)} (h : WF o)
    {p : List (List UInt8)} {s : Keys (Ob S E A)} (hp : ∀ x ∈ p, Good x) (hp0 : p ≠ []) (hs : sel p = true) (hd : IsDir o p) :
    ∀ o', copyVisit env sel o (p, some (.dir s)) ≠ .ok o' := by
  obtain ⟨r, k, rfl⟩ : ∃ r x, p = r ++ [x] := ⟨p.dropLast, p.getLast hp0, (List.dropLast_concat_getLast hp0).symm⟩
  have hr : ∀ y ∈ r, Good y := fun y hy => hp y (by simp [hy])
  have hk : Good k := hp k (by simp)
  obtain ⟨d, hd⟩ := hd
  obtain ⟨d1, h1, h2⟩ := DirAt.append_iff.mp hd
  obtain ⟨cy, s', hh, _⟩ := DirAt.cons_iff.mp h2
  have e1 : outDir o (slash r) = .ok o := by
    unfold outDir slash
    rw [rget_slash o r hr, rget_dir h h1 hr]
  intro o' e
  unfold copyVisit at e
  simp only [hs, Bool.true_eq_false, if_false] at e
  rw [show dirName (r ++ [k]) = slash r by simp [dirName], show dirParts (r ++ [k]) = r by simp [dirParts],
    show baseName (r ++ [k]) = k by simp [baseName], e1] at e
  simp only [Out.bind] at e
  have key : ∀ (r : List (List UInt8)) (o : Keys (Ob S E A)), WF o → (∀ y ∈ r, Good y) → DirAt o r d1 → ∀ o', updAt (copyObj env k (.dir s)) r o ≠ .ok o' := by
    intro r
    induction r with
    | nil =>
      intro o _ _ hd o' e
      rw [DirAt.nil_iff.mp hd] at hh
      simp only [updAt, copyObj, mkdir1_used hk hh] at e
      cases e
    | cons c r ih =>
      intro o ho hg hd o' e
      obtain ⟨cy', sub, hh', h3⟩ := DirAt.cons_iff.mp hd
      simp only [updAt, (get_dir ho (hg c (by simp)).2.2).mpr ⟨cy', hh'⟩] at e
      cases e2 : updAt (copyObj env k (.dir s)) r sub with
      | ok o2 => exact ih sub (ho.holds_sub hh') (fun y hy => hg y (by simp [hy])) h3 o2 e2
      | noKey => rw [e2] at e; cases e
      | err => rw [e2] at e; cases e
      | panic => rw [e2] at e; cases e
  exact key r o h hr h1 o' e

theorem first_of {α : Type} (P : α → Prop) (l : List α) (h : ∃ v ∈ l, P v) :
    ∃ l1 v l2, l = l1 ++ v :: l2 ∧ P v ∧ ∀ w ∈ l1, ¬ P w := by
  classical
  induction l with
  | nil => obtain ⟨v, hv, _⟩ := h; cases hv
  | cons a l ih =>
    by_cases ha : P a
    · exact ⟨[], a, l, rfl, ha, by simp⟩
    · obtain ⟨l1, v, l2, e, h1, h2⟩ := ih (by
        obtain ⟨v, hv, hp⟩ := h
        rcases List.mem_cons.mp hv with rfl | hv
        · exact absurd hp ha
        · exact ⟨v, hv, hp⟩)
      refine ⟨a :: l1, v, l2, by rw [e]; rfl, h1, ?_⟩
      intro w hw
      rcases List.mem_cons.mp hw with rfl | hw
      · exact ha
      · exact h2 w hw

theorem copyVisits_append (env : Env S E A) (sel : List (List UInt8) → Bool) (l1 l2 : List (Visit (Ob S E A))) (o : Keys (Ob S E A)) :
    copyVisits env sel (l1 ++ l2) o = (copyVisits env sel l1 o).bind (copyVisits env sel l2) := by
  induction l1 generalizing o with
  | nil => rfl
  | cons v l1 ih =>
    simp only [List.cons_append, copyVisits]
    cases e : copyVisit env sel o v with
    | ok o1 => exact ih o1
    | noKey => rfl
    | err => rfl
    | panic => rfl

theorem copyVisits_congr (env : Env S E A) (sel sel' : List (List UInt8) → Bool) (l : List (Visit (Ob S E A)))
    (h : ∀ v ∈ l, sel v.1 = sel' v.1) (o : Keys (Ob S E A)) : copyVisits env sel l o = copyVisits env sel' l o := by
  induction l generalizing o with
  | nil => rfl
  | cons v l ih =>
    have e : copyVisit env sel o v = copyVisit env sel' o v := by
      unfold copyVisit
      rw [h v (by simp)]
    simp only [copyVisits, e]
    congr 1
    funext o1
    exact ih (fun w hw => h w (by simp [hw])) o1

/-- Everything but the file itself: what a selection of ".*" means. -/
def everything (q : List (List UInt8)) : Bool := decide (q ≠ [])

/-- **C130** (directories in common): two files that both have a directory of some path cannot be copied into one
file, although they have no name of an object in common: `Copy` does not succeed. -/
theorem C130_shared_directory_counterexample {env : Env S E A} (hl : env.Faithful) {f g : Keys (Ob S E A)} (hf : WF f) (hg : WF g)
    {p : List (List UInt8)} (hp : p ≠ []) (h1 : IsDir f p) (h2 : IsDir g p)
    (hfo : ∀ q, IsObj f q → ¬ IsObj g q ∧ ¬ IsDir g q) (hgo : ∀ q, IsObj g q → ¬ IsDir f q) :
    ∃ F, ∀ fuel, F ≤ fuel → ∀ o', copy env fuel [(everything, f), (everything, g)] ≠ .ok o' := by
  classical
  obtain ⟨F, hF⟩ := C130_copy_partial hl [(everything, f)] (by simpa using hf) (by simp [everything]) (by simp)
  obtain ⟨G, hG⟩ := walk_facts hg
  refine ⟨max F G, fun fuel hfu o' he => ?_⟩
  obtain ⟨o1, e1, w1, d1, k1⟩ := hF fuel (by omega)
  obtain ⟨m1, m2, _⟩ := hG fuel (by omega)
  have d1' : ∀ q, IsDir o1 q ↔ IsDir f q := by
    intro q
    rw [d1]
    simp only [List.mem_singleton, exists_eq_left]
    constructor
    · rintro (rfl | ⟨p, n, hs, hq, hd⟩)
      · exact ⟨f, .here f⟩
      · by_cases heq : q = p
        · obtain ⟨d, rfl⟩ := hd heq
          rw [heq]
          exact ⟨d, (reaches_dir hf).mp hs.1⟩
        · exact reaches_prefix hs.1 hq heq
    · intro hd
      by_cases hq : q = []
      · exact Or.inl hq
      · obtain ⟨d, hd⟩ := hd
        exact Or.inr ⟨q, _, ⟨(reaches_dir hf).mpr hd, by simp [everything, hq]⟩, List.prefix_refl _, fun _ => ⟨d, rfl⟩⟩
  have k1' : ∀ q, IsObj o1 q → IsObj f q := by
    rintro q ⟨r, x, cy, v, rfl, hh⟩
    obtain ⟨_, a, ha, y, hs, _⟩ := (k1 r x cy v).mp hh
    rw [List.mem_singleton.mp ha] at hs
    exact reaches_obj hs.1
  obtain ⟨d2, h2⟩ := h2
  obtain ⟨l1, v, l2, e, ⟨hv0, s, hv1, hv2⟩, hfirst⟩ := first_of
    (fun v : Visit (Ob S E A) => v.1 ≠ [] ∧ ∃ s, v.2 = some (.dir s) ∧ IsDir o1 v.1) _
    ⟨(p, some (.dir d2)), (m1 _).mpr ⟨p, _, rfl, (reaches_dir hg).mpr h2⟩, hp, d2, rfl, (d1' p).mpr h1⟩
  obtain ⟨q, w⟩ := v
  simp only at hv0 hv1 hv2
  subst hv1
  rw [e] at m1 m2
  have hl1 : ∀ v ∈ l1, ∃ p m, v = (p, some m) ∧ Reaches g p m := fun v hv => (m1 v).mp (by simp [hv])
  have hq : Reaches g q (.dir s) := by
    obtain ⟨p', m', e', hr'⟩ := (m1 (q, some (.dir s))).mp (by simp)
    injection e' with ea eb
    injection eb with eb
    rw [ea, eb]
    exact hr'
  let sel' : List (List UInt8) → Bool := fun r => everything r && decide (∃ v ∈ l1, v.1 = r)
  obtain ⟨o2, e2, i2⟩ := copyVisits_spec hl (sel := sel') (f := g) (o := o1) hg (by simp [sel', everything]) (by
    rintro r n ⟨hr, hs⟩
    simp only [sel', Bool.and_eq_true, decide_eq_true_eq] at hs
    obtain ⟨hr0, w, hw, rfl⟩ := hs
    have hr0 : w.1 ≠ [] := by simpa [everything] using hr0
    have hgood : ∀ r', r' <+: w.1 → r' ≠ [] → ¬ IsObj o1 r' := by
      intro r' hpre _ ho
      have ho := k1' _ ho
      by_cases heq : r' = w.1
      · rw [heq] at ho
        cases n with
        | dir d => exact (hfo _ ho).2 ⟨d, (reaches_dir hg).mp hr⟩
        | obj y => exact (hfo _ ho).1 (reaches_obj hr)
      · exact (hfo _ ho).2 (reaches_prefix hr hpre heq)
    refine ⟨?_, hgood⟩
    intro hd
    cases n with
    | obj y => exact hgo _ (reaches_obj hr) ((d1' _).mp hd)
    | dir d =>
      obtain ⟨p', m', rfl, hr'⟩ := hl1 w hw
      cases m' with
      | dir d' => exact hfirst _ hw ⟨hr0, d', rfl, hd⟩
      | obj y => exact IsDir.not_obj hg ⟨d, (reaches_dir hg).mp hr⟩ (reaches_obj hr'))
    l1 [] o1 (by simpa using hl1) (by
      rw [List.pairwise_append] at m2
      simpa using m2.1) ⟨w1, by simp, by simp⟩
  have e3 : copyVisits env everything l1 o1 = .ok o2 := by
    rw [copyVisits_congr env everything sel' l1 ?_ o1]
    · exact e2
    · intro v hv
      have : ∃ w ∈ l1, w.1 = v.1 := ⟨v, hv, rfl⟩
      simp only [sel', decide_eq_true this, Bool.and_true]
  have hd2 : IsDir o2 q := (i2.2.1 q).mpr (Or.inl hv2)
  have hused := copyVisit_used (env := env) (sel := everything) i2.1 (s := s) (reaches_good hg hq) hv0 (by simp [everything, hv0]) hd2
  have hc : copy env fuel [(everything, f), (everything, g)] = copyVisits env everything (l1 ++ (q, some (.dir s)) :: l2) o1 := by
    unfold copy at e1 ⊢
    simp only [copyFiles] at e1 ⊢
    cases e4 : copyFile env fuel everything f [] with
    | ok o4 =>
      rw [e4] at e1
      simp only [Out.bind] at e1 ⊢
      injection e1 with e1
      rw [e1]
      unfold copyFile
      rw [e]
      cases copyVisits env everything (l1 ++ (q, some (.dir s)) :: l2) o1 <;> rfl
    | noKey => rw [e4] at e1; cases e1
    | err => rw [e4] at e1; cases e1
    | panic => rw [e4] at e1; cases e1
  rw [hc, copyVisits_append, e3] at he
  simp only [Out.bind, copyVisits] at he
  cases e5 : copyVisit env everything o2 (q, some (.dir s)) with
  | ok o5 => exact hused o5 e5
  | noKey => rw [e5] at he; cases he
  | err => rw [e5] at he; cases he
  | panic => rw [e5] at he; cases he

/-! ### Instances -/

/-- A tree at the top and a histogram in a directory: all of it; a selection; two files with different selections;
twice the same directory fails; a tree loses its title. -/
example : listing (copy exEnv 9 [(everything, exM [9] [1, 2] 10)]) = some [([], []), ([nX], [1, 2]), ([nA], []), ([nA, nB], [10])] ∧
    listing (copy exEnv 9 [(fun q => decide (q = [nA, nB]), exM [9] [1, 2] 10)]) = some [([], []), ([nA], []), ([nA, nB], [10])] ∧
    listing (copy exEnv 9 [(fun q => decide (q = [nX]), exM [9] [1, 2] 10), (fun q => decide (q = [nA, nB]), exM [9] [3] 10)]) =
      some [([], []), ([nX], [1, 2]), ([nA], []), ([nA, nB], [10])] ∧
    listing (copy exEnv 9 [(everything, exM [9] [1, 2] 10), (fun q => decide (q ≠ [] ∧ q ≠ [nX]), exM [9] [3] 10)]) = none := by
  refine ⟨?_, ?_, ?_, ?_⟩ <;> decide

/-- The hypotheses of `C130_copy_partial` are met by the tree of one file and the histogram of another. -/
example : exEnv.Faithful ∧ WF (exM [9] [1, 2] 10) ∧
    Apart (fun q => decide (q = [nX]), exM [9] [1, 2] 10) (fun q => decide (q = [nA, nB]), exM [9] [3] 10) := by
  refine ⟨fun _ _ => rfl, wf_exM _ _ _, ?_⟩
  rintro p n q m ⟨_, h1⟩ ⟨_, h2⟩
  simp only [decide_eq_true_eq] at h1 h2
  subst h1 h2
  constructor
  · decide
  · intro h
    exact absurd h (by decide)

/-- A selection "*" is the regular expression "/*", which matches the empty name of the file itself: the output
file gets a directory "." with a directory "." in it. -/
theorem C130_star_counterexample :
    listing (copy exEnv 9 [(fun _ => true, exM [9] [1, 2] 10)]) =
      some [([], []), ([[46]], []), ([[46], [46]], []), ([nX], [1, 2]), ([nA], []), ([nA, nB], [10])] := by
  decide

/-- The title of a tree is lost, for every tree. -/
theorem C130_title_counterexample {env : Env S E A} (hl : env.Faithful) {f : Keys (Ob S E A)} (hf : WF f) {q x c t s e}
    (hr : Reaches f (q ++ [x]) (.obj (.tree c t s e))) :
    ∃ F, ∀ fuel, F ≤ fuel → ∃ o', copy env fuel [(everything, f)] = .ok o' ∧
      (∀ cy v, HeldAt o' q x cy (.obj v) ↔ cy = 1 ∧ v = .tree tTree [] s e) := by
  obtain ⟨F, hF⟩ := C130_copy_partial hl [(everything, f)] (by simpa using hf) (by simp [everything]) (by simp)
  refine ⟨F, fun fuel hfu => ?_⟩
  obtain ⟨o1, e1, _, _, k1⟩ := hF fuel hfu
  refine ⟨o1, e1, ?_⟩
  intro cy v
  rw [k1]
  apply and_congr Iff.rfl
  constructor
  · rintro ⟨a, ha, y, hs, rfl⟩
    rw [List.mem_singleton.mp ha] at hs
    have hg := reaches_good hf hr
    have g1 := (rget_reaches hf (fun y hy => hg y (by simp [hy])) (hg x (by simp)) _).mpr hr
    have g2 := (rget_reaches hf (fun y hy => hg y (by simp [hy])) (hg x (by simp)) _).mpr hs.1
    rw [g1] at g2
    injection g2 with g2
    injection g2 with g2
    rw [← g2]
    rfl
  · rintro rfl
    exact ⟨_, List.mem_singleton.mpr rfl, _, ⟨hr, by simp [everything]⟩, rfl⟩

end Verif.Rcmd
