import Verif.Hbook.YodaMore
import Verif.Hbook.YodaRead
import Verif.Hbook.YodaToy
import Mathlib.Data.List.Dedup
import Mathlib.Data.List.Perm.Basic
import Mathlib.Tactic.Linarith

/-!
# Profiles and two-dimensional histograms as YODA texts
-/

namespace Verif.Hbook.Yoda
open Verif.Text Verif.Fscanf Verif.Strconv Verif.Hbook Verif.Hbook.Brio

/-! ### Ranges -/

section
variable {F V α : Type} {env : Env F V} [LinearOrder α] [GoFloat F α]

/-- What is assumed of `math.Min` and `math.Max`. -/
structure MinMax (env : Env F V) : Prop where
  min : ∀ x y a b, val x = some a → val y = some b → val (env.min x y) = some (min a b)
  max : ∀ x y a b, val x = some a → val y = some b → val (env.max x y) = some (max a b)

/-- The value is the least of those of a list. -/
def IsLeastOf (m : F) (l : List F) : Prop :=
  ∃ a, val m = some a ∧ (∃ x ∈ l, val x = some a) ∧ ∀ x ∈ l, ∀ b, val x = some b → a ≤ b

/-- The value is the greatest of those of a list. -/
def IsGreatestOf (m : F) (l : List F) : Prop :=
  ∃ a, val m = some a ∧ (∃ x ∈ l, val x = some a) ∧ ∀ x ∈ l, ∀ b, val x = some b → b ≤ a

theorem fle_some {x y : F} (h : fle x y = true) : ∃ a b, val x = some a ∧ val y = some b ∧ a ≤ b := by
  simp only [fle] at h
  cases hx : val x with
  | none => simp [hx] at h
  | some a =>
    cases hy : val y with
    | none => simp [hx, hy] at h
    | some b => simp [hx, hy] at h; exact ⟨a, b, rfl, rfl, h⟩

theorem loFold_least (hm : MinMax env) {rs : List (Range F)} (hne : rs ≠ []) (hn : ∀ r ∈ rs, fle r.lo env.inf = true) :
    IsLeastOf (loFold env rs env.inf) (rs.map (·.lo)) := by
  have key : ∀ (rs : List (Range F)) (m : F) (a : α), (∀ r ∈ rs, ∃ a, val r.lo = some a) → val m = some a →
      IsLeastOf (loFold env rs m) (m :: rs.map (·.lo)) := by
    intro rs
    induction rs with
    | nil =>
      intro m a _ h
      exact ⟨a, h, ⟨m, by simp, h⟩, by intro x hx b hb; simp at hx; subst hx; rw [h] at hb; cases hb; exact le_refl _⟩
    | cons r rs ih =>
      intro m a hn h
      obtain ⟨c, hc⟩ := hn r (by simp)
      have h1 := hm.min m r.lo a c h hc
      obtain ⟨b, hb, ⟨x, hx, hxv⟩, hle⟩ := ih (env.min m r.lo) _ (fun r' hr' => hn r' (by simp [hr'])) h1
      have hb' : b ≤ min a c := hle _ (by simp) _ h1
      refine ⟨b, hb, ?_, ?_⟩
      · rcases List.mem_cons.mp hx with rfl | hx
        · rw [h1] at hxv
          cases hxv
          rcases min_choice a c with e | e
          · exact ⟨m, by simp, by rw [e, h]⟩
          · exact ⟨r.lo, by simp, by rw [e, hc]⟩
        · exact ⟨x, by simp only [List.map_cons, List.mem_cons]; exact .inr (.inr hx), hxv⟩
      · intro z hz d hd
        simp only [List.map_cons, List.mem_cons] at hz
        rcases hz with rfl | rfl | hz
        · rw [h] at hd; cases hd; exact le_trans hb' (min_le_left _ _)
        · rw [hc] at hd; cases hd; exact le_trans hb' (min_le_right _ _)
        · exact hle z (by simp [hz]) d hd
  obtain ⟨r, hr⟩ := List.exists_mem_of_ne_nil _ hne
  obtain ⟨c, d, hc, hd, hcd⟩ := fle_some (hn r hr)
  obtain ⟨b, hb, ⟨x, hx, hxv⟩, hle⟩ := key rs env.inf d (fun r' hr' => by
    obtain ⟨a, -, h, -⟩ := fle_some (hn r' hr')
    exact ⟨a, h⟩) hd
  refine ⟨b, hb, ?_, fun z hz => hle z (List.mem_cons_of_mem _ hz)⟩
  rcases List.mem_cons.mp hx with rfl | hx
  · rw [hd] at hxv
    cases hxv
    have h1 := hle r.lo (List.mem_cons_of_mem _ (List.mem_map_of_mem (f := fun r : Range F => r.lo) hr)) c hc
    exact ⟨r.lo, List.mem_map_of_mem (f := fun r : Range F => r.lo) hr, by rw [hc, le_antisymm hcd h1]⟩
  · exact ⟨x, hx, hxv⟩

theorem hiFold_greatest (hm : MinMax env) {rs : List (Range F)} (hne : rs ≠ []) (hn : ∀ r ∈ rs, fle env.ninf r.hi = true) :
    IsGreatestOf (hiFold env rs env.ninf) (rs.map (·.hi)) := by
  have key : ∀ (rs : List (Range F)) (m : F) (a : α), (∀ r ∈ rs, ∃ a, val r.hi = some a) → val m = some a →
      IsGreatestOf (hiFold env rs m) (m :: rs.map (·.hi)) := by
    intro rs
    induction rs with
    | nil =>
      intro m a _ h
      exact ⟨a, h, ⟨m, by simp, h⟩, by intro x hx b hb; simp at hx; subst hx; rw [h] at hb; cases hb; exact le_refl _⟩
    | cons r rs ih =>
      intro m a hn h
      obtain ⟨c, hc⟩ := hn r (by simp)
      have h1 := hm.max m r.hi a c h hc
      obtain ⟨b, hb, ⟨x, hx, hxv⟩, hle⟩ := ih (env.max m r.hi) _ (fun r' hr' => hn r' (by simp [hr'])) h1
      have hb' : max a c ≤ b := hle _ (by simp) _ h1
      refine ⟨b, hb, ?_, ?_⟩
      · rcases List.mem_cons.mp hx with rfl | hx
        · rw [h1] at hxv
          cases hxv
          rcases max_choice a c with e | e
          · exact ⟨m, by simp, by rw [e, h]⟩
          · exact ⟨r.hi, by simp, by rw [e, hc]⟩
        · exact ⟨x, by simp only [List.map_cons, List.mem_cons]; exact .inr (.inr hx), hxv⟩
      · intro z hz d hd
        simp only [List.map_cons, List.mem_cons] at hz
        rcases hz with rfl | rfl | hz
        · rw [h] at hd; cases hd; exact le_trans (le_max_left _ _) hb'
        · rw [hc] at hd; cases hd; exact le_trans (le_max_right _ _) hb'
        · exact hle z (by simp [hz]) d hd
  obtain ⟨r, hr⟩ := List.exists_mem_of_ne_nil _ hne
  obtain ⟨d, c, hd, hc, hcd⟩ := fle_some (hn r hr)
  obtain ⟨b, hb, ⟨x, hx, hxv⟩, hle⟩ := key rs env.ninf d (fun r' hr' => by
    obtain ⟨-, a, -, h, -⟩ := fle_some (hn r' hr')
    exact ⟨a, h⟩) hd
  refine ⟨b, hb, ?_, fun z hz => hle z (List.mem_cons_of_mem _ hz)⟩
  rcases List.mem_cons.mp hx with rfl | hx
  · rw [hd] at hxv
    cases hxv
    have h1 := hle r.hi (List.mem_cons_of_mem _ (List.mem_map_of_mem (f := fun r : Range F => r.hi) hr)) c hc
    exact ⟨r.hi, List.mem_map_of_mem (f := fun r : Range F => r.hi) hr, by rw [hc, le_antisymm h1 hcd]⟩
  · exact ⟨x, hx, hxv⟩

/-- An edge range that is not empty and lies between the infinities. -/
def Proper (env : Env F V) (r : Range F) : Prop :=
  flt r.lo r.hi = true ∧ fle r.lo env.inf = true ∧ fle env.ninf r.hi = true

instance (env : Env F V) (r : Range F) : Decidable (Proper env r) := by unfold Proper; infer_instance

theorem flt_some {x y : F} (h : flt x y = true) : ∃ a b, val x = some a ∧ val y = some b ∧ a < b := by
  simp only [flt] at h
  cases hx : val x with
  | none => simp [hx] at h
  | some a =>
    cases hy : val y with
    | none => simp [hx, hy] at h
    | some b => simp [hx, hy] at h; exact ⟨a, b, rfl, rfl, h⟩

/-- The range of bins that are not empty is not empty. -/
theorem fold_lt (hm : MinMax env) {rs : List (Range F)} (hne : rs ≠ []) (hr : ∀ r ∈ rs, Proper env r) :
    fle (hiFold env rs env.ninf) (loFold env rs env.inf) = false := by
  obtain ⟨a, ha, -, hla⟩ := loFold_least hm hne fun r h => (hr r h).2.1
  obtain ⟨b, hb, -, hlb⟩ := hiFold_greatest hm hne fun r h => (hr r h).2.2
  obtain ⟨r, h⟩ := List.exists_mem_of_ne_nil _ hne
  obtain ⟨c, d, hc, hd, hcd⟩ := flt_some (hr r h).1
  have h1 := hla r.lo (List.mem_map_of_mem (f := fun r : Range F => r.lo) h) c hc
  have h2 := hlb r.hi (List.mem_map_of_mem (f := fun r : Range F => r.hi) h) d hd
  simp only [fle, ha, hb, decide_eq_false_iff_not, not_le]
  exact lt_of_le_of_lt h1 (lt_of_lt_of_le hcd h2)

theorem any_map_eq (f : Nat → F) (l : List Nat) (i : Nat) (h : ∀ j ∈ l, feq (f i) (f j) = true ↔ i = j) :
    (l.map f).any (feq (f i)) = decide (i ∈ l) := by
  rw [Bool.eq_iff_iff]
  simp only [List.any_eq_true, List.mem_map, decide_eq_true_eq]
  constructor
  · rintro ⟨x, ⟨j, hj, rfl⟩, e⟩
    rw [(h j hj).mp e]
    exact hj
  · intro hi
    exact ⟨f i, ⟨i, hi, rfl⟩, (h i hi).mpr rfl⟩

/-- The number of keys of a map filled with numbers that differ as their indices do. -/
theorem distinct_map (f : Nat → F) (l : List Nat) (h : ∀ i ∈ l, ∀ j ∈ l, feq (f i) (f j) = true ↔ i = j) :
    distinct (l.map f) = l.dedup.map f := by
  induction l with
  | nil => rfl
  | cons i l ih =>
    have ih' := ih fun a ha b hb => h a (by simp [ha]) b (by simp [hb])
    simp only [List.map_cons, distinct]
    rw [any_map_eq f l i fun j hj => h i (by simp) j (by simp [hj])]
    by_cases hi : i ∈ l
    · simp [hi, List.dedup_cons_of_mem hi, ih']
    · simp [hi, List.dedup_cons_of_notMem hi, ih']

theorem distinct_length (f : Nat → F) (l : List Nat) (n : Nat) (hl : ∀ i, i ∈ l ↔ i < n)
    (h : ∀ i < n, ∀ j < n, feq (f i) (f j) = true ↔ i = j) : (distinct (l.map f)).length = n := by
  rw [distinct_map f l fun i hi j hj => h i ((hl i).mp hi) j ((hl j).mp hj), List.length_map]
  have : l.dedup.Perm (List.range n) := by
    rw [List.perm_ext_iff_of_nodup l.nodup_dedup List.nodup_range]
    intro a
    rw [List.mem_dedup, hl, List.mem_range]
  rw [this.length_eq, List.length_range]

end

/-! ### Profiles -/

section
variable {F V α : Type} {env : Env F V} {rnd : F → F} [LinearOrder α] [GoFloat F α]
variable [Zero F] [One F] [Add F] [Sub F] [Neg F] [Mul F] [Div F] [NatCast F]

/-- What a distribution of a profile is after a round trip: the weights of the second axis and the mixed sum are
lost. -/
def Dist2D.roundP (rnd : F → F) (cnt : Int → Int) (d : Dist2D F) : Dist2D F where
  x := { dist := { n := cnt d.x.dist.n, sumW := rnd d.x.dist.sumW, sumW2 := rnd d.x.dist.sumW2 },
         sumWX := rnd d.x.sumWX, sumWX2 := rnd d.x.sumWX2 }
  y := { dist := { n := cnt d.x.dist.n, sumW := 0, sumW2 := 0 }, sumWX := rnd d.y.sumWX, sumWX2 := rnd d.y.sumWX2 }
  sumWXY := 0

/-- What a bin of a profile is after a round trip. -/
def BinP1D.round (rnd : F → F) (cnt : Int → Int) (b : BinP1D F) : BinP1D F :=
  { xrange := ⟨rnd b.xrange.lo, rnd b.xrange.hi⟩, dist := Dist2D.roundP rnd cnt b.dist }

theorem plain_P1D : Plain kP1D where
  fin := ⟨_, rfl⟩
  heads := by
    intro h hh
    simp only [kP1D, List.mem_cons, List.not_mem_nil, or_false] at hh
    rcases hh with rfl | rfl | rfl
    · exact ⟨_, _, rfl, .inl rfl⟩
    · exact ⟨_, _, rfl, .inr (.inl rfl)⟩
    · exact ⟨_, _, rfl, .inr (.inr rfl)⟩

omit [Zero F] [One F] [Add F] [Sub F] [Neg F] [Mul F] [Div F] [NatCast F] in
/-- What is read from the table of a profile. -/
theorem loop_tableP (hn : Numbers env rnd) (b : BinningP1D F) :
    loop env kP1D (tableP env b ++ [kEnd ++ kP1D.tag ++ kV2, []]) ⟨[], []⟩ =
      .ok ⟨[(kTotal, (rowP env b.dist).map fun x => .flt (rnd x)), (kUnder, (rowP env b.under).map fun x => .flt (rnd x)),
        (kOver, (rowP env b.over).map fun x => .flt (rnd x))],
        b.bins.map fun x => (rowBP env x).map fun x => .flt (rnd x)⟩ := by
  have hf : ∃ t, kP1D.fin = 'E' :: t := ⟨_, rfl⟩
  simp only [tableP, List.cons_append, List.nil_append]
  rw [loop_comment _ _ _ rfl]
  rw [loop_total hn rfl hf (by simp [rowP]) rfl]
  rw [loop_under hn rfl hf (by simp [rowP]) rfl]
  rw [loop_over hn rfl hf (by simp [rowP]) rfl]
  rw [loop_comment _ _ _ rfl]
  have hrows := loop_rows hn plain_P1D (b.bins.map (rowBP env)) (by
    intro r hr
    obtain ⟨x, -, rfl⟩ := List.mem_map.mp hr
    rfl) (by decide) [kEnd ++ kP1D.tag ++ kV2, []]
    ⟨[(kTotal, (rowP env b.dist).map fun x => .flt (rnd x)), (kUnder, (rowP env b.under).map fun x => .flt (rnd x)),
        (kOver, (rowP env b.over).map fun x => .flt (rnd x))], []⟩ rfl
  rw [List.map_map, List.map_map] at hrows
  simp only [Function.comp_def, List.nil_append] at hrows
  rw [hrows]
  rw [loop_end _ _ _ (by decide +kernel) (by decide +kernel)]

omit [One F] in
/-- A profile written with `MarshalYODA` is read by `UnmarshalYODA`: the same bins in the same order, the same total,
underflow and overflow, every number rounded to the digits written; the range is that of the bins.  Name, title and
other annotations as for histograms.

Partial: the numbers of entries are rounded too; the weights kept for the second axis and the mixed sums are not
written and are zero afterwards; annotations and names as for histograms; bins whose edges agree in the digits
written are not covered. -/
theorem C132_roundtrip_partial (hn : Numbers env rnd) (hm : MinMax env) (b : BinningP1D F) (a old : Ann V) (ha : Free a)
    (hy : Yaml env (annToYODA env kP1D.ty a)) (hname : '\n' ∉ nameOf env a)
    (hne : b.bins ≠ []) (hlt : ∀ x ∈ b.bins, Proper env ⟨rnd x.xrange.lo, rnd x.xrange.hi⟩) :
    ∃ s, marshalP1D env b a = some s ∧ ∃ b' a', unmarshalP1D env old s = .ok (.obj b' a') ∧
      (∀ cnt, cnt = (fun n => env.toInt (rnd (env.ofInt n))) →
        b'.bins = b.bins.map (BinP1D.round rnd cnt) ∧ b'.dist = Dist2D.roundP rnd cnt b.dist ∧
        b'.under = Dist2D.roundP rnd cnt b.under ∧ b'.over = Dist2D.roundP rnd cnt b.over) ∧
      IsLeastOf b'.xrange.lo (b.bins.map fun x => rnd x.xrange.lo) ∧
      IsGreatestOf b'.xrange.hi (b.bins.map fun x => rnd x.xrange.hi) ∧
      nameOf env a' = nameOf env a ∧ get a' kTitle = some ((get a kTitle).getD (env.str [])) ∧
      ∀ k, k ≠ kName → k ≠ kTitle → get a' k = (get a k).or (get old k) := by
  let cnt : Int → Int := fun n => env.toInt (rnd (env.ofInt n))
  let rs : List (Range F) := b.bins.map fun x => ⟨rnd x.xrange.lo, rnd x.xrange.hi⟩
  have hrs : rs ≠ [] := by simpa [rs] using hne
  have hrl : ∀ r ∈ rs, Proper env r := by
    intro r hr
    obtain ⟨x, hx, rfl⟩ := List.mem_map.mp hr
    exact hlt x hx
  have hfold := fold_lt hm hrs hrl
  have hdis : ¬ ((distinct (rs.map (·.lo))).length : Int) ≤ 0 := by
    have : ∀ l : List F, l ≠ [] → distinct l ≠ [] := by
      intro l
      induction l with
      | nil => intro h; exact absurd rfl h
      | cons x l ih =>
        intro _
        simp only [distinct]
        split
        · rename_i h
          apply ih
          rintro rfl
          simp at h
        · simp
    have h := List.length_pos_of_ne_nil (this (rs.map (·.lo)) (by simpa using hrs))
    omega
  obtain ⟨c, hc, hcx⟩ : ∃ c, Prof.newBinningP1D ((distinct (rs.map (·.lo))).length : Int) (loFold env rs env.inf)
      (hiFold env rs env.ninf) = some c ∧ c.xrange = ⟨loFold env rs env.inf, hiFold env rs env.ninf⟩ := by
    simp only [Prof.newBinningP1D, hfold, hdis, Bool.false_eq_true, if_false]
    exact ⟨_, rfl, rfl⟩
  let st : St F := ⟨[(kTotal, (rowP env b.dist).map fun x => .flt (rnd x)),
    (kUnder, (rowP env b.under).map fun x => .flt (rnd x)), (kOver, (rowP env b.over).map fun x => .flt (rnd x))],
        b.bins.map fun x => (rowBP env x).map fun x => .flt (rnd x)⟩
  have e1 : st.bins.map (binP env) = b.bins.map (BinP1D.round rnd cnt) := by
    simp only [st, List.map_map]
    rfl
  have e2 : (b.bins.map (BinP1D.round rnd cnt)).map (·.xrange) = rs := by
    simp only [rs, List.map_map]
    rfl
  have hb : buildP env st = some { c with
      bins := b.bins.map (BinP1D.round rnd cnt), dist := Dist2D.roundP rnd cnt b.dist,
      under := Dist2D.roundP rnd cnt b.under, over := Dist2D.roundP rnd cnt b.over } := by
    simp only [buildP, e1, e2, hc, Option.map_some]
    rfl
  obtain ⟨s, hs, o, ho, hg⟩ := read_write (buildP env) old ha hy hname (k := kP1D)
    (m := [' ', 'I', 'D', '\t', ' ', 'I', 'D', '\t']) rfl (by decide +kernel) (table := tableP env b) rfl (by
      intro t ht
      have d1 := clean_head hn (h := kTotal) (by decide +kernel) (rowP env b.dist)
      have d2 := clean_head hn (h := kUnder) (by decide +kernel) (rowP env b.under)
      have d3 := clean_head hn (h := kOver) (by decide +kernel) (rowP env b.over)
      simp only [tableP, List.cons_append, List.nil_append, List.mem_cons] at ht
      rcases ht with rfl | rfl | rfl | rfl | rfl | ht
      · decide +kernel
      · exact d1
      · exact d2
      · exact d3
      · decide +kernel
      · obtain ⟨x, -, rfl⟩ := List.mem_map.mp ht
        exact clean_row hn _) (loop_tableP hn b) hb
  refine ⟨s, hs, _, o, ho, ?_, ?_, ?_, ?_, ?_, ?_⟩
  · rintro cnt rfl
    exact ⟨rfl, rfl, rfl, rfl⟩
  · have := loFold_least hm hrs fun r h => (hrl r h).2.1
    simp only [rs, List.map_map] at this
    simp only [hcx]
    exact this
  · have := hiFold_greatest hm hrs fun r h => (hrl r h).2.2
    simp only [rs, List.map_map] at this
    simp only [hcx]
    exact this
  · simp only [nameOf, hg, annAfter, if_true, hy.str]
  · rw [hg, annAfter, if_neg (by decide), if_pos rfl]
  · intro k h1 h2
    rw [hg, annAfter, if_neg h1, if_neg h2]

end

/-! ### Two-dimensional histograms -/

theorem product_length {T : Type} (a b : Nat) (f : Nat → Nat → T) :
    ((List.range a).flatMap fun i => (List.range b).map (f i)).length = a * b := by
  induction a with
  | zero => simp
  | succ a ih => rw [List.range_succ, List.flatMap_append, List.length_append, ih]; simp [Nat.succ_mul]

theorem product_get {T : Type} (a b : Nat) (f : Nat → Nat → T) {i j : Nat} (hi : i < a) (hj : j < b) :
    ((List.range a).flatMap fun i => (List.range b).map (f i))[i * b + j]? = some (f i j) := by
  induction a with
  | zero => omega
  | succ a ih =>
    rw [List.range_succ, List.flatMap_append]
    by_cases h : i < a
    · rw [List.getElem?_append_left, ih h]
      rw [product_length]
      have : i * b + b ≤ a * b := by
        have := Nat.mul_le_mul_right b (Nat.succ_le_of_lt h)
        rw [Nat.succ_mul] at this
        exact this
      omega
    · have : i = a := by omega
      subst this
      rw [List.getElem?_append_right (by rw [product_length]; omega), product_length]
      have : i * b + j - i * b = j := by omega
      rw [this]
      simp [hj]

theorem mapM_some {T U : Type} (f : T → Option U) (g : T → U) (l : List T) (h : ∀ x ∈ l, f x = some (g x)) :
    l.mapM f = some (l.map g) := by
  induction l with
  | nil => rfl
  | cons x l ih =>
    rw [List.mapM_cons, h x (by simp), ih fun y hy => h y (by simp [hy])]
    rfl

section
variable {F V α : Type} {env : Env F V} {rnd : F → F} [LinearOrder α] [GoFloat F α]
variable [Zero F] [One F] [Add F] [Sub F] [Neg F] [Mul F] [Div F] [NatCast F]

/-- What a distribution of a two-dimensional histogram is after a round trip: the weights of both axes are those of
the first one. -/
def Dist2D.round (rnd : F → F) (cnt : Int → Int) (d : Dist2D F) : Dist2D F where
  x := { dist := { n := cnt d.x.dist.n, sumW := rnd d.x.dist.sumW, sumW2 := rnd d.x.dist.sumW2 },
         sumWX := rnd d.x.sumWX, sumWX2 := rnd d.x.sumWX2 }
  y := { dist := { n := cnt d.x.dist.n, sumW := rnd d.x.dist.sumW, sumW2 := rnd d.x.dist.sumW2 },
         sumWX := rnd d.y.sumWX, sumWX2 := rnd d.y.sumWX2 }
  sumWXY := rnd d.sumWXY

/-- What a bin of a two-dimensional histogram is after a round trip. -/
def Bin2D.round (rnd : F → F) (cnt : Int → Int) (b : Bin2D F) : Bin2D F :=
  { xrange := ⟨rnd b.xrange.lo, rnd b.xrange.hi⟩, yrange := ⟨rnd b.yrange.lo, rnd b.yrange.hi⟩,
    dist := Dist2D.round rnd cnt b.dist }

theorem plain_H2D : Plain kH2D where
  fin := ⟨_, rfl⟩
  heads := by
    intro h hh
    simp only [kH2D, List.mem_cons, List.not_mem_nil, or_false] at hh
    subst hh
    exact ⟨_, _, rfl, .inl rfl⟩

omit [Zero F] [One F] [Add F] [Sub F] [Neg F] [Mul F] [Div F] [NatCast F] in
/-- What is read from the table of a two-dimensional histogram. -/
theorem loop_table2 (hn : Numbers env rnd) (xm ym vol : F) (d : Dist2D F) (bins : List (Bin2D F)) :
    loop env kH2D (table2 env xm ym vol d bins ++ [kEnd ++ kH2D.tag ++ kV2, []]) ⟨[], []⟩ =
      .ok ⟨[(kTotal, (row2 env d).map fun x => .flt (rnd x))],
        bins.map fun x => (rowB2 env x).map fun x => .flt (rnd x)⟩ := by
  have hf : ∃ t, kH2D.fin = 'E' :: t := ⟨_, rfl⟩
  simp only [table2, List.cons_append, List.nil_append]
  rw [loop_comment _ _ _ rfl, loop_comment _ _ _ rfl, loop_comment _ _ _ rfl]
  rw [loop_total hn rfl hf (by simp [row2]) rfl]
  rw [loop_comment _ _ _ rfl, loop_comment _ _ _ rfl]
  have hrows := loop_rows hn plain_H2D (bins.map (rowB2 env)) (by
    intro r hr
    obtain ⟨x, -, rfl⟩ := List.mem_map.mp hr
    rfl) (by decide) [kEnd ++ kH2D.tag ++ kV2, []]
    ⟨[(kTotal, (row2 env d).map fun x => .flt (rnd x))], []⟩ rfl
  rw [List.map_map, List.map_map] at hrows
  simp only [Function.comp_def, List.nil_append] at hrows
  rw [hrows]
  rw [loop_end _ _ _ (by decide +kernel) (by decide +kernel)]

/-- A grid of bins: the bin of column `ix` and row `iy`, at index `iy*nx + ix`, covers the range of the column and the
range of the row. -/
structure Grid2 (b : Binning2D F) (x y : Nat → Range F) : Prop where
  len : b.bins.length = b.nx * b.ny
  nx : 0 < b.nx
  ny : 0 < b.ny
  bin : ∀ ix < b.nx, ∀ iy < b.ny, ∃ t, b.bins[iy * b.nx + ix]? = some t ∧ t.xrange = x ix ∧ t.yrange = y iy

omit [One F] in
/-- A two-dimensional histogram written with `MarshalYODA` is read by `UnmarshalYODA`: as many columns and rows, the
same bin at every place with every number rounded to the digits written, the same total; the ranges are those of the
bins.  Name, title and other annotations as for histograms.

Partial: numbers of entries are rounded too; both axes get the weights of the first; the outflows are not written and
are zero afterwards; columns, and rows, whose lower edges agree in the digits written are not covered. -/
theorem C133_roundtrip_partial (hn : Numbers env rnd) (hm : MinMax env) (xm ym vol : F) (b : Binning2D F) (a old : Ann V)
    (ha : Free a) (hy : Yaml env (annToYODA env kH2D.ty a)) (hname : '\n' ∉ nameOf env a)
    {x y : Nat → Range F} (hg : Grid2 b x y)
    (hx : ∀ i < b.nx, Proper env ⟨rnd (x i).lo, rnd (x i).hi⟩)
    (hyr : ∀ i < b.ny, Proper env ⟨rnd (y i).lo, rnd (y i).hi⟩)
    (hxd : ∀ i < b.nx, ∀ j < b.nx, feq (rnd (x i).lo) (rnd (x j).lo) = true ↔ i = j)
    (hyd : ∀ i < b.ny, ∀ j < b.ny, feq (rnd (y i).lo) (rnd (y j).lo) = true ↔ i = j) :
    ∃ s, marshalH2D env xm ym vol b a = some s ∧ ∃ b' a', unmarshalH2D env old s = .ok (.obj b' a') ∧
      b'.nx = b.nx ∧ b'.ny = b.ny ∧
      (∀ cnt, cnt = (fun n => env.toInt (rnd (env.ofInt n))) →
        b'.bins = b.bins.map (Bin2D.round rnd cnt) ∧ b'.dist = Dist2D.round rnd cnt b.dist) ∧
      b'.outflows = List.replicate 8 .zero ∧
      IsLeastOf b'.xrange.lo (b.bins.map fun t => rnd t.xrange.lo) ∧
      IsGreatestOf b'.xrange.hi (b.bins.map fun t => rnd t.xrange.hi) ∧
      IsLeastOf b'.yrange.lo (b.bins.map fun t => rnd t.yrange.lo) ∧
      IsGreatestOf b'.yrange.hi (b.bins.map fun t => rnd t.yrange.hi) ∧
      b'.xedges = evenly b.nx b'.xrange.lo b'.xrange.hi ∧ b'.yedges = evenly b.ny b'.yrange.lo b'.yrange.hi ∧
      nameOf env a' = nameOf env a ∧ get a' kTitle = some ((get a kTitle).getD (env.str [])) ∧
      ∀ k, k ≠ kName → k ≠ kTitle → get a' k = (get a k).or (get old k) := by
  let cnt : Int → Int := fun n => env.toInt (rnd (env.ofInt n))
  have hbin : ∀ p : Nat × Nat, ∃ t, p.1 < b.nx → p.2 < b.ny →
      b.bins[p.2 * b.nx + p.1]? = some t ∧ t.xrange = x p.1 ∧ t.yrange = y p.2 := by
    intro p
    by_cases h : p.1 < b.nx ∧ p.2 < b.ny
    · obtain ⟨t, ht⟩ := hg.bin p.1 h.1 p.2 h.2
      exact ⟨t, fun _ _ => ht⟩
    · exact ⟨⟨⟨0, 0⟩, ⟨0, 0⟩, .zero⟩, fun h1 h2 => absurd ⟨h1, h2⟩ h⟩
  choose g hgt using hbin
  let P : List (Nat × Nat) := (List.range b.nx).flatMap fun ix => (List.range b.ny).map fun iy => (ix, iy)
  have hP : ∀ p ∈ P, p.1 < b.nx ∧ p.2 < b.ny := by
    intro p hp
    simp only [P, List.mem_flatMap, List.mem_map, List.mem_range] at hp
    obtain ⟨i, hi, j, hj, rfl⟩ := hp
    exact ⟨hi, hj⟩
  have hP' : ∀ i < b.nx, ∀ j < b.ny, (i, j) ∈ P := by
    intro i hi j hj
    simp only [P, List.mem_flatMap, List.mem_map, List.mem_range]
    exact ⟨i, hi, j, hj, rfl⟩
  have hPne : P ≠ [] := List.ne_nil_of_mem (hP' 0 hg.nx 0 hg.ny)
  have hw : walk2 b = some (P.map g) :=
    mapM_some _ g _ fun p hp => (hgt p (hP p hp).1 (hP p hp).2).1
  let st : St F := ⟨[(kTotal, (row2 env b.dist).map fun x => .flt (rnd x))],
        (P.map g).map fun x => (rowB2 env x).map fun x => .flt (rnd x)⟩
  have e1 : st.bins.map (bin2 env) = P.map fun p => Bin2D.round rnd cnt (g p) := by
    simp only [st, List.map_map]
    rfl
  let xs : List (Range F) := P.map fun p => ⟨rnd (x p.1).lo, rnd (x p.1).hi⟩
  let ys : List (Range F) := P.map fun p => ⟨rnd (y p.2).lo, rnd (y p.2).hi⟩
  have ex : (P.map fun p => Bin2D.round rnd cnt (g p)).map (·.xrange) = xs := by
    rw [List.map_map]
    apply List.map_congr_left
    intro p hp
    simp only [Function.comp_def, Bin2D.round, (hgt p (hP p hp).1 (hP p hp).2).2.1]
  have ey : (P.map fun p => Bin2D.round rnd cnt (g p)).map (·.yrange) = ys := by
    rw [List.map_map]
    apply List.map_congr_left
    intro p hp
    simp only [Function.comp_def, Bin2D.round, (hgt p (hP p hp).1 (hP p hp).2).2.2]
  have hxs : xs ≠ [] := by simpa [xs] using hPne
  have hys : ys ≠ [] := by simpa [ys] using hPne
  have hxl : ∀ r ∈ xs, Proper env r := by
    intro r hr
    obtain ⟨p, hp, rfl⟩ := List.mem_map.mp hr
    exact hx p.1 (hP p hp).1
  have hyl : ∀ r ∈ ys, Proper env r := by
    intro r hr
    obtain ⟨p, hp, rfl⟩ := List.mem_map.mp hr
    exact hyr p.2 (hP p hp).2
  have nx : (distinct (xs.map (·.lo))).length = b.nx := by
    have := distinct_length (fun i => rnd (x i).lo) (P.map fun p => p.1) b.nx (by
      intro i
      constructor
      · intro h
        obtain ⟨p, hp, rfl⟩ := List.mem_map.mp h
        exact (hP p hp).1
      · intro h
        exact List.mem_map.mpr ⟨(i, 0), hP' i h 0 hg.ny, rfl⟩) hxd
    simpa [xs, List.map_map, Function.comp_def] using this
  have ny : (distinct (ys.map (·.lo))).length = b.ny := by
    have := distinct_length (fun i => rnd (y i).lo) (P.map fun p => p.2) b.ny (by
      intro i
      constructor
      · intro h
        obtain ⟨p, hp, rfl⟩ := List.mem_map.mp h
        exact (hP p hp).2
      · intro h
        exact List.mem_map.mpr ⟨(0, i), hP' 0 hg.nx i h, rfl⟩) hyd
    simpa [ys, List.map_map, Function.comp_def] using this
  have hfx := fold_lt hm hxs hxl
  have hfy := fold_lt hm hys hyl
  have hnb : newBinning2D (distinct (xs.map (·.lo))).length (loFold env xs env.inf) (hiFold env xs env.ninf)
      (distinct (ys.map (·.lo))).length (loFold env ys env.inf) (hiFold env ys env.ninf) =
      some { bins := gridBins (evenly b.nx (loFold env xs env.inf) (hiFold env xs env.ninf))
                (evenly b.ny (loFold env ys env.inf) (hiFold env ys env.ninf)),
             dist := .zero, outflows := List.replicate 8 .zero,
             xrange := ⟨loFold env xs env.inf, hiFold env xs env.ninf⟩,
             yrange := ⟨loFold env ys env.inf, hiFold env ys env.ninf⟩, nx := b.nx, ny := b.ny,
             xedges := evenly b.nx (loFold env xs env.inf) (hiFold env xs env.ninf),
             yedges := evenly b.ny (loFold env ys env.inf) (hiFold env ys env.ninf) } := by
    have h1 := hg.nx
    have h2 := hg.ny
    rw [nx, ny]
    simp only [newBinning2D, hfx, hfy, Bool.false_eq_true, if_false]
    rw [if_neg (by omega), if_neg (by omega)]
  have hun : untranspose b.nx b.ny (P.map fun p => Bin2D.round rnd cnt (g p)) = some (b.bins.map (Bin2D.round rnd cnt)) := by
    have h1 := mapM_some (fun p : Nat × Nat => (P.map fun p => Bin2D.round rnd cnt (g p))[p.1 * b.ny + p.2]?)
      (fun p => Bin2D.round rnd cnt (g p))
      ((List.range b.ny).flatMap fun iy => (List.range b.nx).map fun ix => (ix, iy)) (by
        intro p hp
        simp only [List.mem_flatMap, List.mem_map, List.mem_range] at hp
        obtain ⟨j, hj, i, hi, rfl⟩ := hp
        rw [List.getElem?_map, product_get b.nx b.ny (fun ix iy => (ix, iy)) hi hj]
        rfl)
    rw [untranspose, h1]
    congr 1
    apply List.ext_getElem?
    intro i
    by_cases hi : i < b.nx * b.ny
    · have hnx := hg.nx
      have h2 : i = i / b.nx * b.nx + i % b.nx := by
        rw [Nat.mul_comm]; exact (Nat.div_add_mod i b.nx).symm
      have h3 : i / b.nx < b.ny := Nat.div_lt_of_lt_mul hi
      have h4 : i % b.nx < b.nx := Nat.mod_lt _ hnx
      rw [List.getElem?_map, List.getElem?_map]
      rw [h2, product_get b.ny b.nx (fun iy ix => (ix, iy)) h3 h4, (hgt (i % b.nx, i / b.nx) h4 h3).1]
      rfl
    · rw [List.getElem?_eq_none, List.getElem?_eq_none]
      · rw [List.length_map, hg.len]; omega
      · rw [List.length_map, product_length, Nat.mul_comm]; omega
  have hb : build2 env st = some {
      bins := b.bins.map (Bin2D.round rnd cnt), dist := Dist2D.round rnd cnt b.dist,
      outflows := List.replicate 8 .zero,
      xrange := ⟨loFold env xs env.inf, hiFold env xs env.ninf⟩,
      yrange := ⟨loFold env ys env.inf, hiFold env ys env.ninf⟩, nx := b.nx, ny := b.ny,
      xedges := evenly b.nx (loFold env xs env.inf) (hiFold env xs env.ninf),
      yedges := evenly b.ny (loFold env ys env.inf) (hiFold env ys env.ninf) } := by
    simp only [build2, e1, ex, ey, hnb, hun, Option.map_some]
    rfl
  obtain ⟨s, hs, o, ho, hgo⟩ := read_write (build2 env) old ha hy hname (k := kH2D)
    (m := [' ', 'M', 'e', 'a', 'n', ':']) (u := ' ' :: '(' :: (env.fmtE xm ++ ',' :: ' ' :: (env.fmtE ym ++ [')'])))
    rfl (by decide +kernel) (table := table2 env xm ym vol b.dist (P.map g)) rfl (by
      intro t ht
      have d1 := clean_head hn (h := kTotal) (by decide +kernel) (row2 env b.dist)
      simp only [table2, List.cons_append, List.nil_append, List.mem_cons] at ht
      rcases ht with rfl | rfl | rfl | rfl | rfl | rfl | ht
      · exact clean_append (by decide +kernel) (clean_append (s := ['(']) (by decide +kernel)
          (clean_append (clean_fmtE hn _) (clean_append (s := [',', ' ']) (by decide +kernel)
            (clean_append (clean_fmtE hn _) (by decide +kernel)))))
      · exact clean_append (by decide +kernel) (clean_fmtE hn _)
      · decide +kernel
      · exact d1
      · decide +kernel
      · decide +kernel
      · obtain ⟨x, -, rfl⟩ := List.mem_map.mp ht
        exact clean_row hn _) (loop_table2 hn xm ym vol b.dist (P.map g)) hb
  have memP : ∀ t ∈ b.bins, ∃ p ∈ P, g p = t := by
    intro t ht
    obtain ⟨i, hi, e⟩ := List.getElem_of_mem ht
    have hi' : i < b.nx * b.ny := by rw [← hg.len]; exact hi
    have h3 : i / b.nx < b.ny := Nat.div_lt_of_lt_mul hi'
    have h4 : i % b.nx < b.nx := Nat.mod_lt _ hg.nx
    refine ⟨(i % b.nx, i / b.nx), hP' _ h4 _ h3, ?_⟩
    have h5 := (hgt (i % b.nx, i / b.nx) h4 h3).1
    have h2 : i / b.nx * b.nx + i % b.nx = i := by
      rw [Nat.mul_comm]; exact Nat.div_add_mod i b.nx
    simp only [h2] at h5
    rw [List.getElem?_eq_getElem hi, Option.some.injEq] at h5
    rw [← h5, e]
  have memP' : ∀ p ∈ P, g p ∈ b.bins := fun p hp => List.mem_of_getElem? (hgt p (hP p hp).1 (hP p hp).2).1
  have sameL : ∀ (m : F) (f : Bin2D F → F) (h : Nat × Nat → F), (∀ p ∈ P, h p = f (g p)) →
      IsLeastOf m (P.map h) → IsLeastOf m (b.bins.map f) := by
    rintro m f h hf ⟨v, h1, ⟨z, hz, h2⟩, h3⟩
    refine ⟨v, h1, ?_, ?_⟩
    · obtain ⟨p, hp, rfl⟩ := List.mem_map.mp hz
      rw [hf p hp] at h2
      exact ⟨_, List.mem_map_of_mem (memP' p hp), h2⟩
    · intro z hz c hc
      obtain ⟨t, ht, rfl⟩ := List.mem_map.mp hz
      obtain ⟨p, hp, rfl⟩ := memP t ht
      exact h3 (h p) (List.mem_map_of_mem hp) c (by rw [hf p hp]; exact hc)
  have sameG : ∀ (m : F) (f : Bin2D F → F) (h : Nat × Nat → F), (∀ p ∈ P, h p = f (g p)) →
      IsGreatestOf m (P.map h) → IsGreatestOf m (b.bins.map f) := by
    rintro m f h hf ⟨v, h1, ⟨z, hz, h2⟩, h3⟩
    refine ⟨v, h1, ?_, ?_⟩
    · obtain ⟨p, hp, rfl⟩ := List.mem_map.mp hz
      rw [hf p hp] at h2
      exact ⟨_, List.mem_map_of_mem (memP' p hp), h2⟩
    · intro z hz c hc
      obtain ⟨t, ht, rfl⟩ := List.mem_map.mp hz
      obtain ⟨p, hp, rfl⟩ := memP t ht
      exact h3 (h p) (List.mem_map_of_mem hp) c (by rw [hf p hp]; exact hc)
  refine ⟨s, by simp only [marshalH2D, hw, hs], _, o, ho, rfl, rfl, ?_, rfl, ?_, ?_, ?_, ?_, rfl, rfl, ?_, ?_, ?_⟩
  · rintro cnt rfl
    exact ⟨rfl, rfl⟩
  · have := loFold_least hm hxs fun r h => (hxl r h).2.1
    simp only [xs, List.map_map] at this
    exact sameL _ _ _ (fun p hp => by
      simp only [Function.comp_def, (hgt p (hP p hp).1 (hP p hp).2).2.1]) this
  · have := hiFold_greatest hm hxs fun r h => (hxl r h).2.2
    simp only [xs, List.map_map] at this
    exact sameG _ _ _ (fun p hp => by
      simp only [Function.comp_def, (hgt p (hP p hp).1 (hP p hp).2).2.1]) this
  · have := loFold_least hm hys fun r h => (hyl r h).2.1
    simp only [ys, List.map_map] at this
    exact sameL _ _ _ (fun p hp => by
      simp only [Function.comp_def, (hgt p (hP p hp).1 (hP p hp).2).2.2]) this
  · have := hiFold_greatest hm hys fun r h => (hyl r h).2.2
    simp only [ys, List.map_map] at this
    exact sameG _ _ _ (fun p hp => by
      simp only [Function.comp_def, (hgt p (hP p hp).1 (hP p hp).2).2.2]) this
  · simp only [nameOf, hgo, annAfter, if_true, hy.str]
  · rw [hgo, annAfter, if_neg (by decide), if_pos rfl]
  · intro k h1 h2
    rw [hgo, annAfter, if_neg h1, if_neg h2]

end

end Verif.Hbook.Yoda
