import Verif.Rcmd.Split
import Mathlib.Data.List.Nodup

/-!
# Splitting a tree into several files (C129)
-/

namespace Verif.Rcmd

open Verif.Riofs

variable {S E A : Type}

/-! ### Specification -/

/-- The file holds a tree with this title, these branches and these entries under the path, and nothing
else but the directories on the way to it. -/
def OnlyTree (p : List (List UInt8)) (x title : List UInt8) (s : S) (f : Keys (Ob S E A)) (e : List E) : Prop :=
  WF f ∧ (∀ q, IsDir f q ↔ q <+: p) ∧
  ∀ q y cy v, HeldAt f q y cy (.obj v) ↔ q = p ∧ y = x ∧ cy = 1 ∧ v = .tree tTree title s e

/-- `es` is `e` cut into pieces of `n`, the last of which may be shorter; none is empty. -/
def CutInto (n : Int) (e : List E) (es : List (List E)) : Prop :=
  es.flatten = e ∧ ∀ i l, es[i]? = some l → 0 < l.length ∧ (l.length : Int) ≤ n ∧ (i + 1 < es.length → (l.length : Int) = n)

/-- The name of a tree as given to `Split`, with or without a leading slash. -/
def treeName (lead : Bool) (p : List (List UInt8)) : List UInt8 := if lead then 47 :: joinPath p else joinPath p

/-! ### One file -/

theorem heldAt_nil {O : Type} {q y cy} {n : Node O} : ¬ HeldAt ([] : Keys O) q y cy n := by
  rintro ⟨d, hd, k, hk, _⟩
  cases q with
  | nil => rw [DirAt.nil_iff.mp hd] at hk; cases hk
  | cons c q =>
    obtain ⟨_, _, ⟨k, hk, _⟩, _⟩ := DirAt.cons_iff.mp hd
    cases hk

theorem isDir_nil {O : Type} {q} : IsDir ([] : Keys O) q ↔ q = [] := by
  constructor
  · rintro ⟨d, hd⟩
    cases q with
    | nil => rfl
    | cons c q =>
      obtain ⟨_, _, ⟨k, hk, _⟩, _⟩ := DirAt.cons_iff.mp hd
      cases hk
  · rintro rfl
    exact ⟨[], .here _⟩

theorem partDir_spec (lead : Bool) (p : List (List UInt8)) (hp : ∀ y ∈ p, Good y) :
    ∃ o : Keys (Ob S E A), partDir lead p = .ok o ∧ WF o ∧ (∀ q, IsDir o q ↔ q <+: p) ∧ ∀ q y cy v, ¬ HeldAt o q y cy (.obj v) := by
  unfold partDir
  by_cases h0 : p = []
  · subst h0
    refine ⟨[], by simp, WF.nil, ?_, fun _ _ _ _ => heldAt_nil⟩
    intro q
    rw [isDir_nil, List.prefix_nil]
  · rw [if_neg h0]
    have hno : ∀ r, r <+: p → r ≠ [] → ¬ IsObj ([] : Keys (Ob S E A)) r := by
      rintro r _ _ ⟨q, y, cy, o, _, h⟩
      exact heldAt_nil h
    have key : ∃ o : Keys (Ob S E A), rmkdir [] (if lead then 47 :: joinPath p else joinPath p) = .ok o ∧
        MoreDirs [] o (fun q => q <+: p) ∧ ∃ d, rget o (if lead then 47 :: joinPath p else joinPath p) = .ok (.dir d) := by
      cases lead with
      | true =>
        obtain ⟨o, e, m⟩ := C126_mkdir_slash WF.nil p h0 hp hno
        obtain ⟨d, hd⟩ := (m.2.1 p).mpr (Or.inr (List.prefix_refl p))
        exact ⟨o, e, m, d, by simp only [if_true]; rw [rget_slash o p hp]; exact rget_dir m.1 hd hp⟩
      | false =>
        obtain ⟨o, e, m⟩ := C126_mkdir WF.nil p h0 hp hno
        obtain ⟨d, hd⟩ := (m.2.1 p).mpr (Or.inr (List.prefix_refl p))
        exact ⟨o, e, m, d, rget_dir m.1 hd hp⟩
    obtain ⟨o, e, m, d, g⟩ := key
    refine ⟨o, ?_, m.1, ?_, ?_⟩
    · simp only [e, Out.bind, g]
    · intro q
      rw [m.2.1 q, isDir_nil]
      constructor
      · rintro (rfl | g)
        · exact List.nil_prefix
        · exact g
      · exact Or.inr
    · intro q y cy v hh
      exact heldAt_nil ((m.2.2 q y cy v).mp hh)

theorem splitOne_spec {env : Env S E A} (hl : env.Faithful) (oname : List UInt8) (ho : 5 ≤ oname.length) (lead : Bool)
    (p : List (List UInt8)) (hp : ∀ y ∈ p, Good y) (x : List UInt8) (hx : Good x) (t : List UInt8) (s : S) (e : List E)
    (i beg : Nat) (hb : beg < e.length) (nevts : Int) (hn : 0 < nevts) :
    ∃ f e' , splitOne env oname lead p x t s e i beg nevts =
        .ok (⟨oname.take (oname.length - 5) ++ 45 :: decEnc i ++ dotRoot, f⟩, (e'.length : Int)) ∧
      OnlyTree p x t s f e' ∧ e' = (e.drop beg).take nevts.toNat := by
  obtain ⟨o, e1, w1, d1, o1⟩ := partDir_spec (S := S) (E := E) (A := A) lead p hp
  have hr : rangeOf e beg (if (beg : Int) + nevts > e.length then (e.length : Int) else beg + nevts) = some ((e.drop beg).take nevts.toNat) := by
    unfold rangeOf
    split
    · rw [if_neg (by omega), if_neg (by omega), if_neg (by omega), if_neg (by omega), if_neg (by omega)]
      congr 1
      rw [List.take_of_length_le, List.take_of_length_le, Int.toNat_natCast]
      · simp; omega
      · simp
    · rw [if_neg (by omega), if_neg (by omega), if_neg (by omega), if_neg (by omega), if_neg (by omega)]
      congr 2
      omega
  obtain ⟨d, hd⟩ := (d1 p).mpr (List.prefix_refl p)
  have hfresh : ∀ cy n, ¬ Holds d x cy n := by
    intro cy n hh
    cases n with
    | obj v => exact o1 p x cy v ⟨d, hd, hh⟩
    | dir sub =>
      have : IsDir o (p ++ [x]) := ⟨sub, DirAt.append_iff.mpr ⟨d, hd, .down hh (.here _)⟩⟩
      have := ((d1 _).mp this).length_le
      simp at this
      omega
  obtain ⟨o', e2, w2, h2, i2⟩ := updAt_put_fresh w1 hd hp x [] tTree tTree
    (Ob.tree tTree t s ((e.drop beg).take nevts.toNat)) hx hfresh
  refine ⟨o', _, ?_, ⟨w2, fun q => by rw [i2, d1], ?_⟩, rfl⟩
  · unfold splitOne partName
    rw [if_neg (by omega)]
    simp only [e1, Out.bind, hr, hl s, e2, Out.map]
    congr 2
    rw [List.length_take, List.length_drop]
    split <;> omega
  · intro q y cy v
    rw [h2]
    constructor
    · rintro (g | g)
      · exact absurd g (o1 q y cy v)
      · exact g
    · exact Or.inr

/-! ### The loop -/

theorem splitLoop_spec {env : Env S E A} (hl : env.Faithful) (oname : List UInt8) (ho : 5 ≤ oname.length) (lead : Bool)
    (p : List (List UInt8)) (hp : ∀ y ∈ p, Good y) (x : List UInt8) (hx : Good x) (t : List UInt8) (s : S) (e : List E)
    (nevts : Int) (hn : 0 < nevts) (k : Nat) : ∀ (i cur : Nat), cur ≤ e.length → e.length - cur ≤ k →
    ∃ parts es, (∀ fuel, k < fuel →
        splitLoop (fun i cur => splitOne env oname lead p x t s e i cur nevts) e.length fuel i cur = some (.ok parts)) ∧
      List.Forall₂ (fun (q : Part S E A) e' => OnlyTree p x t s q.file e') parts es ∧ CutInto nevts (e.drop cur) es ∧
      ∀ j (q : Part S E A), parts[j]? = some q → q.name = oname.take (oname.length - 5) ++ 45 :: decEnc (i + j) ++ dotRoot := by
  induction k with
  | zero =>
    intro i cur hc hk
    refine ⟨[], [], ?_, .nil, ⟨?_, by simp⟩, by simp⟩
    · intro fuel hf
      cases fuel with
      | zero => omega
      | succ fuel => simp only [splitLoop]; rw [if_neg (by omega)]
    · simp; omega
  | succ k ih =>
    intro i cur hc hk
    by_cases hcur : cur < e.length
    · obtain ⟨f, e', h1, h2, h3⟩ := splitOne_spec hl oname ho lead p hp x hx t s e i cur hcur nevts hn
      have hlen : e'.length = min nevts.toNat (e.length - cur) := by
        rw [h3, List.length_take, List.length_drop]
      have hpos : 0 < e'.length := by rw [hlen]; omega
      obtain ⟨parts, es, g1, g2, g3, g4⟩ := ih (i + 1) (cur + e'.length) (by omega) (by omega)
      refine ⟨⟨oname.take (oname.length - 5) ++ 45 :: decEnc i ++ dotRoot, f⟩ :: parts, e' :: es, ?_, .cons h2 g2, ⟨?_, ?_⟩, ?_⟩
      · intro fuel hf
        cases fuel with
        | zero => omega
        | succ fuel =>
          simp only [splitLoop]
          rw [if_pos (by omega), h1]
          simp only
          rw [← Int.natCast_add, g1 fuel (by omega)]
          rfl
      · rw [List.flatten_cons, g3.1]
        have : List.drop (cur + e'.length) e = (e.drop cur).drop nevts.toNat := by
          rw [List.drop_drop]
          by_cases hh : nevts.toNat ≤ e.length - cur
          · congr 1; omega
          · rw [List.drop_eq_nil_of_le (by omega), List.drop_eq_nil_of_le (by omega)]
        rw [this, h3, List.take_append_drop]
      · intro j l hj
        cases j with
        | zero =>
          simp only [List.getElem?_cons_zero, Option.some.injEq] at hj
          subst hj
          refine ⟨hpos, by omega, ?_⟩
          intro hlt
          simp only [List.length_cons] at hlt
          have hne : e.drop (cur + e'.length) ≠ [] := by
            intro h0
            rw [h0] at g3
            cases es with
            | nil => simp at hlt
            | cons a es =>
              have := (g3.2 0 a rfl).1
              have h5 := g3.1
              simp only [List.flatten_cons, List.append_eq_nil_iff] at h5
              rw [h5.1] at this
              simp at this
          have : cur + e'.length < e.length := by
            by_contra hge
            exact hne (List.drop_eq_nil_of_le (by omega))
          omega
        | succ j =>
          simp only [List.getElem?_cons_succ] at hj
          obtain ⟨a1, a2, a3⟩ := g3.2 j l hj
          exact ⟨a1, a2, fun h => a3 (by simpa using h)⟩
      · intro j q hj
        cases j with
        | zero =>
          simp only [List.getElem?_cons_zero, Option.some.injEq] at hj
          rw [← hj]
          rfl
        | succ j =>
          simp only [List.getElem?_cons_succ] at hj
          rw [g4 j q hj]
          congr 3
          congr 1
          omega
    · refine ⟨[], [], ?_, .nil, ⟨?_, by simp⟩, by simp⟩
      · intro fuel hf
        cases fuel with
        | zero => omega
        | succ fuel => simp only [splitLoop]; rw [if_neg (by omega)]
      · simp; omega

theorem rget_treeName {O : Type} {ks : Keys O} (h : WF ks) (p : List (List UInt8)) (x : List UInt8) (hp : ∀ y ∈ p, Good y) (hx : Good x)
    (lead : Bool) (n : Node O) :
    rget ks (if lead then 47 :: joinPath (p ++ [x]) else joinPath (p ++ [x])) = .ok n ↔ Reaches ks (p ++ [x]) n := by
  have := rget_reaches h hp hx n
  cases lead with
  | true => exact this
  | false =>
    simp only [Bool.false_eq_true, if_false]
    rw [← this]
    unfold slash
    rw [rget_slash]
    intro y hy
    rcases List.mem_append.mp hy with hy | hy
    · exact hp y hy
    · rw [List.mem_singleton.mp hy]; exact hx

/-- **C129** (splitting a tree): `Split` with a positive number of entries per file ends without an error, for
every tree of a file built with `Put` and `Mkdir`, in whatever directory. The entries of the files written,
one after the other, are those of the tree: none is lost, doubled or moved; every file has exactly the
number asked for but for the last one, which has the rest, and no file is empty. Each file holds a tree of
the same title and branches under the same path and nothing else. The names returned are those of
the files in order, they are different, and they are numbered from zero. -/
theorem C129_split {env : Env S E A} (hl : env.Faithful) {f : Keys (Ob S E A)} (h : WF f) (p : List (List UInt8)) (x : List UInt8)
    {c t : List UInt8} {s : S} {e : List E} (hr : Reaches f (p ++ [x]) (.obj (.tree c t s e)))
    (oname : List UInt8) (ho : 5 ≤ oname.length) (lead : Bool) (nevts : Int) (hn : 0 < nevts) :
    ∃ (names : List (List UInt8)) (parts : List (Part S E A)) (es : List (List E)),
      (∀ fuel, e.length < fuel → split env fuel oname f lead p x nevts = some (.ok (names, parts))) ∧
      names = parts.map Part.name ∧ names.Nodup ∧
      (∀ i n, names[i]? = some n → n = oname.take (oname.length - 5) ++ 45 :: decEnc i ++ dotRoot) ∧
      CutInto nevts e es ∧ List.Forall₂ (fun (q : Part S E A) e' => OnlyTree p x t s q.file e') parts es := by
  have hg := reaches_good h hr
  have hp : ∀ y ∈ p, Good y := fun y hy => hg y (by simp [hy])
  have hx : Good x := hg x (by simp)
  obtain ⟨parts, es, g1, g2, g3, g4⟩ := splitLoop_spec hl oname ho lead p hp x hx t s e nevts hn e.length 0 0 (by omega) (by omega)
  have hnames : ∀ i n, (parts.map Part.name)[i]? = some n → n = oname.take (oname.length - 5) ++ 45 :: decEnc i ++ dotRoot := by
    intro i n hi
    rw [List.getElem?_map, Option.map_eq_some_iff] at hi
    obtain ⟨q, hq, rfl⟩ := hi
    simpa using g4 i q hq
  have hmap : parts.map Part.name =
      (List.range parts.length).map (fun i => oname.take (oname.length - 5) ++ 45 :: decEnc i ++ dotRoot) := by
    apply List.ext_getElem
    · simp
    · intro i h1 h2
      rw [hnames i _ (List.getElem?_eq_getElem h1)]
      simp
  refine ⟨parts.map Part.name, parts, es, ?_, rfl, ?_, hnames, by simpa using g3, g2⟩
  · intro fuel hf
    unfold split
    rw [(rget_treeName h p x hp hx lead _).mpr hr]
    simp only
    rw [show (0 : Int) = ((0 : Nat) : Int) from rfl, g1 fuel hf]
    simp only [Option.map_some, Out.map, Option.some.injEq, Out.ok.injEq, Prod.mk.injEq, and_true]
    rw [hmap, List.filterMap_map, ← List.filterMap_eq_map]
    apply List.filterMap_congr
    intro i _
    simp [partName, Nat.not_lt.mpr ho]
  · rw [hmap]
    apply List.Nodup.map _ List.nodup_range
    intro i j e
    simp only [List.append_assoc, List.append_cancel_left_eq, List.cons_append, List.cons.injEq, true_and,
      List.append_cancel_right_eq] at e
    exact decEnc_injective e

/-- **C129** (other numbers): with a negative number of entries per file `Split` returns an error; with zero it
never returns unless the tree has no entries. A name of fewer than five characters makes it panic, as soon
as a file is to be written. -/
theorem C129_split_bad {env : Env S E A} (hl : env.Faithful) {f : Keys (Ob S E A)} (h : WF f) (p : List (List UInt8)) (x : List UInt8)
    {c t : List UInt8} {s : S} {e : List E} (hr : Reaches f (p ++ [x]) (.obj (.tree c t s e))) (he : e ≠ [])
    (oname : List UInt8) (lead : Bool) (nevts : Int) :
    (5 ≤ oname.length → nevts < 0 → ∀ fuel, 1 < fuel → split env fuel oname f lead p x nevts = some .err) ∧
    (5 ≤ oname.length → nevts = 0 → ∀ fuel, split env fuel oname f lead p x nevts = none) ∧
    (oname.length < 5 → ∀ fuel, 0 < fuel → split env fuel oname f lead p x nevts = some .panic) := by
  have hg := reaches_good h hr
  have hp : ∀ y ∈ p, Good y := fun y hy => hg y (by simp [hy])
  have hx : Good x := hg x (by simp)
  have hlen : 0 < e.length := List.length_pos_iff.mpr he
  have hget := (rget_treeName h p x hp hx lead _).mpr hr
  obtain ⟨o, e1, w1, d1, o1⟩ := partDir_spec (S := S) (E := E) (A := A) lead p hp
  obtain ⟨d, hd⟩ := (d1 p).mpr (List.prefix_refl p)
  have hfresh : ∀ cy n, ¬ Holds d x cy n := by
    intro cy n hh
    cases n with
    | obj v => exact o1 p x cy v ⟨d, hd, hh⟩
    | dir sub =>
      have : IsDir o (p ++ [x]) := ⟨sub, DirAt.append_iff.mpr ⟨d, hd, .down hh (.here _)⟩⟩
      have := ((d1 _).mp this).length_le
      simp at this
      omega
  refine ⟨?_, ?_, ?_⟩
  · intro ho hn fuel hf
    obtain ⟨fuel, rfl⟩ : ∃ k, fuel = k + 2 := ⟨fuel - 2, by omega⟩
    obtain ⟨o', e2, _⟩ := updAt_put_fresh w1 hd hp x [] tTree tTree (Ob.tree tTree t s e) hx hfresh
    unfold split
    rw [hget]
    simp only [splitLoop]
    rw [if_pos (by omega)]
    have hr1 : rangeOf e 0 nevts = some e := by
      simp only [rangeOf]
      rw [if_pos hn, if_neg (by omega), if_neg (by omega), if_neg (by omega), if_neg (by omega)]
      simp
    have h1 : splitOne env oname lead p x t s e 0 0 nevts =
        .ok (⟨oname.take (oname.length - 5) ++ 45 :: decEnc 0 ++ dotRoot, o'⟩, nevts) := by
      unfold splitOne partName
      rw [if_neg (by omega)]
      simp only [e1, Out.bind, Int.zero_add]
      rw [if_neg (by omega), hr1]
      simp only [hl s, e2, Out.map, Int.sub_zero]
    have h2 : splitOne env oname lead p x t s e 1 nevts nevts = .err := by
      unfold splitOne partName
      rw [if_neg (by omega)]
      simp only [e1, Out.bind]
      rw [if_neg (by omega)]
      have : rangeOf e nevts (nevts + nevts) = none := by
        simp only [rangeOf]
        rw [if_pos (by omega : nevts < 0)]
      rw [this]
    rw [h1]
    simp only [Int.zero_add]
    rw [if_pos (by omega), h2]
    rfl
  · rintro ho rfl fuel
    unfold split
    rw [hget]
    simp only [Option.map_eq_none_iff]
    have h1 : ∀ i, ∃ q, splitOne env oname lead p x t s e i 0 0 = .ok (q, 0) := by
      intro i
      obtain ⟨o', e2, _⟩ := updAt_put_fresh w1 hd hp x [] tTree tTree (Ob.tree (A := A) tTree t s ([] : List E)) hx hfresh
      have hr1 : rangeOf e 0 0 = some [] := by
        simp only [rangeOf]
        rw [if_neg (by omega), if_neg (by omega), if_neg (by omega), if_neg (by omega), if_neg (by omega)]
        simp
      refine ⟨⟨oname.take (oname.length - 5) ++ 45 :: decEnc i ++ dotRoot, o'⟩, ?_⟩
      unfold splitOne partName
      rw [if_neg (by omega)]
      simp only [e1, Out.bind, Int.zero_add]
      rw [if_neg (by omega), hr1]
      simp only [hl s, e2, Out.map, Int.sub_zero]
    suffices hs : ∀ fuel i, splitLoop (fun i cur => splitOne env oname lead p x t s e i cur 0) (e.length : Int) fuel i 0 = none from
      hs fuel 0
    intro fuel
    induction fuel with
    | zero => intro i; rfl
    | succ fuel ih =>
      intro i
      obtain ⟨q, hq⟩ := h1 i
      simp only [splitLoop]
      rw [if_pos (by omega), hq]
      simp only [Int.add_zero, Option.map_eq_none_iff]
      exact ih (i + 1)
  · intro ho fuel hf
    obtain ⟨fuel, rfl⟩ : ∃ k, fuel = k + 1 := ⟨fuel - 1, by omega⟩
    unfold split
    rw [hget]
    simp only [splitLoop]
    rw [if_pos (by omega)]
    simp [splitOne, partName, ho, Out.map]

/-- **C129** (nothing to split): a tree without entries gives no file at all, whatever the number; what is not a
tree, or not there, gives an error. -/
theorem C129_split_none (env : Env S E A) {f : Keys (Ob S E A)} (h : WF f) (p : List (List UInt8)) (x : List UInt8)
    (hp : ∀ y ∈ p, Good y) (hx : Good x) (oname : List UInt8) (lead : Bool) (nevts : Int) (fuel : Nat) (hf : 0 < fuel) :
    (∀ c t s, Reaches f (p ++ [x]) (.obj (.tree c t s [])) → split env fuel oname f lead p x nevts = some (.ok ([], []))) ∧
    ((∀ c t s e, ¬ Reaches f (p ++ [x]) (.obj (.tree c t s e))) →
      split env fuel oname f lead p x nevts = some .err ∨ split env fuel oname f lead p x nevts = some .noKey) := by
  obtain ⟨fuel, rfl⟩ : ∃ k, fuel = k + 1 := ⟨fuel - 1, by omega⟩
  constructor
  · intro c t s hr
    unfold split
    rw [(rget_treeName h p x hp hx lead _).mpr hr]
    simp [splitLoop, Out.map]
  · intro hno
    have hpanic : rget f (if lead then 47 :: joinPath (p ++ [x]) else joinPath (p ++ [x])) ≠ .panic := by
      have hget := C126_get h p x hp hx
      cases lead with
      | true => simp only [if_true]; rw [hget.2.2.1]; exact hget.2.2.2.2.2.2
      | false => exact hget.2.2.2.2.2.2
    unfold split
    cases e : rget f (if lead then 47 :: joinPath (p ++ [x]) else joinPath (p ++ [x])) with
    | noKey => exact Or.inr rfl
    | err => exact Or.inl rfl
    | panic => exact absurd e hpanic
    | ok n =>
      have hr := (rget_treeName h p x hp hx lead n).mp e
      clear e
      cases n with
      | dir d => exact Or.inl rfl
      | obj v =>
        cases v with
        | tree c t s e => exact absurd hr (hno c t s e)
        | mer c a => exact Or.inl rfl
        | h2 c a => exact Or.inl rfl
        | other c => exact Or.inl rfl

/-! ### Instances -/

/-- "o.root" -/
def exName : List UInt8 := 111 :: dotRoot

/-- The names and the entries of the files `Split` writes. -/
def splitShow : Option (Out (List (List UInt8) × List (Part Unit Nat Nat))) → Option (List (List UInt8) × List (List (List (List UInt8) × List Nat)))
  | some (.ok (ns, ps)) => some (ns, ps.map fun q => (listing (.ok q.file)).getD [])
  | _ => none

/-- A tree of three entries in files of two; a tree in a directory. -/
example : splitShow (split exEnv 9 exName (exM [9] [1, 2, 3] 10) false [] nX 2) =
      some ([[111, 45, 48] ++ dotRoot, [111, 45, 49] ++ dotRoot], [[([], []), ([nX], [1, 2])], [([], []), ([nX], [3])]]) ∧
    splitShow (split exEnv 9 exName [⟨nA, 1, dirClass, .dir (exM [9] [4] 10)⟩] true [nA] nX 2) =
      some ([[111, 45, 48] ++ dotRoot], [[([], []), ([nA], []), ([nA, nX], [4])]]) := by
  constructor <;> rfl

example : exEnv.Faithful ∧ WF (exM [9] [1, 2, 3] 10) ∧
    Reaches (exM [9] [1, 2, 3] 10) ([] ++ [nX]) (.obj (.tree tTree [9] () [1, 2, 3])) ∧ 5 ≤ exName.length :=
  ⟨fun _ _ => rfl, wf_exM _ _ _, reaches_exM.mpr (Or.inl ⟨rfl, rfl⟩), by decide⟩

end Verif.Rcmd
