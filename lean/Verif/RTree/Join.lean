import Verif.RTree.Chain

/-!
# C22: joining trees

`Join` and the reader of a join.
-/

namespace Verif.RTree.Join

/-- A tree, as `Join` sees it; branches and leaves with their names.  `plain` says that it is a
`TTree` (not an n-tuple, a chain or a join). -/
structure JTree (B L : Type) where
  name     : String
  title    : String
  entries  : Int
  branches : List (String × B)
  leaves   : List (String × L)
  plain    : Bool

/-- The errors of groot/rtree/join.go:29-95 (`Join`). -/
inductive Err where
  | noTrees
  | entries (name : String)
  | dup (ti tj : String)
deriving DecidableEq, Repr

/-- The result of groot/rtree/join.go:29-95 (`Join`). -/
structure Joined (B L : Type) where
  name     : String
  title    : String
  entries  : Int
  trees    : List (JTree B L)
  branches : List (String × B)
  leaves   : List (String × L)
  bmap     : String → Option B
  lmap     : String → Option L

/-- A map filled in the order of a list. -/
def fillMap {V : Type} (l : List (String × V)) : String → Option V :=
  l.foldl (fun m p => fun k => if k = p.1 then some p.2 else m k) (fun _ => none)

/-- Whether the sets of branch names of two trees meet. -/
def meets {B L : Type} (a b : JTree B L) : Bool :=
  a.branches.any fun x => (b.branches.map (·.1)).contains x.1

/-- groot/rtree/join.go:29-95 (`Join`), the check of the names: the first pair which shares one. -/
def findDup {B L : Type} : List (JTree B L) → Option Err
  | [] => none
  | ti :: ts =>
    match ts.find? (meets ti) with
    | some tj => some (.dup ti.name tj.name)
    | none => findDup ts

/-- groot/rtree/join.go:29-95 (`Join`). -/
def join {B L : Type} (trees : List (JTree B L)) : Except Err (Joined B L) :=
  match trees with
  | [] => .error .noTrees
  | t0 :: ts =>
    match ts.find? (fun t => t.entries ≠ t0.entries) with
    | some t => .error (.entries t.name)
    | none =>
      match findDup (t0 :: ts) with
      | some e => .error e
      | none =>
        let bs := ((t0 :: ts).map (·.branches)).flatten
        let ls := ((t0 :: ts).map (·.leaves)).flatten
        .ok { name := "join_" ++ "_".intercalate ((t0 :: ts).map (·.name))
              title := ", ".intercalate ((t0 :: ts).map (·.title))
              entries := t0.entries
              trees := t0 :: ts
              branches := bs
              leaves := ls
              bmap := fillMap bs
              lmap := fillMap ls }

/-! ### Specification -/

/-- The trees can be joined: there is one, all have the same number of entries, and no branch
name occurs in two of them. -/
def Compatible {B L : Type} (trees : List (JTree B L)) : Prop :=
  trees ≠ [] ∧ (∀ a ∈ trees, ∀ b ∈ trees, a.entries = b.entries) ∧
  trees.Pairwise fun a b => ∀ x ∈ a.branches, ∀ y ∈ b.branches, x.1 ≠ y.1

/-! ### Proofs -/

theorem meets_false {B L : Type} {a b : JTree B L} :
    meets a b = false ↔ ∀ x ∈ a.branches, ∀ y ∈ b.branches, x.1 ≠ y.1 := by
  unfold meets
  rw [List.any_eq_false]
  constructor
  · intro h x hx y hy he
    apply h x hx
    rw [List.contains_iff_mem]
    exact List.mem_map.mpr ⟨y, hy, he.symm⟩
  · intro h x hx hc
    rw [List.contains_iff_mem] at hc
    obtain ⟨y, hy, he⟩ := List.mem_map.mp hc
    exact h x hx y hy he.symm

theorem findDup_none {B L : Type} {ts : List (JTree B L)} :
    findDup ts = none ↔
      ts.Pairwise fun a b => ∀ x ∈ a.branches, ∀ y ∈ b.branches, x.1 ≠ y.1 := by
  induction ts with
  | nil => simp [findDup]
  | cons t ts ih =>
    simp only [findDup, List.pairwise_cons]
    cases hf : ts.find? (meets t) with
    | some u =>
      have h1 := List.find?_some hf
      have h2 := List.mem_of_find?_eq_some hf
      constructor
      · intro h; exact absurd h (by simp)
      · intro h
        have := meets_false.mpr (h.1 u h2)
        rw [this] at h1; exact absurd h1 (by simp)
    | none =>
      rw [List.find?_eq_none] at hf
      rw [ih]
      constructor
      · intro h
        exact ⟨fun u hu => meets_false.mp (by simpa using hf u hu), h⟩
      · exact fun h => h.2

/-- **C22, acceptance.**  `Join` succeeds exactly on the trees which are compatible. -/
theorem C22_iff {B L : Type} (trees : List (JTree B L)) :
    (∃ j, join trees = .ok j) ↔ Compatible trees := by
  cases trees with
  | nil => simp [join, Compatible]
  | cons t0 ts =>
    simp only [join, Compatible]
    cases hf : ts.find? (fun t => t.entries ≠ t0.entries) with
    | some u =>
      have h1 := List.find?_some hf
      have h2 := List.mem_of_find?_eq_some hf
      simp only [ne_eq, decide_not, Bool.not_eq_true', decide_eq_false_iff_not] at h1
      constructor
      · rintro ⟨j, hj⟩; exact absurd hj (by simp)
      · rintro ⟨_, h, _⟩
        exact absurd (h u (by simp [h2]) t0 (by simp)) h1
    | none =>
      rw [List.find?_eq_none] at hf
      have heq : ∀ a ∈ t0 :: ts, a.entries = t0.entries := by
        intro a ha
        rcases List.mem_cons.mp ha with rfl | ha
        · rfl
        · simpa using hf a ha
      dsimp only
      cases hd : findDup (t0 :: ts) with
      | some e =>
        constructor
        · rintro ⟨j, hj⟩; exact absurd hj (by simp)
        · rintro ⟨_, _, h⟩
          rw [findDup_none.mpr h] at hd; exact absurd hd (by simp)
      | none =>
        constructor
        · intro _
          exact ⟨by simp, fun a ha b hb => by rw [heq a ha, heq b hb], findDup_none.mp hd⟩
        · intro _; exact ⟨_, rfl⟩

/-- The result, field by field. -/
theorem join_ok {B L : Type} {trees : List (JTree B L)} {j : Joined B L}
    (h : join trees = .ok j) :
    j.trees = trees ∧ j.branches = (trees.map (·.branches)).flatten ∧
      j.leaves = (trees.map (·.leaves)).flatten ∧ j.bmap = fillMap j.branches ∧
      j.lmap = fillMap j.leaves ∧ (∀ t ∈ trees, j.entries = t.entries) := by
  have hc := (C22_iff trees).mp ⟨j, h⟩
  cases trees with
  | nil => simp [join] at h
  | cons t0 ts =>
    simp only [join] at h
    split at h
    · exact absurd h (by simp)
    · split at h
      · exact absurd h (by simp)
      · cases h
        exact ⟨rfl, rfl, rfl, rfl, rfl, fun t ht => hc.2.1 t0 (by simp) t ht⟩

theorem fillMap_append {V : Type} (l : List (String × V)) (p : String × V) (k : String) :
    fillMap (l ++ [p]) k = if k = p.1 then some p.2 else fillMap l k := by
  unfold fillMap
  rw [List.foldl_append]
  rfl

theorem fillMap_spec {V : Type} (l : List (String × V)) (hnd : (l.map (·.1)).Nodup) :
    (∀ k v, (k, v) ∈ l → fillMap l k = some v) ∧ ∀ k v, fillMap l k = some v → (k, v) ∈ l := by
  have key : ∀ r : List (String × V), ∀ hr : (r.reverse.map (·.1)).Nodup,
      (∀ k v, (k, v) ∈ r.reverse → fillMap r.reverse k = some v) ∧
      ∀ k v, fillMap r.reverse k = some v → (k, v) ∈ r.reverse := by
    intro r
    induction r with
    | nil => intro _; constructor <;> simp [fillMap]
    | cons p r ih =>
      intro hr
      rw [List.reverse_cons, List.map_append, List.nodup_append] at hr
      obtain ⟨h1, _, h3⟩ := hr
      obtain ⟨i1, i2⟩ := ih h1
      rw [List.reverse_cons]
      constructor
      · intro k v hm
        rw [fillMap_append]
        rcases List.mem_append.mp hm with hm | hm
        · have : k ≠ p.1 := h3 k (List.mem_map.mpr ⟨(k, v), hm, rfl⟩) p.1 (by simp)
          rw [if_neg this]
          exact i1 k v hm
        · rw [List.mem_singleton] at hm
          subst hm; simp
      · intro k v hk
        rw [fillMap_append] at hk
        split at hk
        · next he =>
          cases hk
          subst he
          exact List.mem_append.mpr (Or.inr (by simp))
        · exact List.mem_append.mpr (Or.inl (i2 k v hk))
  have := key l.reverse
  rw [List.reverse_reverse] at this
  exact this hnd

/-- In compatible trees without repeated names, all names are different. -/
theorem names_nodup {B L : Type} {trees : List (JTree B L)}
    (hp : trees.Pairwise fun a b => ∀ x ∈ a.branches, ∀ y ∈ b.branches, x.1 ≠ y.1)
    (hn : ∀ t ∈ trees, (t.branches.map (·.1)).Nodup) :
    (((trees.map (·.branches)).flatten).map (·.1)).Nodup := by
  induction trees with
  | nil => simp
  | cons t ts ih =>
    rw [List.pairwise_cons] at hp
    rw [List.map_cons, List.flatten_cons, List.map_append, List.nodup_append]
    refine ⟨hn t (by simp), ih hp.2 (fun u hu => hn u (by simp [hu])), ?_⟩
    intro a ha b hb
    obtain ⟨x, hx, rfl⟩ := List.mem_map.mp ha
    obtain ⟨y, hy, rfl⟩ := List.mem_map.mp hb
    obtain ⟨l, hl, hyl⟩ := List.mem_flatten.mp hy
    obtain ⟨u, hu, rfl⟩ := List.mem_map.mp hl
    exact hp.1 u hu x hx y hyl

/-- **C22, columns.**  The joined tree has as many entries as its inputs, its branches are those
of its inputs one after the other, and looking up a branch by name finds exactly the branch of
that name in one of the inputs. -/
theorem C22_columns {B L : Type} (trees : List (JTree B L)) (j : Joined B L)
    (h : join trees = .ok j) (hn : ∀ t ∈ trees, (t.branches.map (·.1)).Nodup) :
    (∀ t ∈ trees, j.entries = t.entries) ∧
    j.branches = (trees.map (·.branches)).flatten ∧
    j.leaves = (trees.map (·.leaves)).flatten ∧
    ∀ k b, j.bmap k = some b ↔ ∃ t ∈ trees, (k, b) ∈ t.branches := by
  obtain ⟨_, h2, h3, h4, _, h6⟩ := join_ok h
  refine ⟨h6, h2, h3, fun k b => ?_⟩
  have hc := (C22_iff trees).mp ⟨j, h⟩
  have hnd := names_nodup hc.2.2 hn
  rw [← h2] at hnd
  obtain ⟨f1, f2⟩ := fillMap_spec j.branches hnd
  have hmem : (k, b) ∈ j.branches ↔ ∃ t ∈ trees, (k, b) ∈ t.branches := by
    rw [h2, List.mem_flatten]
    constructor
    · rintro ⟨l, hl, hm⟩
      obtain ⟨t, ht, rfl⟩ := List.mem_map.mp hl
      exact ⟨t, ht, hm⟩
    · rintro ⟨t, ht, hm⟩
      exact ⟨_, List.mem_map.mpr ⟨t, ht, rfl⟩, hm⟩
  rw [h4, ← hmem]
  exact ⟨f2 k b, f1 k b⟩

def ta : JTree Nat Nat := ⟨"a", "A", 3, [("x", 1), ("y", 2)], [("x", 1), ("n", 2)], true⟩
def tb : JTree Nat Nat := ⟨"b", "B", 3, [("z", 3)], [("n", 3)], true⟩

example : Compatible [ta, tb] := (C22_iff _).mp (by simp [join, ta, tb, findDup, meets])

example : ∀ t ∈ [ta, tb], (t.branches.map (·.1)).Nodup := by decide

/-- Trees which share a name, or of different lengths, are refused. -/
example : (∃ e, join [ta, tb, { tb with name := "c" }] = .error e) ∧
    (∃ e, join [ta, { tb with entries := 4 }] = .error e) := by
  simp [join, ta, tb, findDup, meets]

/-- **C22, counterexample.**  Only the names of branches are compared: two trees may have leaves
of the same name in branches of different names, and looking up the leaf gives that of the last
tree; the first one is not to be found. -/
theorem C22_leaf_counterexample :
    ∃ j, join [ta, tb] = .ok j ∧ ("n", 2) ∈ ta.leaves ∧ j.lmap "n" = some 3 := by
  refine ⟨_, rfl, by decide, by decide⟩

/-! ### Reading a join -/

/-- groot/rtree/rjoin.go:105-113 (`read`): one entry of every tree.  Each tree has its own
file. -/
def readAll : List (File × List RBranch) → Nat → Option (List Bytes × List (File × List RBranch))
  | [], _ => some ([], [])
  | (f, bs) :: rest, i =>
    match readRow f bs i with
    | none => none
    | some r =>
      match readAll rest i with
      | none => none
      | some q => some (r.1 ++ q.1, (f, r.2) :: q.2)

/-- groot/rtree/rjoin.go:77-103 (`run`), the loop. -/
def joinLoop (off : Nat) : Nat → Nat → List (File × List RBranch) →
    Option (List (Nat × List Bytes))
  | 0, _, _ => some []
  | n + 1, i, ts =>
    match readAll ts i with
    | none => none
    | some r => (joinLoop off n (i + 1) r.2).map ((i + off, r.1) :: ·)

/-- groot/rtree/rjoin.go:22-44 (`newRJoin`) and
groot/rtree/rjoin.go:115-123 (`start`): the readers of the trees, for the same range, with their
first baskets; only trees proper are accepted (the type assertions panic). -/
def prepare (beg fin : Nat) : List (Bool × File × List Tables) →
    Option (List (File × List RBranch))
  | [] => some []
  | (plain, f, ts) :: rest =>
    if plain then
      match openAll ts beg fin with
      | none => none
      | some bs =>
        match startAll f bs with
        | none => none
        | some bs' => (prepare beg fin rest).map ((f, bs') :: ·)
    else none

/-- Reading the entries `[beg, fin)` of a join. -/
def joinRead (trees : List (Bool × File × List Tables)) (off beg fin : Nat) :
    Option (List (Nat × List Bytes)) :=
  match prepare beg fin trees with
  | none => none
  | some ts => joinLoop off (fin - beg) beg ts

/-- Rows side by side: the same entry numbers, the columns one after the other. -/
def beside : List (Nat × List Bytes) → List (Nat × List Bytes) → List (Nat × List Bytes)
  | a :: as, b :: bs => (a.1, a.2 ++ b.2) :: beside as bs
  | _, _ => []

theorem joinLoop_cons {off n i : Nat} {f : File} {bs : List RBranch}
    {rest : List (File × List RBranch)} {a b : List (Nat × List Bytes)}
    (h1 : runLoop f off n i bs = some a) (h2 : joinLoop off n i rest = some b) :
    joinLoop off n i ((f, bs) :: rest) = some (beside a b) := by
  induction n generalizing i bs rest a b with
  | zero =>
    simp only [runLoop, joinLoop, Option.some.injEq] at h1 h2 ⊢
    subst h1 h2; rfl
  | succ n ih =>
    simp only [runLoop] at h1
    simp only [joinLoop] at h2
    split at h1
    · exact absurd h1 (by simp)
    · next r hr =>
      split at h2
      · exact absurd h2 (by simp)
      · next q hq =>
        obtain ⟨a', ha, rfl⟩ := Option.map_eq_some_iff.mp h1
        obtain ⟨b', hb, rfl⟩ := Option.map_eq_some_iff.mp h2
        simp only [joinLoop, readAll, hr, hq, ih ha hb, Option.map_some]
        rfl

/-- Reading nothing but numbers. -/
theorem joinLoop_nil (off n i : Nat) :
    joinLoop off n i [] = some ((List.range' i n).map fun k => (k + off, [])) := by
  induction n generalizing i with
  | zero => rfl
  | succ n ih => simp only [joinLoop, readAll, ih, Option.map_some, List.range'_succ, List.map_cons]

/-- All trees beside each other, starting from the bare entry numbers. -/
def besides (nums : List (Nat × List Bytes)) : List (List (Nat × List Bytes)) →
    List (Nat × List Bytes)
  | [] => nums
  | o :: os => beside o (besides nums os)

/-- **C22, reading.**  If every tree of a join can be read over the range, then so can the join,
and each entry is the entries of the trees side by side. -/
theorem C22_read (trees : List (File × List Tables)) (off beg fin : Nat)
    (outs : List (List (Nat × List Bytes)))
    (h : All2 (fun t o => readTree t.1 t.2 off beg fin = some o) trees outs) :
    joinRead (trees.map fun t => (true, t)) off beg fin
      = some (besides ((List.range' beg (fin - beg)).map fun k => (k + off, [])) outs) := by
  have key : ∃ ts, prepare beg fin (trees.map fun t => (true, t)) = some ts ∧
      joinLoop off (fin - beg) beg ts
        = some (besides ((List.range' beg (fin - beg)).map fun k => (k + off, [])) outs) := by
    induction trees generalizing outs with
    | nil =>
      cases outs with
      | nil => exact ⟨[], rfl, joinLoop_nil _ _ _⟩
      | cons => exact absurd h (by simp [All2])
    | cons t trees ih =>
      cases outs with
      | nil => exact absurd h (by simp [All2])
      | cons o outs =>
        obtain ⟨ts, p1, p2⟩ := ih outs h.2
        obtain ⟨f, tb⟩ := t
        have h1 := h.1
        dsimp only at h1
        unfold readTree at h1
        split at h1
        · exact absurd h1 (by simp)
        · next bs hbs =>
          split at h1
          · exact absurd h1 (by simp)
          · next bs' hbs' =>
            refine ⟨(f, bs') :: ts, ?_, joinLoop_cons h1 p2⟩
            simp only [List.map_cons, prepare, hbs, hbs', p1, Option.map_some, if_true]
  obtain ⟨ts, p1, p2⟩ := key
  unfold joinRead
  rw [p1]
  exact p2

theorem beside_length (a b : List (Nat × List Bytes)) :
    (beside a b).length = min a.length b.length := by
  induction a generalizing b with
  | nil => simp [beside]
  | cons x a ih => cases b with
    | nil => simp [beside]
    | cons y b => simp only [beside, List.length_cons, ih]; omega

theorem beside_get {a b : List (Nat × List Bytes)} {n : Nat} {x y : Nat × List Bytes}
    (hx : a[n]? = some x) (hy : b[n]? = some y) :
    (beside a b)[n]? = some (x.1, x.2 ++ y.2) := by
  induction a generalizing b n with
  | nil => simp at hx
  | cons x' a ih => cases b with
    | nil => simp at hy
    | cons y' b => cases n with
      | zero =>
        simp only [List.getElem?_cons_zero, Option.some.injEq] at hx hy
        subst hx hy; rfl
      | succ n => exact ih (by simpa using hx) (by simpa using hy)

/-- The `n`-th row of the join has the columns of the `n`-th rows of the trees. -/
theorem besides_get {beg k off : Nat} {outs : List (List (Nat × List Bytes))}
    (hl : ∀ o ∈ outs, o.length = k ∧ ∀ (n : Nat) x, o[n]? = some x → x.1 = beg + n + off)
    {n : Nat} (hn : n < k) :
    (besides ((List.range' beg k).map fun i => (i + off, [])) outs)[n]?
      = some (beg + n + off, (outs.map fun o => ((o[n]?).map (·.2)).getD []).flatten) := by
  induction outs with
  | nil =>
    simp only [besides, List.getElem?_map, List.map_nil, List.flatten_nil]
    rw [List.getElem?_range' hn]
    simp
  | cons o outs ih =>
    have h1 := hl o (by simp)
    have hx : o[n]? = some o[n] := List.getElem?_eq_getElem (by omega)
    have h2 := ih (fun o ho => hl o (by simp [ho]))
    rw [besides, beside_get hx h2, List.map_cons, List.flatten_cons, hx, h1.2 n _ hx]
    rfl

/-- **C22, rows.**  Reading a join of trees which each deliver the entries of the range with
their numbers calls back once per entry, with the number of the entry and, in the order of the
trees, the columns each tree has for it. -/
theorem C22_rows (trees : List (File × List Tables)) (off beg fin : Nat)
    (outs : List (List (Nat × List Bytes)))
    (h : All2 (fun t o => readTree t.1 t.2 off beg fin = some o) trees outs)
    (hl : ∀ o ∈ outs, o.length = fin - beg ∧
      ∀ (n : Nat) x, o[n]? = some x → x.1 = beg + n + off) :
    ∃ out, joinRead (trees.map fun t => (true, t)) off beg fin = some out ∧
      out.length = fin - beg ∧
      ∀ n < fin - beg, out[n]?
        = some (beg + n + off, (outs.map fun o => ((o[n]?).map (·.2)).getD []).flatten) := by
  refine ⟨_, C22_read trees off beg fin outs h, ?_, fun n hn => besides_get hl hn⟩
  clear h
  induction outs with
  | nil => simp [besides]
  | cons o outs ih =>
    rw [besides, beside_length, ih (fun o ho => hl o (by simp [ho])), (hl o (by simp)).1]
    omega

/-- Entries side by side: a join of two trees of two entries. -/
example : besides ((List.range' 5 2).map fun k => (k + 0, []))
    [[(5, [[1]]), (6, [[2]])], [(5, [[3], [4]]), (6, [[5], [6]])]]
    = [(5, [[1], [3], [4]]), (6, [[2], [5], [6]])] := by decide +kernel

/-- **C22, counterexample.**  `Join` accepts n-tuples, chains and joins, but a reader of the
result panics. -/
theorem C22_reader_counterexample (f : File) (ts : List Tables)
    (pre post : List (Bool × File × List Tables)) (off beg fin : Nat) :
    joinRead (pre ++ (false, f, ts) :: post) off beg fin = none := by
  have : prepare beg fin (pre ++ (false, f, ts) :: post) = none := by
    induction pre with
    | nil => simp [prepare]
    | cons p pre ih =>
      obtain ⟨pl, f', ts'⟩ := p
      simp only [List.cons_append, prepare, ih, Option.map_none]
      split
      · split
        · rfl
        · split <;> rfl
      · rfl
  unfold joinRead
  rw [this]

end Verif.RTree.Join
