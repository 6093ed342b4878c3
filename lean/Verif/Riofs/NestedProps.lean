import Verif.Riofs.Nested
import Verif.Riofs.DirProps

/-!
# Objects in nested directories are found where they were put (C126)

The specification speaks about the tree of directories: `DirAt` follows a path of names downwards,
`HeldAt` says what is held under a name and a cycle in the directory at a path.
-/

namespace Verif.Riofs

variable {O : Type}

/-! ### Specification -/

/-- A name that can be a part of a path: not empty, no '/' and no ';'. -/
def Good (c : List UInt8) : Prop := c ≠ [] ∧ (47 : UInt8) ∉ c ∧ (59 : UInt8) ∉ c

/-- A path of names leads from a directory to a directory. -/
inductive DirAt : Keys O → List (List UInt8) → Keys O → Prop
  | here (ks) : DirAt ks [] ks
  | down {ks c cy sub cs d} : Holds ks c cy (.dir sub) → DirAt sub cs d → DirAt ks (c :: cs) d

/-- In the directory at `path` there is `n` under `name` and cycle `cy`. -/
def HeldAt (ks : Keys O) (path : List (List UInt8)) (name : List UInt8) (cy : Int) (n : Node O) : Prop :=
  ∃ d, DirAt ks path d ∧ Holds d name cy n

/-- There is a directory at `path`. -/
def IsDir (ks : Keys O) (path : List (List UInt8)) : Prop := ∃ d, DirAt ks path d

/-- There is an object at `path`. -/
def IsObj (ks : Keys O) (path : List (List UInt8)) : Prop :=
  ∃ p name cy o, path = p ++ [name] ∧ HeldAt ks p name cy (.obj o)

/-- What every file built with `Put` and `Mkdir` satisfies: names can be parts of paths, (name, cycle)
pairs are distinct, and a name that is a directory is nothing else; in all directories below. -/
inductive WF : Keys O → Prop
  | mk {ks} (dist : Distinct ks) (names : ∀ k ∈ ks, Good k.name)
      (one : ∀ k ∈ ks, ∀ d, k.obj = Node.dir d → k.cls = dirClass ∧ ∀ k' ∈ ks, k'.name = k.name → k' = k)
      (sub : ∀ k ∈ ks, ∀ d, k.obj = Node.dir d → WF d) : WF ks

theorem WF.dist {ks : Keys O} : WF ks → Distinct ks | .mk h _ _ _ => h
theorem WF.names {ks : Keys O} : WF ks → ∀ k ∈ ks, Good k.name | .mk _ h _ _ => h
theorem WF.one {ks : Keys O} : WF ks → ∀ k ∈ ks, ∀ d, k.obj = Node.dir d →
    k.cls = dirClass ∧ ∀ k' ∈ ks, k'.name = k.name → k' = k | .mk _ _ h _ => h
theorem WF.sub {ks : Keys O} : WF ks → ∀ k ∈ ks, ∀ d, k.obj = Node.dir d → WF d | .mk _ _ _ h => h

theorem WF.nil : WF ([] : Keys O) := .mk ⟨by simp, by simp⟩ (by simp) (by simp) (by simp)

/-! ### Directories -/

theorem WF.uniq {ks : Keys O} (h : WF ks) {c cy s cy' n} (h1 : Holds ks c cy (.dir s)) (h2 : Holds ks c cy' n) :
    cy' = cy ∧ n = .dir s := by
  obtain ⟨k, hk, hn, hc, ho⟩ := h1
  obtain ⟨k', hk', hn', hc', ho'⟩ := h2
  have := (h.one k hk s ho).2 k' hk' (by rw [hn', hn])
  subst this
  exact ⟨by rw [← hc, ← hc'], by rw [← ho, ← ho']⟩

theorem WF.holds_sub {ks : Keys O} (h : WF ks) {c cy s} (h1 : Holds ks c cy (.dir s)) : WF s := by
  obtain ⟨k, hk, _, _, ho⟩ := h1
  exact h.sub k hk s ho

theorem get_noPanic {Obj : Type} (ks : List (DKey Obj)) (c : List UInt8) (hc : (59 : UInt8) ∉ c) : get ks c ≠ .panic := by
  have : decodeNameCycle c = some (c, 9999) := by
    unfold decodeNameCycle; rw [splitOn_no_sep _ _ hc]
  unfold get
  rw [this]
  simp only [ne_eq, not_true_eq_false, if_false]
  split <;> simp

theorem get_noKey {Obj : Type} (ks : List (DKey Obj)) (c : List UInt8) (hc : (59 : UInt8) ∉ c) :
    get ks c = .noKey ↔ ∀ cy n, ¬ Holds ks c cy n := by
  have : decodeNameCycle c = some (c, 9999) := by
    unfold decodeNameCycle; rw [splitOn_no_sep _ _ hc]
  unfold get
  rw [this]
  simp only [ne_eq, not_true_eq_false, if_false]
  by_cases he : ks.filter (fun k => decide (k.name = c)) = []
  · rw [he]
    simp only [maxCycle, true_iff]
    rintro cy n ⟨k, hk, hn, _⟩
    have : k ∈ ks.filter (fun k => decide (k.name = c)) := List.mem_filter.mpr ⟨hk, by simpa using hn⟩
    rw [he] at this
    simp at this
  · obtain ⟨m, e, hm, _⟩ := maxCycle_some _ he
    rw [e]
    simp only [reduceCtorEq, false_iff]
    have hm' := List.mem_filter.mp hm
    exact fun hno => hno m.cycle m.obj ⟨m, hm'.1, by simpa using hm'.2, rfl, rfl⟩

theorem get_dir {ks : Keys O} (h : WF ks) {c s} (hc : (59 : UInt8) ∉ c) :
    get ks c = .found (.dir s) ↔ ∃ cy, Holds ks c cy (.dir s) := by
  rw [get_bare ks h.dist c hc]
  constructor
  · rintro ⟨cy, h1, _⟩; exact ⟨cy, h1⟩
  · rintro ⟨cy, h1⟩
    exact ⟨cy, h1, fun c' o' h2 => Int.le_of_eq (h.uniq h1 h2).1⟩

theorem get_9999 {Obj : Type} (ks : List (DKey Obj)) (c : List UInt8) (hc : (59 : UInt8) ∉ c) :
    get ks (c ++ 59 :: intEnc 9999) = get ks c := by
  have h1 : decodeNameCycle c = some (c, 9999) := by
    unfold decodeNameCycle; rw [splitOn_no_sep _ _ hc]
  have h2 := (C09_parse_format_partial c hc 9999 (by omega) (by omega)).1
  unfold get
  rw [h1, show c ++ 59 :: intEnc 9999 = nameCycle c 9999 from rfl, h2]

theorem DirAt.cons_iff {ks : Keys O} {c cs d} :
    DirAt ks (c :: cs) d ↔ ∃ cy sub, Holds ks c cy (.dir sub) ∧ DirAt sub cs d := by
  constructor
  · intro h
    cases h with
    | down h1 h2 => exact ⟨_, _, h1, h2⟩
  · rintro ⟨cy, sub, h1, h2⟩
    exact .down h1 h2

theorem DirAt.nil_iff {ks d : Keys O} : DirAt ks [] d ↔ d = ks := by
  constructor
  · intro h
    cases h
    rfl
  · rintro rfl
    exact .here _

theorem DirAt.append_iff {ks : Keys O} {p q d} : DirAt ks (p ++ q) d ↔ ∃ e, DirAt ks p e ∧ DirAt e q d := by
  induction p generalizing ks with
  | nil => simp [DirAt.nil_iff]
  | cons c p ih =>
    simp only [List.cons_append, DirAt.cons_iff, ih]
    constructor
    · rintro ⟨cy, sub, h1, e, h2, h3⟩
      exact ⟨e, ⟨cy, sub, h1, h2⟩, h3⟩
    · rintro ⟨e, ⟨cy, sub, h1, h2⟩, h3⟩
      exact ⟨cy, sub, h1, e, h2, h3⟩

theorem DirAt.unique {ks : Keys O} (h : WF ks) {p d d'} (h1 : DirAt ks p d) (h2 : DirAt ks p d') : d = d' := by
  induction h1 with
  | here ks => exact (DirAt.nil_iff.mp h2).symm
  | down hh _ ih =>
    obtain ⟨cy', sub', h3, h4⟩ := DirAt.cons_iff.mp h2
    have := (h.uniq hh h3).2
    injection this with this
    subst this
    exact ih (h.holds_sub hh) h4

theorem DirAt.wf {ks : Keys O} (h : WF ks) {p d} (h1 : DirAt ks p d) : WF d := by
  induction h1 with
  | here ks => exact h
  | down hh _ ih => exact ih (h.holds_sub hh)

theorem IsDir.prefix {ks : Keys O} {p q} (h : IsDir ks q) (hp : p <+: q) : IsDir ks p := by
  obtain ⟨r, rfl⟩ := hp
  obtain ⟨d, hd⟩ := h
  obtain ⟨e, he, _⟩ := DirAt.append_iff.mp hd
  exact ⟨e, he⟩

theorem IsDir.not_obj {ks : Keys O} (h : WF ks) {p} (h1 : IsDir ks p) : ¬ IsObj ks p := by
  rintro ⟨q, name, cy, o, rfl, d, hd, ho⟩
  obtain ⟨e, he⟩ := h1
  obtain ⟨d', hd', h2⟩ := DirAt.append_iff.mp he
  have := hd.unique h hd'
  subst this
  obtain ⟨cy', sub, h3, _⟩ := DirAt.cons_iff.mp h2
  have := (( hd.wf h).uniq h3 ho).2
  cases this

/-! ### Getting -/

/-- A lookup in one directory as an outcome. -/
def ofGet (r : GetResult (Node O)) : Out (Node O) :=
  match r with
  | .found n => .ok n
  | .noKey => .noKey
  | .panic => .panic

theorem walkdir_dir {ks : Keys O} (h : WF ks) {p d} (hd : DirAt ks p d) (hp : ∀ x ∈ p, Good x) (cy : Int) (c : List UInt8) :
    walkdir cy (p ++ [c]) ks = ofGet (get d (c ++ 59 :: intEnc cy)) := by
  induction hd with
  | here ks =>
    simp only [List.nil_append, walkdir, ofGet]
    cases get ks (c ++ 59 :: intEnc cy) <;> rfl
  | @down ks x cy' sub cs d hh hd ih =>
    have hx := (hp x (by simp)).2.2
    have e : get ks x = .found (.dir sub) := (get_dir h hx).mpr ⟨_, hh⟩
    obtain ⟨y, ys, ey⟩ : ∃ y ys, cs ++ [c] = y :: ys := by
      cases cs with
      | nil => exact ⟨c, [], rfl⟩
      | cons a l => exact ⟨a, l ++ [c], rfl⟩
    have := ih (h.holds_sub hh) (fun z hz => hp z (by simp [hz]))
    rw [ey] at this
    rw [List.cons_append, ey]
    simp only [walkdir, e]
    exact this

theorem walkdir_none {ks : Keys O} (h : WF ks) {p} (hp : ∀ x ∈ p, Good x) (hno : ¬ IsDir ks p) (cy : Int) (c : List UInt8) :
    walkdir cy (p ++ [c]) ks = .noKey ∨ walkdir cy (p ++ [c]) ks = .err := by
  induction p generalizing ks with
  | nil => exact absurd ⟨ks, .here ks⟩ hno
  | cons x p ih =>
    have hx := (hp x (by simp)).2.2
    obtain ⟨y, ys, ey⟩ : ∃ y ys, p ++ [c] = y :: ys := by
      cases p with
      | nil => exact ⟨c, [], rfl⟩
      | cons a l => exact ⟨a, l ++ [c], rfl⟩
    rw [List.cons_append, ey]
    simp only [walkdir]
    cases e : get ks x with
    | found n =>
      cases n with
      | obj o => exact Or.inr rfl
      | dir sub =>
        obtain ⟨cy', hh⟩ := (get_dir h hx).mp e
        have := ih (h.holds_sub hh) (fun z hz => hp z (by simp [hz]))
          (fun ⟨d, hd⟩ => hno ⟨d, .down hh hd⟩)
        rw [ey] at this
        exact this
    | noKey => exact Or.inl rfl
    | panic => exact absurd e (get_noPanic ks x hx)

theorem joinPath_snoc (p : List (List UInt8)) (c : List UInt8) (h : p ≠ []) :
    joinPath (p ++ [c]) = joinPath p ++ 47 :: c := by
  induction p with
  | nil => exact absurd rfl h
  | cons a p ih =>
    cases p with
    | nil => rfl
    | cons b p =>
      have := ih (by simp)
      simp only [List.cons_append, joinPath] at this ⊢
      rw [this]
      simp

theorem splitOn_joinPath (p : List (List UInt8)) (h : p ≠ []) (hg : ∀ x ∈ p, Good x) :
    splitOn 47 (joinPath p) = p := by
  induction p with
  | nil => exact absurd rfl h
  | cons a p ih =>
    cases p with
    | nil => simp only [joinPath]; exact splitOn_no_sep _ _ (hg a (by simp)).2.1
    | cons b p =>
      simp only [joinPath]
      rw [splitOn_append 47 a _ (hg a (by simp)).2.1, ih (by simp) (fun x hx => hg x (by simp [hx]))]

theorem joinPath_head (p : List (List UInt8)) (h : p ≠ []) (hg : ∀ x ∈ p, Good x) :
    ∃ b s, joinPath p = b :: s ∧ b ≠ 47 := by
  cases p with
  | nil => exact absurd rfl h
  | cons a p =>
    obtain ⟨h1, h2, _⟩ := hg a (by simp)
    cases a with
    | nil => exact absurd rfl h1
    | cons b a =>
      have hb : b ≠ 47 := by
        rintro rfl
        simp at h2
      cases p with
      | nil => exact ⟨b, a, rfl, hb⟩
      | cons c p => exact ⟨b, a ++ 47 :: joinPath (c :: p), rfl, hb⟩

theorem joinPath_semi (p : List (List UInt8)) (hg : ∀ x ∈ p, Good x) : (59 : UInt8) ∉ joinPath p := by
  induction p with
  | nil => simp [joinPath]
  | cons a p ih =>
    have ha := (hg a (by simp)).2.2
    cases p with
    | nil => exact ha
    | cons b p =>
      have := ih (fun x hx => hg x (by simp [hx]))
      simp only [joinPath, List.mem_append, List.mem_cons, not_or] at this ⊢
      exact ⟨ha, by decide, this⟩

theorem trimPrefix_joinPath (p : List (List UInt8)) (h : p ≠ []) (hg : ∀ x ∈ p, Good x) :
    trimPrefix (joinPath p) = joinPath p := by
  obtain ⟨b, s, e, hb⟩ := joinPath_head p h hg
  rw [e]
  simp [trimPrefix, hb]

theorem joinPath_plain (p : List (List UInt8)) (h : p ≠ []) (hg : ∀ x ∈ p, Good x) :
    ¬ (joinPath p = [] ∨ joinPath p = [47]) := by
  obtain ⟨b, s, e, hb⟩ := joinPath_head p h hg
  rw [e]
  simp [hb]

theorem comps_joinPath (p : List (List UInt8)) (hg : ∀ x ∈ p, Good x) : comps (joinPath p) = p := by
  by_cases h : p = []
  · subst h; rfl
  · unfold comps
    rw [if_neg (joinPath_plain p h hg), trimPrefix_joinPath p h hg, splitOn_joinPath p h hg]

theorem rget_path (ks : Keys O) (p : List (List UInt8)) (h : p ≠ []) (hg : ∀ x ∈ p, Good x) :
    rget ks (joinPath p) = walkdir 9999 p ks := by
  have h1 : decodeNameCycle (joinPath p) = some (joinPath p, 9999) := by
    unfold decodeNameCycle; rw [splitOn_no_sep _ _ (joinPath_semi p hg)]
  unfold rget
  rw [if_neg (joinPath_plain p h hg), h1]
  simp only
  rw [trimPrefix_joinPath p h hg, splitOn_joinPath p h hg]

theorem rget_dir {ks : Keys O} (h : WF ks) {p d} (hd : DirAt ks p d) (hg : ∀ x ∈ p, Good x) :
    rget ks (joinPath p) = .ok (.dir d) := by
  by_cases hp : p = []
  · subst hp
    rw [DirAt.nil_iff.mp hd]
    simp [rget, joinPath]
  · obtain ⟨q, c, rfl⟩ : ∃ q c, p = q ++ [c] := ⟨p.dropLast, p.getLast hp, (List.dropLast_concat_getLast hp).symm⟩
    obtain ⟨e, he, h2⟩ := DirAt.append_iff.mp hd
    obtain ⟨cy, sub, h3, h4⟩ := DirAt.cons_iff.mp h2
    rw [DirAt.nil_iff.mp h4]
    have hc := (hg c (by simp)).2.2
    rw [rget_path ks _ (by simp) hg, walkdir_dir h he (fun x hx => hg x (by simp [hx])), get_9999 e c hc,
      (get_dir (he.wf h) hc).mpr ⟨cy, h3⟩]
    rfl

/-- The highest cycle of a name in a directory holds `n`. -/
def Latest (d : Keys O) (name : List UInt8) (n : Node O) : Prop :=
  ∃ c, Holds d name c n ∧ ∀ c' n', Holds d name c' n' → c' ≤ c

/-- **C126** (getting): on a file built with `Put` and `Mkdir`, `riofs.Dir(f).Get("a/b/name")` gives the
object or directory of the highest cycle of `name` in the directory at a/b, and gives an error exactly if
there is none; `Get("a/b/name;c")` gives the one of cycle `c`; a leading slash makes no difference; "" and
"/" give the directory itself; it never panics. -/
theorem C126_get {ks : Keys O} (h : WF ks) (p : List (List UInt8)) (name : List UInt8)
    (hp : ∀ x ∈ p, Good x) (hn : Good name) :
    (∀ n, rget ks (joinPath (p ++ [name])) = .ok n ↔ ∃ d, DirAt ks p d ∧ Latest d name n) ∧
    (∀ c n, -32768 ≤ c → c ≤ 32767 → c ≠ 9999 →
      (rget ks (joinPath (p ++ [name]) ++ 59 :: intEnc c) = .ok n ↔ HeldAt ks p name c n)) ∧
    rget ks (47 :: joinPath (p ++ [name])) = rget ks (joinPath (p ++ [name])) ∧
    (∀ c : Int, -32768 ≤ c → c ≤ 32767 →
      rget ks (47 :: joinPath (p ++ [name]) ++ 59 :: intEnc c) = rget ks (joinPath (p ++ [name]) ++ 59 :: intEnc c)) ∧
    rget ks [] = .ok (.dir ks) ∧ rget ks [47] = .ok (.dir ks) ∧
    rget ks (joinPath (p ++ [name])) ≠ .panic := by
  have hg : ∀ x ∈ p ++ [name], Good x := by
    intro x hx
    rcases List.mem_append.mp hx with hx | hx
    · exact hp x hx
    · rw [List.mem_singleton.mp hx]; exact hn
  have hne : p ++ [name] ≠ [] := by simp
  have hsemi := joinPath_semi _ hg
  have hs2 : (59 : UInt8) ∉ 47 :: joinPath (p ++ [name]) := by
    simp only [List.mem_cons, not_or]
    exact ⟨by decide, hsemi⟩
  have key : ∀ c : Int, -32768 ≤ c → c ≤ 32767 →
      rget ks (joinPath (p ++ [name]) ++ 59 :: intEnc c) = walkdir c (p ++ [name]) ks := by
    intro c hc1 hc2
    have h1 := (C09_parse_format_partial _ hsemi c hc1 hc2).1
    obtain ⟨b, s, e, hb⟩ := joinPath_head _ hne hg
    unfold rget
    rw [if_neg (by rw [e]; simp), show joinPath (p ++ [name]) ++ 59 :: intEnc c = nameCycle (joinPath (p ++ [name])) c from rfl, h1]
    simp only
    rw [trimPrefix_joinPath _ hne hg, splitOn_joinPath _ hne hg]
  have base : ∀ n, rget ks (joinPath (p ++ [name])) = .ok n ↔ ∃ d, DirAt ks p d ∧ Latest d name n := by
    intro n
    rw [rget_path ks _ hne hg]
    by_cases hd : IsDir ks p
    · obtain ⟨d, hd⟩ := hd
      rw [walkdir_dir h hd hp, get_9999 d name hn.2.2]
      have e2 := get_bare d (hd.wf h).dist name hn.2.2 n
      have : (ofGet (get d name) = .ok n) ↔ get d name = .found n := by
        unfold ofGet
        split <;> simp_all
      rw [this, e2]
      constructor
      · intro h1; exact ⟨d, hd, h1⟩
      · rintro ⟨d', hd', h1⟩
        rw [hd.unique h hd']; exact h1
    · have := walkdir_none h hp hd 9999 name
      constructor
      · intro e
        rcases this with e' | e' <;> rw [e'] at e <;> cases e
      · rintro ⟨d, hd', _⟩
        exact absurd ⟨d, hd'⟩ hd
  refine ⟨base, ?_, ?_, ?_, by simp [rget], by simp [rget], ?_⟩
  · intro c n hc1 hc2 hc9
    rw [key c hc1 hc2]
    by_cases hd : IsDir ks p
    · obtain ⟨d, hd⟩ := hd
      rw [walkdir_dir h hd hp]
      have e2 := get_cycle d (hd.wf h).dist name hn.2.2 c hc1 hc2 hc9 n
      have : (ofGet (get d (name ++ 59 :: intEnc c)) = .ok n) ↔ get d (name ++ 59 :: intEnc c) = .found n := by
        unfold ofGet
        split <;> simp_all
      rw [this, show name ++ 59 :: intEnc c = nameCycle name c from rfl, e2]
      constructor
      · intro h1; exact ⟨d, hd, h1⟩
      · rintro ⟨d', hd', h1⟩
        rw [hd.unique h hd']; exact h1
    · have := walkdir_none h hp hd c name
      constructor
      · intro e
        rcases this with e' | e' <;> rw [e'] at e <;> cases e
      · rintro ⟨d, hd', _⟩
        exact absurd ⟨d, hd'⟩ hd
  · have h1 : decodeNameCycle (47 :: joinPath (p ++ [name])) = some (47 :: joinPath (p ++ [name]), 9999) := by
      unfold decodeNameCycle; rw [splitOn_no_sep _ _ hs2]
    rw [rget_path ks _ hne hg]
    obtain ⟨b, s, e, hb⟩ := joinPath_head _ hne hg
    unfold rget
    rw [if_neg (by rw [e]; simp), h1]
    simp only [trimPrefix, if_true]
    rw [splitOn_joinPath _ hne hg]
  · intro c hc1 hc2
    rw [key c hc1 hc2]
    have h1 := (C09_parse_format_partial _ hs2 c hc1 hc2).1
    obtain ⟨b, s, e, hb⟩ := joinPath_head _ hne hg
    unfold rget
    rw [if_neg (by rw [e]; simp), show 47 :: joinPath (p ++ [name]) ++ 59 :: intEnc c = nameCycle (47 :: joinPath (p ++ [name])) c from rfl, h1]
    simp only [trimPrefix, if_true]
    rw [splitOn_joinPath _ hne hg]
  · rw [rget_path ks _ hne hg]
    by_cases hd : IsDir ks p
    · obtain ⟨d, hd⟩ := hd
      rw [walkdir_dir h hd hp, get_9999 d name hn.2.2]
      have := get_noPanic d name hn.2.2
      unfold ofGet
      split <;> simp_all
    · rcases walkdir_none h hp hd 9999 name with e' | e' <;> rw [e'] <;> simp

end Verif.Riofs
