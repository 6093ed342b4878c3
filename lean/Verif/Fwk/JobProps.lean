import Verif.Fwk.Job
import Verif.Common.Strconv
import Mathlib.Data.List.Forall2

/-!
# A saved job configures the same job again

What the Go compiler and the linker make of the source written is given first, as a small specification: `compile` and
`World.linked`. -/

namespace Verif.Job

variable {K V T E : Type} [DecidableEq K]

/-- The values of a list, when all of them have one. -/
def evalProps (ev : E → Option V) : Props K E → Option (Props K V)
  | [] => some []
  | p :: ps => (ev p.2).bind fun v => (evalProps ev ps).map fun l => (p.1, v) :: l

/-- Nil properties, or properties. -/
def evalOpt (ev : E → Option V) : Option (Props K E) → Option (Option (Props K V))
  | none => some none
  | some ps => (evalProps ev ps).map some

/-- A call with its expressions evaluated. -/
def evalCall (ev : E → Option V) : Call K E → Option (Call K V)
  | .create c => (evalOpt ev c.props).map fun ps => .create ⟨c.name, c.typ, ps⟩
  | .set r k e => (ev e).map fun v => .set r k v

def evalCalls (ev : E → Option V) : List (Call K E) → Option (List (Call K V))
  | [] => some []
  | c :: cs => (evalCall ev c).bind fun x => (evalCalls ev cs).map fun l => x :: l

/-- What a Go compiler takes: one package clause, one list of imports, one function `newApp` and one function `config`. A
package is known by the last part of its path, `base`, and no two imports may share one; `jobPkg` is imported always. -/
def compile (base : Name → Name) (jobPkg : Name) (ev : E → Option V) :
    List (Item K E) → Option (List Name × Option (Props K V) × List (Call K V))
  | [.clause, .imports named blank, .newApp ps, .config cs] =>
    if ((jobPkg :: named).map base).Nodup then
      (evalOpt ev ps).bind fun p => (evalCalls ev cs).map fun l => (jobPkg :: named ++ blank, p, l)
    else none
  | _ => none

/-- A program has the factories of the packages it imports. -/
def World.linked (w : World K V T) (ps : List Name) : World K V T :=
  { w with fac := fun t n => if (ps.any fun p => pkgOf t = some p) then w.fac t n else none }

/-- The program run: `newApp()`, then `config` on its result. -/
def runProg (w : World K V T) (p : List Name × Option (Props K V) × List (Call K V)) : Option (Job K V T) :=
  configure (w.linked p.1) p.2.1 p.2.2

/-- The same properties: nil for both, or the same entries in whichever order. -/
def SameProps : Option (Props K V) → Option (Props K V) → Prop
  | none, none => True
  | some a, some b => a.Perm b
  | _, _ => False

/-- The same configuration. -/
def SameCfg (a b : Cfg K V) : Prop := a.name = b.name ∧ a.typ = b.typ ∧ SameProps a.props b.props

/-- The same statement. -/
def SameStmt : Stmt K V → Stmt K V → Prop
  | .newApp a, .newApp b => SameCfg a b
  | .create a, .create b => SameCfg a b
  | .setProp a, .setProp b => SameCfg a b
  | _, _ => False

/-- The same call. -/
def SameCall : Call K V → Call K V → Prop
  | .create a, .create b => SameCfg a b
  | .set r k v, .set r' k' v' => r = r' ∧ k = k' ∧ v = v'
  | _, _ => False

/-- Calls which are recorded in full: a component is created with at least one property (a map has each key once), and a
property is set on a component, not on the application itself. -/
def Recorded : Call K V → Prop
  | .create c => ∃ ps, c.props = some ps ∧ ps ≠ [] ∧ (ps.map Prod.fst).Nodup
  | .set r _ _ => ∃ n, r = .comp n

/-- The values of a call. -/
def Call.vals : Call K V → List V
  | .create c => (c.props.getD []).map Prod.snd
  | .set _ _ v => [v]

/-! ### The order of properties -/

omit [DecidableEq K] in
theorem upd_same {A B : Type} [DecidableEq A] (f : A → B) (a : A) (b : B) : upd f a b a = b := by simp [upd]

theorem upd_upd {A B : Type} [DecidableEq A] (f : A → B) (a : A) (b c : B) : upd (upd f a b) a c = upd f a c := by
  funext x; simp only [upd]; split <;> rfl

theorem upd_comm {A B : Type} [DecidableEq A] (f : A → B) {a a' : A} (h : a ≠ a') (b c : B) :
    upd (upd f a b) a' c = upd (upd f a' c) a b := by
  funext x
  simp only [upd]
  by_cases h1 : x = a
  · have : x ≠ a' := fun h2 => h (h1 ▸ h2)
    simp [h1, h]
  · by_cases h2 : x = a'
    · have : a' ≠ a := fun e => h e.symm
      simp [h2, this]
    · simp [h1, h2]

/-- Setting a property, in one formula. -/
theorem setProp_eq (w : World K V T) (a : App K V T) (n : Name) (k : K) (v : V) (a' : App K V T) :
    setProp w a n k v = some a' ↔ ∃ m d, a.props n = some m ∧ m k = some d ∧ w.asg (w.typ v) d.1 = true ∧
      a' = ⟨upd a.props n (some (upd m k (some (d.1, v)))), a.comps⟩ := by
  unfold setProp App.hasProp App.setProp
  cases hm : a.props n with
  | none => simp
  | some m =>
    cases hd : m k with
    | none => simp [hd]
    | some d =>
      by_cases h : w.asg (w.typ v) d.1 = true
      · simp only [hd, Option.isSome_some, if_true, h, Option.some.injEq]
        constructor
        · intro e; exact ⟨m, d, rfl, hd, h, e.symm⟩
        · rintro ⟨m', d', h1, h2, _, h4⟩
          obtain rfl := h1
          rw [hd] at h2
          obtain rfl := Option.some.inj h2
          exact h4.symm
      · simp only [hd, Option.isSome_some, if_true, h, Option.some.injEq]
        constructor
        · intro e; simp at e
        · rintro ⟨m', d', h1, h2, h3, h4⟩
          obtain rfl := h1
          rw [hd] at h2
          obtain rfl := Option.some.inj h2
          exact absurd h3 h

theorem setProp_comm (w : World K V T) (a b c : App K V T) (n : Name) {k k' : K} (hk : k ≠ k') (v v' : V)
    (h1 : setProp w a n k v = some b) (h2 : setProp w b n k' v' = some c) :
    ∃ b', setProp w a n k' v' = some b' ∧ setProp w b' n k v = some c := by
  obtain ⟨m, d, e1, e2, e3, rfl⟩ := (setProp_eq ..).1 h1
  obtain ⟨m', d', f1, f2, f3, rfl⟩ := (setProp_eq ..).1 h2
  simp only [upd_same, Option.some.injEq] at f1
  subst f1
  have f2' : m k' = some d' := by
    have : k' ≠ k := fun h => hk h.symm
    simpa [upd, this] using f2
  refine ⟨_, (setProp_eq ..).2 ⟨m, d', e1, f2', f3, rfl⟩, (setProp_eq ..).2 ⟨_, d, upd_same .., ?_, e3, ?_⟩⟩
  · simpa [upd, hk] using e2
  · simp only [upd_upd]
    rw [upd_comm m hk]

theorem setProps_perm (w : World K V T) (n : Name) {ps qs : Props K V} (h : ps.Perm qs) :
    (ps.map Prod.fst).Nodup → ∀ a b : App K V T, setProps w n ps a = some b → setProps w n qs a = some b := by
  induction h with
  | nil => intro _ a b h; exact h
  | cons x _ ih =>
    intro hn a b h
    obtain ⟨k, v⟩ := x
    simp only [setProps] at h ⊢
    cases h1 : setProp w a n k v with
    | none => simp [h1] at h
    | some a' =>
      rw [h1] at h
      exact ih (List.nodup_cons.1 hn).2 a' b h
  | swap x y l =>
    intro hn a b h
    obtain ⟨k, v⟩ := x
    obtain ⟨k', v'⟩ := y
    have hk : k' ≠ k := by
      intro e
      subst e
      exact (List.nodup_cons.1 hn).1 (by simp)
    simp only [setProps] at h ⊢
    cases h1 : setProp w a n k' v' with
    | none => simp [h1] at h
    | some a' =>
      rw [h1] at h
      simp only [Option.bind_some] at h
      cases h2 : setProp w a' n k v with
      | none => simp [h2] at h
      | some a'' =>
        rw [h2] at h
        obtain ⟨b', g1, g2⟩ := setProp_comm w a a' a'' n hk v' v h1 h2
        simp only [g1, g2, Option.bind_some]
        exact h
  | trans h1 _ ih1 ih2 =>
    intro hn a b h
    exact ih2 ((h1.map Prod.fst).nodup_iff.1 hn) a b (ih1 hn a b h)

/-! ### The same calls give the same job -/

omit [DecidableEq K] in
/-- The property maps of a call have each key once. -/
def Keyed : Call K V → Prop
  | .create c => ∀ ps, c.props = some ps → (ps.map Prod.fst).Nodup
  | .set _ _ _ => True

theorem forall2_append {A B : Type} {R : A → B → Prop} {a c : List A} {b d : List B} (h1 : List.Forall₂ R a b)
    (h2 : List.Forall₂ R c d) : List.Forall₂ R (a ++ c) (b ++ d) := by
  induction h1 with
  | nil => exact h2
  | cons h _ ih => exact .cons h ih

theorem call_same (w : World K V T) {c c' : Call K V} (hc : SameCall c c') (hk : Keyed c) {j j' i : Job K V T}
    (hs : List.Forall₂ SameStmt j.stmts i.stmts) (ha : j.app = i.app) (h : j.call w c = some j') :
    ∃ i', i.call w c' = some i' ∧ List.Forall₂ SameStmt j'.stmts i'.stmts ∧ j'.app = i'.app := by
  cases c with
  | create c =>
    cases c' with
    | set r k v => exact absurd hc id
    | create c' =>
      obtain ⟨n, t, ps⟩ := c
      obtain ⟨n', t', ps'⟩ := c'
      obtain ⟨e1, e2, e3⟩ := hc
      simp only at e1 e2 e3
      subst e1 e2
      simp only [Job.call, Job.create] at h ⊢
      rw [← ha]
      cases hn : App.new w j.app t n with
      | none => simp [hn] at h
      | some a =>
        rw [hn] at h
        simp only at h ⊢
        cases ps with
        | none =>
          cases ps' with
          | some _ => exact absurd e3 id
          | none =>
            simp only [Option.some.injEq] at h
            subst h
            exact ⟨_, rfl, hs, rfl⟩
        | some ps =>
          cases ps' with
          | none => exact absurd e3 id
          | some ps' =>
            simp only [Option.map_eq_some_iff] at h
            obtain ⟨b, hb, rfl⟩ := h
            simp only [setProps_perm w n e3 (hk ps rfl) a b hb, Option.map_some]
            refine ⟨_, rfl, forall2_append hs (.cons ⟨rfl, rfl, e3⟩ .nil), rfl⟩
  | set r k v =>
    cases c' with
    | create c' => exact absurd hc id
    | set r' k' v' =>
      obtain ⟨rfl, rfl, rfl⟩ := hc
      simp only [Job.call, Job.set] at h ⊢
      have hf : i.find r = j.find r := by cases r <;> simp [Job.find, ha]
      rw [hf]
      cases hj : j.find r with
      | none => simp [hj] at h
      | some c =>
        rw [hj] at h
        simp only [Option.map_eq_some_iff] at h ⊢
        obtain ⟨a, ha', rfl⟩ := h
        rw [ha] at ha'
        exact ⟨_, ⟨a, ha', rfl⟩, forall2_append hs (.cons ⟨rfl, rfl, List.Perm.refl _⟩ .nil), rfl⟩

theorem calls_same (w : World K V T) {cs cs' : List (Call K V)} (hc : List.Forall₂ SameCall cs cs')
    (hk : ∀ c ∈ cs, Keyed c) {j j' i : Job K V T}
    (hs : List.Forall₂ SameStmt j.stmts i.stmts) (ha : j.app = i.app) (h : Job.calls w cs j = some j') :
    ∃ i', Job.calls w cs' i = some i' ∧ List.Forall₂ SameStmt j'.stmts i'.stmts ∧ j'.app = i'.app := by
  induction hc generalizing j i with
  | nil =>
    simp only [Job.calls, Option.some.injEq] at h
    subst h
    exact ⟨_, rfl, hs, ha⟩
  | @cons c c' cs cs' hcc _ ih =>
    simp only [Job.calls] at h ⊢
    cases h1 : j.call w c with
    | none => simp [h1] at h
    | some j1 =>
      rw [h1] at h
      simp only [Option.bind_some] at h
      obtain ⟨i1, g1, g2, g3⟩ := call_same w hcc (hk c (by simp)) hs ha h1
      obtain ⟨i', k1, k2, k3⟩ := ih (fun c hc => hk c (by simp [hc])) g2 g3 h
      exact ⟨i', by rw [g1]; exact k1, k2, k3⟩

theorem newJob_same (w : World K V T) {ps ps' : Option (Props K V)} (hp : SameProps ps ps')
    (hk : ((ps.getD []).map Prod.fst).Nodup) {j : Job K V T} (h : newJob w ps = some j) :
    ∃ i, newJob w ps' = some i ∧ List.Forall₂ SameStmt j.stmts i.stmts ∧ j.app = i.app := by
  simp only [newJob, Option.map_eq_some_iff] at h ⊢
  obtain ⟨a, ha, rfl⟩ := h
  have hperm : (ps.getD []).Perm (ps'.getD []) := by
    cases ps <;> cases ps' <;> first | exact absurd hp id | exact hp | exact List.Perm.refl _
  exact ⟨_, ⟨a, setProps_perm w appName hperm hk _ a ha, rfl⟩, .cons ⟨rfl, rfl, hp⟩ .nil, rfl⟩

/-- **C157, order.** The order in which the properties of a map are set does not matter: the same calls give an application
with the same components and properties, and the same statements. -/
theorem C157_order (w : World K V T) {ps ps' : Option (Props K V)} {cs cs' : List (Call K V)} (hp : SameProps ps ps')
    (hc : List.Forall₂ SameCall cs cs') (hk : ((ps.getD []).map Prod.fst).Nodup) (hkc : ∀ c ∈ cs, Keyed c)
    {j : Job K V T} (h : configure w ps cs = some j) :
    ∃ i, configure w ps' cs' = some i ∧ List.Forall₂ SameStmt j.stmts i.stmts ∧ j.app = i.app := by
  simp only [configure] at h ⊢
  cases h1 : newJob w ps with
  | none => simp [h1] at h
  | some j1 =>
    rw [h1] at h
    simp only [Option.bind_some] at h
    obtain ⟨i1, g1, g2, g3⟩ := newJob_same w hp hk h1
    rw [g1]
    exact calls_same w hc hkc g2 g3 h

/-! ### What is recorded -/

/-- The statement of a call: a component with its properties, or one property of the component named. -/
def Records : Call K V → Stmt K V → Prop
  | .create c, .create d => c = d
  | .set (.comp n) k v, .setProp d => d.name = n ∧ d.props = some [(k, v)]
  | _, _ => False

theorem call_records (w : World K V T) {c : Call K V} (hc : Recorded c) {j j' : Job K V T} (h : j.call w c = some j') :
    ∃ s, j'.stmts = j.stmts ++ [s] ∧ Records c s := by
  cases c with
  | create c =>
    obtain ⟨ps, hps, _, _⟩ := hc
    simp only [Job.call, Job.create] at h
    cases hn : App.new w j.app c.typ c.name with
    | none => simp [hn] at h
    | some a =>
      simp only [hn, hps, Option.map_eq_some_iff] at h
      obtain ⟨b, _, rfl⟩ := h
      exact ⟨_, rfl, rfl⟩
  | set r k v =>
    obtain ⟨n, rfl⟩ := hc
    simp only [Job.call, Job.set, Job.find] at h
    cases ht : j.app.comps n with
    | none => simp [ht] at h
    | some t =>
      simp only [ht, Option.map_some, Option.map_eq_some_iff] at h
      obtain ⟨b, _, rfl⟩ := h
      exact ⟨_, rfl, rfl, rfl⟩

theorem calls_record (w : World K V T) {cs : List (Call K V)} (hc : ∀ c ∈ cs, Recorded c) {j j' : Job K V T}
    (h : Job.calls w cs j = some j') : ∃ ss, j'.stmts = j.stmts ++ ss ∧ List.Forall₂ Records cs ss := by
  induction cs generalizing j with
  | nil =>
    simp only [Job.calls, Option.some.injEq] at h
    subst h
    exact ⟨[], by simp, .nil⟩
  | cons c cs ih =>
    simp only [Job.calls] at h
    cases h1 : j.call w c with
    | none => simp [h1] at h
    | some j1 =>
      rw [h1] at h
      obtain ⟨s, e1, e2⟩ := call_records w (hc c (by simp)) h1
      obtain ⟨ss, e3, e4⟩ := ih (fun c hc' => hc c (by simp [hc'])) h
      exact ⟨s :: ss, by rw [e3, e1]; simp, .cons e2 e4⟩

/-- The type names made have a factory. -/
theorem calls_made (w : World K V T) {cs : List (Call K V)} {j j' : Job K V T} (h : Job.calls w cs j = some j') :
    ∀ c, Call.create c ∈ cs → (w.fac c.typ c.name).isSome = true := by
  induction cs generalizing j with
  | nil => intro c hc; simp at hc
  | cons c cs ih =>
    simp only [Job.calls] at h
    cases h1 : j.call w c with
    | none => simp [h1] at h
    | some j1 =>
      rw [h1] at h
      intro d hd
      rcases List.mem_cons.1 hd with rfl | hd
      · simp only [Job.call, Job.create, App.new] at h1
        cases hf : w.fac d.typ d.name with
        | none => simp [hf] at h1
        | some ds => rfl
      · exact ih h d hd

/-- A world with at least the factories needed does the same. -/
theorem calls_linked (w : World K V T) (ps : List Name) {cs : List (Call K V)}
    (hl : ∀ c, Call.create c ∈ cs → (ps.any fun p => pkgOf c.typ = some p) = true) (j : Job K V T) :
    Job.calls (w.linked ps) cs j = Job.calls w cs j := by
  have hset : ∀ (a : App K V T) n k v, setProp (w.linked ps) a n k v = setProp w a n k v := fun a n k v => rfl
  have hsets : ∀ n (l : Props K V) (a : App K V T), setProps (w.linked ps) n l a = setProps w n l a := by
    intro n l
    induction l with
    | nil => intro a; rfl
    | cons x l ih =>
      intro a
      simp only [setProps, hset]
      cases setProp w a n x.1 x.2 with
      | none => rfl
      | some b => exact ih b
  induction cs generalizing j with
  | nil => rfl
  | cons c cs ih =>
    have h1 : j.call (w.linked ps) c = j.call w c := by
      cases c with
      | set r k v => rfl
      | create c =>
        have hn : App.new (w.linked ps) j.app c.typ c.name = App.new w j.app c.typ c.name := by
          have hf : (w.linked ps).fac c.typ c.name = w.fac c.typ c.name := by
            show (if _ then _ else _) = _
            rw [if_pos (hl c (by simp))]
          simp only [App.new, hf]
        simp only [Job.call, Job.create, hn, hsets]
    simp only [Job.calls, h1]
    cases j.call w c with
    | none => rfl
    | some j1 => exact ih (fun c hc => hl c (by simp [hc])) j1

/-! ### What is written -/

omit [DecidableEq K] in
theorem evalProps_lit (ev : E → Option V) (lit : V → E) (ps : Props K V) (h : ∀ p ∈ ps, ev (lit p.2) = some p.2) :
    evalProps ev (ps.map fun p => (p.1, lit p.2)) = some ps := by
  induction ps with
  | nil => rfl
  | cons p ps ih =>
    simp only [List.map_cons, evalProps, h p (by simp), Option.bind_some,
      ih fun q hq => h q (by simp [hq]), Option.map_some]

omit [DecidableEq K] in
theorem evalProps_perm (ev : E → Option V) {a b : Props K E} (h : a.Perm b) :
    ∀ {x : Props K V}, evalProps ev a = some x → ∃ y, evalProps ev b = some y ∧ x.Perm y := by
  induction h with
  | nil => intro x hx; exact ⟨x, hx, .refl _⟩
  | cons p _ ih =>
    intro x hx
    simp only [evalProps] at hx ⊢
    cases hp : ev p.2 with
    | none => simp [hp] at hx
    | some v =>
      simp only [hp, Option.bind_some, Option.map_eq_some_iff] at hx ⊢
      obtain ⟨l, hl, rfl⟩ := hx
      obtain ⟨y, hy, hxy⟩ := ih hl
      exact ⟨_, ⟨y, hy, rfl⟩, hxy.cons _⟩
  | swap p q l =>
    intro x hx
    simp only [evalProps] at hx ⊢
    cases hp : ev p.2 with
    | none => cases hq : ev q.2 <;> simp [hp, hq] at hx
    | some v =>
      cases hq : ev q.2 with
      | none => simp [hq] at hx
      | some u =>
        simp only [hp, hq, Option.bind_some, Option.map_map, Option.map_eq_some_iff] at hx ⊢
        obtain ⟨l', hl, rfl⟩ := hx
        exact ⟨_, ⟨l', hl, rfl⟩, .swap _ _ _⟩
  | trans _ _ ih1 ih2 =>
    intro x hx
    obtain ⟨y, hy, h1⟩ := ih1 hx
    obtain ⟨z, hz, h2⟩ := ih2 hy
    exact ⟨z, hz, h1.trans h2⟩

omit [DecidableEq K] in
/-- Properties which are not an empty map come back the same. -/
theorem reprProps_same (ev : E → Option V) (lit : V → E) (ord : Props K E → Props K E) (hord : ∀ l, (ord l).Perm l)
    {ps : Option (Props K V)} (hne : ps ≠ some []) (h : ∀ p ∈ ps.getD [], ev (lit p.2) = some p.2) :
    ∃ qs, evalOpt ev (reprProps lit ord ps) = some qs ∧ SameProps ps qs := by
  cases ps with
  | none => exact ⟨none, rfl, trivial⟩
  | some l =>
    cases l with
    | nil => exact absurd rfl hne
    | cons p l =>
      obtain ⟨y, hy, hxy⟩ := evalProps_perm ev (hord _).symm (evalProps_lit ev lit (p :: l) h)
      refine ⟨some y, ?_, hxy⟩
      simp only [reprProps, Option.getD_some, evalOpt]
      rw [hy]
      rfl

omit [DecidableEq K] in
theorem line_same (ev : E → Option V) (lit : V → E) (ord : Props K E → Props K E) (hord : ∀ l, (ord l).Perm l)
    {c : Call K V} {s : Stmt K V} (hc : Recorded c) (hr : Records c s) (hv : ∀ v ∈ c.vals, ev (lit v) = some v) :
    ∃ e c', line lit ord s = [e] ∧ evalCall ev e = some c' ∧ SameCall c c' := by
  cases c with
  | create c =>
    cases s with
    | newApp d => exact absurd hr id
    | setProp d => exact absurd hr id
    | create d =>
      have hr' : c = d := hr
      subst hr'
      obtain ⟨ps, hps, hne, _⟩ := hc
      have hv' : ∀ p ∈ c.props.getD [], ev (lit p.2) = some p.2 := by
        intro p hp
        exact hv p.2 (List.mem_map.2 ⟨p, hp, rfl⟩)
      obtain ⟨qs, hq, hsame⟩ := reprProps_same ev lit ord hord (ps := c.props) (by rw [hps]; simpa using hne) hv'
      refine ⟨_, .create ⟨c.name, c.typ, qs⟩, rfl, ?_, ?_⟩
      · simp only [evalCall, hq, Option.map_some]
      · exact ⟨rfl, rfl, hsame⟩
  | set r k v =>
    obtain ⟨n, rfl⟩ := hc
    cases s with
    | newApp d => exact absurd hr id
    | create d => exact absurd hr id
    | setProp d =>
      obtain ⟨e1, e2⟩ := hr
      refine ⟨.set (.comp d.name) k (lit v), .set (.comp n) k v, ?_, ?_, rfl, rfl, rfl⟩
      · simp [line, e2]
      · simp only [evalCall, hv v (by simp [Call.vals]), Option.map_some, e1]

omit [DecidableEq K] in
theorem lines_same (ev : E → Option V) (lit : V → E) (ord : Props K E → Props K E) (hord : ∀ l, (ord l).Perm l)
    {cs : List (Call K V)} {ss : List (Stmt K V)} (hr : List.Forall₂ Records cs ss) (hc : ∀ c ∈ cs, Recorded c)
    (hv : ∀ c ∈ cs, ∀ v ∈ c.vals, ev (lit v) = some v) :
    ∃ cs', evalCalls ev (ss.flatMap (line lit ord)) = some cs' ∧ List.Forall₂ SameCall cs cs' := by
  induction hr with
  | nil => exact ⟨[], rfl, .nil⟩
  | @cons c s cs ss h _ ih =>
    obtain ⟨e, c', h1, h2, h3⟩ := line_same ev lit ord hord (hc c (by simp)) h (hv c (by simp))
    obtain ⟨cs', h4, h5⟩ := ih (fun c hc' => hc c (by simp [hc'])) fun c hc' => hv c (by simp [hc'])
    refine ⟨c' :: cs', ?_, .cons h3 h5⟩
    simp only [List.flatMap_cons, h1, List.cons_append, List.nil_append, evalCalls, h2, h4, Option.bind_some, Option.map_some]

theorem mem_keys {ns : List Name} {n : Name} : n ∈ keys ns ↔ n ∈ ns := by
  induction ns with
  | nil => simp [keys]
  | cons m ns ih =>
    simp only [keys]
    split
    · rename_i h
      rw [ih, List.mem_cons]
      constructor
      · exact .inr
      · rintro (rfl | h')
        · exact h
        · exact h'
    · rw [List.mem_cons, List.mem_cons, ih]

theorem nodup_keys (ns : List Name) : (keys ns).Nodup := by
  induction ns with
  | nil => exact .nil
  | cons m ns ih =>
    simp only [keys]
    split
    · exact ih
    · rename_i h
      exact List.nodup_cons.2 ⟨fun hm => h (mem_keys.1 hm), ih⟩

theorem mapM_pkgs {ts : List Name} (h : ∀ t ∈ ts, '.' ∈ t) :
    ∃ ds, ts.mapM pkgOf = some ds ∧ ∀ t ∈ ts, ∃ d ∈ ds, pkgOf t = some d := by
  induction ts with
  | nil => exact ⟨[], rfl, by simp⟩
  | cons t ts ih =>
    obtain ⟨ds, h1, h2⟩ := ih fun t ht => h t (by simp [ht])
    have : ∃ d, pkgOf t = some d := by
      simp only [pkgOf, h t (by simp), if_true]
      exact ⟨_, rfl⟩
    obtain ⟨d, hd⟩ := this
    refine ⟨d :: ds, by simp [List.mapM_cons, hd, h1], ?_⟩
    intro u hu
    rcases List.mem_cons.1 hu with rfl | hu
    · exact ⟨d, by simp, hd⟩
    · obtain ⟨e, he, hp⟩ := h2 u hu
      exact ⟨e, by simp [he], hp⟩

/-- **C157 (partial).** A job whose components are created with at least one property each, and which sets the properties of
its application only when it is made, is saved as a program; that program compiles, and running it gives an application with
the same components and the same values of all their properties, and a job with the same statements.

`lit` is the text of a value and `ev` what the text means; the property values used must be read back by it. The types made
have a package, as all registered types do, and the packages of the values have names different from each other and from `job`.
Missing: components created with no property or with an empty map, and properties of the application set later
(`C157_bare_counterexample`, `C157_app_counterexample`). -/
theorem C157_replay_partial (w : World K V T) (base : Name → Name) (jobPkg : Name) (lit : V → E) (ev : E → Option V)
    (ord : Props K E → Props K E) (hord : ∀ l, (ord l).Perm l) {ps : Option (Props K V)} {cs : List (Call K V)}
    (hps : ps ≠ some []) (hk : ((ps.getD []).map Prod.fst).Nodup) (hc : ∀ c ∈ cs, Recorded c)
    (hv0 : ∀ p ∈ ps.getD [], ev (lit p.2) = some p.2) (hv : ∀ c ∈ cs, ∀ v ∈ c.vals, ev (lit v) = some v)
    (hdot : ∀ t n, (w.fac t n).isSome = true → '.' ∈ t)
    {j : Job K V T} (h : configure w ps cs = some j)
    (hbase : ∀ named : List Name, named.Nodup → (∀ p ∈ named, p ≠ [] ∧ ∃ s ∈ j.stmts, ∃ q ∈ s.cfg.props.getD [], w.pkg q.2 = p) →
      ((jobPkg :: named).map base).Nodup) :
    ∃ out prog i, (Enc.new.save w lit ord j.stmts).2 = .wrote out ∧ compile base jobPkg ev out = some prog ∧
      runProg w prog = some i ∧ i.app = j.app ∧ List.Forall₂ SameStmt j.stmts i.stmts := by
  have h0 := h
  simp only [configure] at h
  cases h1 : newJob w ps with
  | none => simp [h1] at h
  | some j1 =>
    rw [h1] at h
    simp only [Option.bind_some] at h
    obtain ⟨ss, e1, e2⟩ := calls_record w hc h
    have e0 : j1.stmts = [.newApp ⟨appName, appType, ps⟩] := by
      simp only [newJob, Option.map_eq_some_iff] at h1
      obtain ⟨a, _, rfl⟩ := h1
      rfl
    rw [e0] at e1
    -- every statement which makes a component is the application or a call
    have hmade : ∀ t ∈ j.stmts.flatMap Stmt.made, t = appType ∨ ∃ c, Call.create c ∈ cs ∧ c.typ = t := by
      rw [e1]
      intro t ht
      simp only [List.cons_append, List.nil_append, List.flatMap_cons, Stmt.made, List.mem_cons,
        List.mem_flatMap] at ht
      rcases ht with rfl | ⟨s, hs, ht⟩
      · exact .inl rfl
      · refine .inr ?_
        clear e1 h h0
        induction e2 with
        | nil => simp at hs
        | @cons c s' cs ss hr _ ih =>
          rcases List.mem_cons.1 hs with rfl | hs
          · cases s with
            | newApp d => cases c <;> first | exact absurd hr id | (rename_i r _ _; cases r <;> exact absurd hr id)
            | setProp d => simp at ht
            | create d =>
              cases c with
              | set r k v => cases r <;> exact absurd hr id
              | create c =>
                have hr' : c = d := hr
                subst hr'
                simp only [List.mem_singleton] at ht
                exact ⟨c, by simp, ht.symm⟩
          · obtain ⟨c', hc', ht'⟩ := ih (fun c hc' => hc c (by simp [hc'])) (fun c hc' => hv c (by simp [hc'])) hs
            exact ⟨c', by simp [hc'], ht'⟩
    have hmadedot : ∀ t ∈ j.stmts.flatMap Stmt.made, '.' ∈ t := by
      intro t ht
      rcases hmade t ht with rfl | ⟨c, hcm, rfl⟩
      · decide
      · exact hdot _ _ (calls_made w h c hcm)
    obtain ⟨ds, d1, d2⟩ := mapM_pkgs hmadedot
    have d1' : madePkgs j.stmts = some ds := d1
    obtain ⟨cs', c1, c2⟩ := lines_same ev lit ord hord e2 hc hv
    obtain ⟨qs, q1, q2⟩ := reprProps_same ev lit ord hord hps hv0
    -- the source
    have hout : (Enc.new.save w lit ord j.stmts).2 = .wrote
        [.clause, .imports (keys (valPkgs w j.stmts)) ((keys ds).filter (· ∉ keys (valPkgs w j.stmts))),
          .newApp (reprProps lit ord ps), .config (ss.flatMap (line lit ord))] := by
      have hl : j.stmts.flatMap (line lit ord) = ss.flatMap (line lit ord) := by rw [e1]; rfl
      simp only [Enc.save, Enc.encode, Enc.new, Enc.header, d1', Bool.false_eq_true, if_false, hl]
      rw [e1]
      simp [firstApp]
    have hcomp : compile base jobPkg ev [.clause, .imports (keys (valPkgs w j.stmts))
        ((keys ds).filter (· ∉ keys (valPkgs w j.stmts))), .newApp (reprProps lit ord ps), .config (ss.flatMap (line lit ord))] =
        some (jobPkg :: keys (valPkgs w j.stmts) ++ (keys ds).filter (· ∉ keys (valPkgs w j.stmts)), qs, cs') := by
      have hn : ((jobPkg :: keys (valPkgs w j.stmts)).map base).Nodup := by
        refine hbase _ (nodup_keys _) fun p hp => ?_
        have := mem_keys.1 hp
        simp only [valPkgs, List.mem_filter, List.mem_flatMap, List.mem_map, decide_eq_true_eq] at this
        obtain ⟨⟨s, hs, q, hq, rfl⟩, hne⟩ := this
        exact ⟨hne, s, hs, q, hq, rfl⟩
      simp only [compile, hn, if_true, q1, c1, Option.bind_some, Option.map_some]
    -- the run
    have hkeyed : ∀ c ∈ cs, Keyed c := by
      intro c hcm
      have := hc c hcm
      cases c with
      | set r k v => trivial
      | create c =>
        obtain ⟨l, hl, _, hn⟩ := this
        intro l' hl'
        rw [hl] at hl'
        obtain rfl := Option.some.inj hl'
        exact hn
    obtain ⟨i, i1, i2, i3⟩ := C157_order w q2 c2 hk hkeyed h0
    refine ⟨_, _, i, hout, hcomp, ?_, i3.symm, i2⟩
    simp only [runProg, configure]
    rw [← i1]
    simp only [configure]
    have hnew : newJob (w.linked (jobPkg :: keys (valPkgs w j.stmts) ++ (keys ds).filter (· ∉ keys (valPkgs w j.stmts)))) qs =
        newJob w qs := by
      have hsets : ∀ n (l : Props K V) (a : App K V T) ps, setProps (w.linked ps) n l a = setProps w n l a := by
        intro n l
        induction l with
        | nil => intro a _; rfl
        | cons x l ih =>
          intro a ps
          simp only [setProps]
          show (setProp w a n x.1 x.2).bind _ = _
          cases setProp w a n x.1 x.2 with
          | none => rfl
          | some b => exact ih b ps
      simp only [newJob, hsets]
      rfl
    rw [hnew]
    cases newJob w qs with
    | none => rfl
    | some jj =>
      refine calls_linked w _ ?_ jj
      intro c hcm
      -- the type is one of the types made
      have hin : c.typ ∈ j.stmts.flatMap Stmt.made := by
        rw [e1]
        simp only [List.cons_append, List.nil_append, List.flatMap_cons, List.mem_append, List.mem_flatMap]
        refine .inr ?_
        clear e1 h h0 hmade hmadedot c1 hout hcomp i1
        induction e2 generalizing cs' with
        | nil => cases c2; simp at hcm
        | @cons a s cs ss hr _ ih =>
          cases c2 with
          | @cons _ b _ cs'' hab hrest =>
            rcases List.mem_cons.1 hcm with rfl | hcm
            · refine ⟨s, by simp, ?_⟩
              cases a with
              | set r k v => exact absurd hab id
              | create a =>
                cases s with
                | newApp d => exact absurd hr id
                | setProp d => exact absurd hr id
                | create d =>
                  have hr' : a = d := hr
                  subst hr'
                  simp [Stmt.made, hab.2.1]
            · obtain ⟨s', hs', ht'⟩ := ih (fun c hc' => hc c (by simp [hc'])) (fun c hc' => hv c (by simp [hc'])) cs'' hrest
                (fun c hc' => hkeyed c (by simp [hc'])) hcm
              exact ⟨s', by simp [hs'], ht'⟩
      obtain ⟨d, hd, hp⟩ := d2 _ hin
      refine List.any_eq_true.2 ⟨d, ?_, by simp [hp]⟩
      by_cases hm : d ∈ keys (valPkgs w j.stmts)
      · simp [hm]
      · simp [hm, mem_keys.2 hd]

/-! ### What a configuration does -/

/-- The last value a list of properties gives to a key. -/
def lastIn (ps : Props K V) (k : K) : Option V := ps.foldl (fun o p => if p.1 = k then some p.2 else o) none

/-- What one call gives to a property of a component. -/
def Call.gives (n : Name) (k : K) : Call K V → Option V
  | .create c => if c.name = n then lastIn (c.props.getD []) k else none
  | .set .app k' v => if n = appName ∧ k' = k then some v else none
  | .set (.comp m) k' v => if m = n ∧ k' = k then some v else none

/-- The last value given to the property of a component. -/
def lastGiven (n : Name) (k : K) (cs : List (Call K V)) : Option V :=
  cs.foldl (fun o c => (c.gives n k).or o) none

theorem setProp_get (w : World K V T) {a b : App K V T} {n : Name} {k : K} {v : V} (h : setProp w a n k v = some b)
    (m : Name) (k' : K) : b.getProp m k' = if m = n ∧ k' = k then some v else a.getProp m k' := by
  obtain ⟨f, d, h1, h2, h3, rfl⟩ := (setProp_eq ..).1 h
  by_cases hm : m = n
  · subst hm
    by_cases hk : k' = k
    · subst hk; simp [App.getProp, upd]
    · simp [App.getProp, upd, hk, h1]
  · simp [App.getProp, upd, hm]

theorem setProps_get (w : World K V T) {n : Name} {ps : Props K V} {a b : App K V T} (h : setProps w n ps a = some b)
    (m : Name) (k : K) : b.getProp m k = if m = n then (lastIn ps k).or (a.getProp m k) else a.getProp m k := by
  have key : ∀ (ps : Props K V) (o : Option V) (g : Option V),
      (ps.foldl (fun o p => if p.1 = k then some p.2 else o) o).or g =
        (ps.foldl (fun o p => if p.1 = k then some p.2 else o) none).or (o.or g) := by
    intro ps
    induction ps with
    | nil => intro o g; simp
    | cons p ps ih =>
      intro o g
      simp only [List.foldl_cons]
      by_cases hp : p.1 = k
      · simp only [hp, if_true]
        rw [ih (some p.2) g, ih (some p.2) (o.or g)]
        simp
      · simp only [hp, if_false]
        exact ih o g
  induction ps generalizing a with
  | nil =>
    simp only [setProps, Option.some.injEq] at h
    subst h
    simp [lastIn]
  | cons p ps ih =>
    simp only [setProps] at h
    cases h1 : setProp w a n p.1 p.2 with
    | none => simp [h1] at h
    | some a' =>
      rw [h1] at h
      rw [ih h, setProp_get w h1]
      by_cases hm : m = n
      · simp only [hm, if_true, true_and, lastIn, List.foldl_cons]
        by_cases hk : k = p.1
        · subst hk
          simp only [if_true]
          rw [key ps (some p.2)]
          simp
        · have : p.1 ≠ k := fun e => hk e.symm
          simp [hk, this]
      · simp [hm]

theorem call_get (w : World K V T) {c : Call K V} {j j' : Job K V T} (h : j.call w c = some j') (n : Name) (k : K) {v : V}
    (hv : c.gives n k = some v) : j'.app.getProp n k = some v := by
  cases c with
  | create c =>
    simp only [Job.call, Job.create] at h
    simp only [Call.gives] at hv
    by_cases hn : c.name = n
    · simp only [hn, if_true] at hv
      cases ha : App.new w j.app c.typ c.name with
      | none => simp [ha] at h
      | some a =>
        simp only [ha] at h
        cases hp : c.props with
        | none => simp [hp, lastIn] at hv
        | some ps =>
          simp only [hp, Option.map_eq_some_iff] at h
          obtain ⟨b, hb, rfl⟩ := h
          show b.getProp n k = _
          rw [setProps_get w hb, if_pos hn.symm]
          simp only [hp, Option.getD_some] at hv
          simp [hv]
    · simp [hn] at hv
  | set r k' v' =>
    simp only [Job.call, Job.set] at h
    cases hf : j.find r with
    | none => simp [hf] at h
    | some c =>
      simp only [hf, Option.map_eq_some_iff] at h
      obtain ⟨b, hb, rfl⟩ := h
      show b.getProp n k = _
      rw [setProp_get w hb]
      cases r with
      | app =>
        simp only [Job.find, Option.some.injEq] at hf
        subst hf
        simp only [Call.gives] at hv
        split at hv
        · rename_i hh
          rw [if_pos ⟨hh.1, hh.2.symm⟩]
          exact hv
        · simp at hv
      | comp m =>
        simp only [Job.find, Option.map_eq_some_iff] at hf
        obtain ⟨t, _, rfl⟩ := hf
        simp only [Call.gives] at hv
        split at hv
        · rename_i hh
          rw [if_pos ⟨hh.1.symm, hh.2.symm⟩]
          exact hv
        · simp at hv

theorem new_get (w : World K V T) {a b : App K V T} {t n : Name} (h : a.new w t n = some b) {m : Name} {k : K} {v : V}
    (hv : a.getProp m k = some v) : b.getProp m k = some v := by
  simp only [App.new] at h
  cases hf : w.fac t n with
  | none => simp [hf] at h
  | some ds =>
    simp only [hf] at h
    split at h
    · simp at h
    · rename_i hn
      split at h
      · simp at h
      · simp only [Option.some.injEq] at h
        subst h
        have : m ≠ n := by
          intro e
          subst e
          cases hp : a.props m <;> simp_all [App.getProp]
        simpa [App.getProp, upd, this] using hv

theorem call_keep (w : World K V T) {c : Call K V} {j j' : Job K V T} (h : j.call w c = some j') (n : Name) (k : K) {v : V}
    (hg : c.gives n k = none) (hv : j.app.getProp n k = some v) : j'.app.getProp n k = some v := by
  cases c with
  | create c =>
    simp only [Job.call, Job.create] at h
    cases ha : App.new w j.app c.typ c.name with
    | none => simp [ha] at h
    | some a =>
      simp only [ha] at h
      cases hp : c.props with
      | none =>
        simp only [hp, Option.some.injEq] at h
        subst h
        exact new_get w ha hv
      | some ps =>
        simp only [hp, Option.map_eq_some_iff] at h
        obtain ⟨b, hb, rfl⟩ := h
        show b.getProp n k = _
        rw [setProps_get w hb]
        simp only [Call.gives, hp, Option.getD_some] at hg
        split
        · rename_i hn
          rw [if_pos hn.symm] at hg
          rw [hg]
          simpa using new_get w ha hv
        · exact new_get w ha hv
  | set r k' v' =>
    simp only [Job.call, Job.set] at h
    cases hf : j.find r with
    | none => simp [hf] at h
    | some c =>
      simp only [hf, Option.map_eq_some_iff] at h
      obtain ⟨b, hb, rfl⟩ := h
      show b.getProp n k = _
      rw [setProp_get w hb]
      rw [if_neg]
      · exact hv
      · rintro ⟨h1, h2⟩
        cases r with
        | app =>
          simp only [Job.find, Option.some.injEq] at hf
          subst hf
          simp [Call.gives, h1, h2] at hg
        | comp m =>
          simp only [Job.find, Option.map_eq_some_iff] at hf
          obtain ⟨t, _, rfl⟩ := hf
          simp [Call.gives, h1, h2] at hg

theorem calls_get (w : World K V T) {cs : List (Call K V)} {j j' : Job K V T} (h : Job.calls w cs j = some j') (n : Name) (k : K)
    (o : Option V) (ho : ∀ v, o = some v → j.app.getProp n k = some v) {v : V}
    (hv : cs.foldl (fun o c => (c.gives n k).or o) o = some v) : j'.app.getProp n k = some v := by
  induction cs generalizing j o with
  | nil =>
    simp only [Job.calls, Option.some.injEq] at h
    subst h
    exact ho v hv
  | cons c cs ih =>
    simp only [Job.calls] at h
    cases h1 : j.call w c with
    | none => simp [h1] at h
    | some j1 =>
      rw [h1] at h
      refine ih h _ ?_ hv
      intro u hu
      replace hu : (c.gives n k).or o = some u := hu
      cases hg : c.gives n k with
      | none =>
        rw [hg] at hu
        simp only [Option.none_or] at hu
        exact call_keep w h1 n k hg (ho u hu)
      | some x =>
        rw [hg] at hu
        simp only [Option.some_or, Option.some.injEq] at hu
        subst hu
        exact call_get w h1 n k hg

/-- **C157, values.** After a configuration, a property of a component has the last value given to it, by the map the component
was created with or by a later `SetProp`. -/
theorem C157_last (w : World K V T) {ps : Option (Props K V)} {cs : List (Call K V)} {j : Job K V T}
    (h : configure w ps cs = some j) (n : Name) (k : K) {v : V} (hv : lastGiven n k cs = some v) :
    j.app.getProp n k = some v := by
  simp only [configure] at h
  cases h1 : newJob w ps with
  | none => simp [h1] at h
  | some j1 =>
    rw [h1] at h
    exact calls_get w h n k none (by simp) hv

/-! ### Property values and their texts -/

/-- Some values: strings, the integers of the language, and the levels of the messages (fwk/core.go:172-181). -/
inductive Val
  | str (s : List Char)
  | int (i : Int)
  | level (i : Int)
  deriving DecidableEq

/-- Their types. -/
inductive Ty
  | str
  | int
  | level
  deriving DecidableEq

/-- The texts of values: quoted, or a conversion of what the verb `%v` prints. -/
inductive Text
  | quoted (s : List Char)
  | conv (t : Ty) (s : List Char)
  deriving DecidableEq

/-- The string of a level (fwk/core.go:198-210); a panic in it is printed by the formatting package. -/
def levelText (i : Int) : List Char :=
  if i = -10 then ['D', 'E', 'B', 'U', 'G']
  else if i = 0 then ['I', 'N', 'F', 'O']
  else if i = 10 then ['W', 'A', 'R', 'N']
  else if i = 20 then ['E', 'R', 'R', 'O', 'R']
  else ['%', '!', 'v']

/-- The text of a value (fwk/job/gocodec.go:207-226). -/
def litVal : Val → Text
  | .str s => .quoted s
  | .int i => .conv .int (Strconv.formatInt i)
  | .level i => .conv .level (levelText i)

/-- What a text means to the compiler: a conversion is of a decimal number (a name which is not declared is an error). -/
def evVal : Text → Option Val
  | .quoted s => some (.str s)
  | .conv .str _ => none
  | .conv .int s => (Strconv.parseInt 64 s).map .int
  | .conv .level s => (Strconv.parseInt 64 s).map .level

def tyVal : Val → Ty
  | .str _ => .str
  | .int _ => .int
  | .level _ => .level

/-- **C157, texts.** Strings and integers are written as texts which mean the same values. -/
theorem C157_texts (v : Val) (h : ∀ i, v ≠ .level i) (hr : ∀ i, v = .int i → -(2 ^ 63) ≤ i ∧ i < 2 ^ 63) :
    evVal (litVal v) = some v := by
  cases v with
  | str s => rfl
  | int i =>
    obtain ⟨h1, h2⟩ := hr i rfl
    simp only [litVal, evVal]
    rw [Strconv.parseInt_format (by simpa using h1) (by simpa using h2)]
    rfl
  | level i => exact absurd rfl (h i)

/-- **C157, counterexample.** No level of the messages is written as a text with a meaning: `fwk.Level(INFO)`. -/
theorem C157_level_counterexample : ∀ i ∈ [(-10 : Int), 0, 10, 20], evVal (litVal (.level i)) = none := by decide +kernel

/-! ### An example -/

/-- A task with two properties, `0` a string and `1` an integer; the application has an integer `0` and a level `1`. -/
def taskType : Name := ['a', '/', 'b', '.', 'T']

def exWorld : World Nat Val Ty where
  fac t _ := if t = taskType then some [(0, .str, .str []), (1, .int, .int 5)] else none
  typ := tyVal
  asg a b := a = b
  pkg v := match v with
    | .level _ => ['f', 'w', 'k']
    | _ => []
  app := [(0, .int, .int (-1)), (1, .level, .level 0)]

def exBase (p : Name) : Name := (p.reverse.takeWhile (· ≠ '/')).reverse

def exJob : Name := ['f', 'w', 'k', '/', 'j', 'o', 'b']

/-- Two tasks, and a property of the first set later. -/
def exCalls : List (Call Nat Val) :=
  [.create ⟨['x'], taskType, some [(0, .str ['u']), (1, .int (-7))]⟩, .create ⟨['y'], taskType, some [(1, .int 8)]⟩,
   .set (.comp ['x']) 1 (.int 9)]

def exObs (j : Job Nat Val Ty) : List (Option Val) :=
  [j.app.getProp ['x'] 0, j.app.getProp ['x'] 1, j.app.getProp ['y'] 0, j.app.getProp ['y'] 1, j.app.getProp appName 0]

/-- The program written for a job and run again. -/
def again (j : Job Nat Val Ty) : Option (Job Nat Val Ty) :=
  match (Enc.new.save exWorld litVal List.reverse j.stmts).2 with
  | .wrote out => (compile exBase exJob evVal out).bind (runProg exWorld)
  | _ => none

example : (configure exWorld (some [(0, .int 10)]) exCalls).map exObs =
    some [some (.str ['u']), some (.int 9), some (.str []), some (.int 8), some (.int 10)] := by decide +kernel

example : (∀ c ∈ exCalls, ∀ v ∈ c.vals, evVal (litVal v) = some v) ∧
    ((configure exWorld (some [(0, .int 10)]) exCalls).bind again).map exObs =
    some [some (.str ['u']), some (.int 9), some (.str []), some (.int 8), some (.int 10)] := by
  refine ⟨by decide +kernel, by decide +kernel⟩

example : ∀ c ∈ exCalls, Recorded c := by
  intro c hc
  simp only [exCalls, List.mem_cons, List.not_mem_nil, or_false] at hc
  rcases hc with rfl | rfl | rfl
  · exact ⟨_, rfl, by simp, by decide⟩
  · exact ⟨_, rfl, by simp, by decide⟩
  · exact ⟨_, rfl⟩

example : lastGiven ['x'] 1 exCalls = some (.int 9) := by decide +kernel

/-- **C157, counterexample.** A component created with no property is not recorded: the program written does not have it. -/
theorem C157_bare_counterexample : ∃ j i : Job Nat Val Ty,
    configure exWorld none [.create ⟨['x'], taskType, none⟩] = some j ∧ again j = some i ∧
      (j.app.comps ['x']).isSome = true ∧ i.app.comps ['x'] = none := by
  refine ⟨_, _, rfl, rfl, ?_, ?_⟩ <;> decide +kernel

/-- **C157, counterexample.** A property of the application set after the job was made is saved as that of a component which
does not exist: the program written panics. -/
theorem C157_app_counterexample : ∃ j : Job Nat Val Ty,
    configure exWorld none [.set .app 0 (.int 3)] = some j ∧ j.app.getProp appName 0 = some (.int 3) ∧
      ∃ out prog, (Enc.new.save exWorld litVal id j.stmts).2 = .wrote out ∧ compile exBase exJob evVal out = some prog ∧
        (runProg exWorld prog).isNone = true := by
  refine ⟨_, rfl, ?_, _, _, rfl, rfl, ?_⟩ <;> decide +kernel

/-- **C157, counterexample.** An encoder used for a second job writes the first one again, and two functions `config`: what
it wrote does not compile. -/
theorem C157_twice_counterexample : ∃ j : Job Nat Val Ty, configure exWorld none [] = some j ∧
    ∃ out, ((Enc.new.save exWorld litVal id j.stmts).1.save exWorld litVal id j.stmts).2 = .wrote out ∧
      (compile exBase exJob evVal out).isNone = true := by
  refine ⟨_, rfl, _, rfl, ?_⟩; decide +kernel

/-- **C157, counterexample.** The level of the messages of an application cannot be saved. -/
theorem C157_msglevel_counterexample : ∃ j : Job Nat Val Ty, configure exWorld (some [(1, .level 10)]) [] = some j ∧
    ∃ out, (Enc.new.save exWorld litVal id j.stmts).2 = .wrote out ∧ (compile exBase exJob evVal out).isNone = true := by
  refine ⟨_, rfl, _, rfl, ?_⟩; decide +kernel

/-- **C157.** The package of a type is what its name has before the last dot, and a name without a dot has none: the imports
written for the values of a job are the packages of their types, also when the path of a package has dots. -/
theorem C157_package : (∀ p n : Name, '.' ∉ n → pkgOf (p ++ '.' :: n) = some p) ∧ ∀ n : Name, '.' ∉ n → pkgOf n = none := by
  refine ⟨fun p n h => ?_, fun n h => by simp [pkgOf, h]⟩
  have h1 : ∀ m r : Name, '.' ∉ m → (m ++ '.' :: r).dropWhile (· ≠ '.') = '.' :: r := by
    intro m r hm
    induction m with
    | nil => simp
    | cons c m ih =>
      simp only [List.mem_cons, not_or] at hm
      have : c ≠ '.' := fun hc => hm.1 hc.symm
      simp only [List.cons_append, List.dropWhile_cons, this, ne_eq, not_false_eq_true, decide_true, if_true]
      exact ih hm.2
  simp only [pkgOf, List.mem_append, List.mem_cons, true_or, or_true, if_true, Option.some.injEq]
  rw [List.reverse_append, List.reverse_cons, List.append_assoc, List.singleton_append, h1 _ _ (by simpa using h)]
  simp

example : pkgOf "go-hep.org/x/hep/fads.Task".toList = some "go-hep.org/x/hep/fads".toList := by decide +kernel

end Verif.Job
