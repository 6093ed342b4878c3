import Verif.Fwk.Tarjan
import Mathlib.Data.List.Nodup
import Mathlib.Data.List.Perm.Basic
import Mathlib.Tactic.FinCases

/-!
# The data-flow service (fwk/dflow.go)

`N` are the names of tasks, `P` the names of ports and `T` the types of ports. The map of nodes, each with
its maps of in-ports and out-ports, is flattened to lists of ports with the name of their task. The order of
these lists is arbitrary in the theorems about `startSvc`, as is the iteration order of maps in the code.
-/

namespace Verif.Fwk

open Relation

variable {N P T : Type} [DecidableEq N] [DecidableEq P] [DecidableEq T]

/-- A declaration of a port by a task. -/
structure Port (N P T : Type) where
  task : N
  name : P
  type : T

/-- fwk/dflow.go:34-40 (`dflowsvc`): `nodes[t].in` are the ports of `ins` with task `t`, likewise for `out`. -/
structure Dflow (N P T : Type) where
  ins : List (Port N P T)
  outs : List (Port N P T)
  edges : P → Option T

/-- fwk/dflow.go:367-382 (`newDataFlowSvc`). -/
def Dflow.empty : Dflow N P T := ⟨[], [], fun _ => none⟩

/-- `node.in[name]` or `node.out[name]` exists. -/
def declared (ps : List (Port N P T)) (tsk : N) (name : P) : Bool := ps.any fun p => p.task = tsk ∧ p.name = name

/-- `svc.edges[name] = t`. -/
def Dflow.setEdge (s : Dflow N P T) (name : P) (t : T) : Dflow N P T :=
  { s with edges := fun k => if k = name then some t else s.edges k }

/-- fwk/dflow.go:151-220 (`addInNode`): the new state and whether there is no error. The text of the
error is not modelled. -/
def Dflow.addIn (s : Dflow N P T) (p : Port N P T) : Dflow N P T × Bool :=
  if declared s.ins p.task p.name then (s, false)
  else
    let s := { s with ins := p :: s.ins }
    match s.edges p.name with
    | some t => if t ≠ p.type then (s, false) else (s.setEdge p.name p.type, true)
    | none => (s.setEdge p.name p.type, true)

/-- Another task has an out-port with the name: the loop of fwk/dflow.go:220-270 (`addOutNode`). -/
def dupOut (ps : List (Port N P T)) (p : Port N P T) : Bool := ps.any fun q => q.task ≠ p.task ∧ q.name = p.name

/-- fwk/dflow.go:220-270 (`addOutNode`). -/
def Dflow.addOut (s : Dflow N P T) (p : Port N P T) : Dflow N P T × Bool :=
  if declared s.outs p.task p.name then (s, false)
  else
    let s := { s with outs := p :: s.outs }
    match s.edges p.name with
    | some _ => if dupOut s.outs p then (s, false) else (s.setEdge p.name p.type, true)
    | none => (s.setEdge p.name p.type, true)

/-- The names of the ports of a task. -/
def portsOf (ps : List (Port N P T)) (tsk : N) : List P := (ps.filter fun p => p.task = tsk).map Port.name

/-- The first loop of fwk/dflow.go:46-133 (`StartSvc`), over the out-ports `ks`, in the order in which they are
visited: the names found, or `none` if there is a duplicate. -/
def collectOut : List P → List P → Option (List P)
  | [], out => some out
  | k :: ks, out => if k ∈ out then none else collectOut ks (k :: out)

/-- `graph[n]` of fwk/dflow.go:46-133 (`StartSvc`). -/
def depGraph (s : Dflow N P T) (names : List N) (n : N) : List N :=
  (portsOf s.ins n).flatMap fun k => names.filter fun o => o ≠ n ∧ k ∈ portsOf s.outs o

/-- fwk/dflow.go:46-133 (`StartSvc`): whether it succeeds. `names` are the names of the nodes (sorted in the
code) and `order` is the order in which the graph is visited. Writing the graph to a file is not modelled. -/
def Dflow.startSvc (s : Dflow N P T) (names order : List N) : Bool :=
  match collectOut (names.flatMap (portsOf s.outs)) [] with
  | none => false
  | some out =>
    if names.all fun n => (portsOf s.ins n).all fun k => k ∈ out then
      match connections (fun n => if n ∈ names then depGraph s names n else []) names.length order with
      | none => false
      | some comps => comps.all fun c => c.length ≤ 1
    else false

/-- A call of `DeclInPort` or `DeclOutPort`. -/
inductive Decl (N P T : Type)
  | inp (p : Port N P T)
  | out (p : Port N P T)

/-- fwk/app.go:316-338 (`DeclInPort`, `DeclOutPort`), after the check of the state. -/
def Dflow.decl (s : Dflow N P T) : Decl N P T → Dflow N P T × Bool
  | .inp p => s.addIn p
  | .out p => s.addOut p

/-- The declarations of an application, in order; `none` if one of them fails (the application is not
configured then, fwk/app.go:417-484 (`configure`)). -/
def Dflow.declare (s : Dflow N P T) : List (Decl N P T) → Option (Dflow N P T)
  | [] => some s
  | d :: ds => if (s.decl d).2 then (s.decl d).1.declare ds else none

/-! ## Properties -/

/-- Task `a` needs something which task `b` makes. -/
def DependsOn (ds : List (Decl N P T)) (a b : N) : Prop :=
  ∃ p q, Decl.inp p ∈ ds ∧ Decl.out q ∈ ds ∧ p.task = a ∧ q.task = b ∧ p.name = q.name

/-- The ports recorded are the ones declared. -/
structure Records (ds : List (Decl N P T)) (s : Dflow N P T) : Prop where
  ins : ∀ p, p ∈ s.ins ↔ Decl.inp p ∈ ds
  outs : ∀ p, p ∈ s.outs ↔ Decl.out p ∈ ds
  edge : ∀ p, p ∈ s.ins ∨ p ∈ s.outs → s.edges p.name ≠ none
  one : s.outs.Pairwise fun p q => p.name ≠ q.name

omit [DecidableEq T] in
theorem declared_iff {ps : List (Port N P T)} {tsk : N} {name : P} :
    declared ps tsk name = true ↔ ∃ p ∈ ps, p.task = tsk ∧ p.name = name := by
  simp [declared]

omit [DecidableEq N] [DecidableEq T] in
theorem setEdge_ne (s : Dflow N P T) (name k : P) (t : T) (h : k = name ∨ s.edges k ≠ none) :
    (s.setEdge name t).edges k ≠ none := by
  simp only [Dflow.setEdge]
  split
  · simp
  · rename_i hk
    exact h.resolve_left hk

theorem addIn_ok {s s' : Dflow N P T} {p : Port N P T} (h : s.addIn p = (s', true)) :
    s' = ({ s with ins := p :: s.ins } : Dflow N P T).setEdge p.name p.type ∧ declared s.ins p.task p.name = false ∧
      ∀ t, s.edges p.name = some t → t = p.type := by
  simp only [Dflow.addIn] at h
  split at h
  · cases h
  · rename_i hd
    cases he : s.edges p.name with
    | none =>
      rw [he] at h
      cases h
      exact ⟨rfl, by simpa using hd, by simp⟩
    | some t =>
      rw [he] at h
      by_cases ht : t = p.type
      · simp only [ne_eq, ht, not_true_eq_false, if_false] at h
        cases h
        exact ⟨rfl, by simpa using hd, fun u hu => by cases hu; exact ht⟩
      · simp only [ne_eq, ht, not_false_eq_true, if_true] at h
        cases h

omit [DecidableEq T] in
theorem addOut_ok {s s' : Dflow N P T} {p : Port N P T} (h : s.addOut p = (s', true)) :
    s' = ({ s with outs := p :: s.outs } : Dflow N P T).setEdge p.name p.type ∧ declared s.outs p.task p.name = false ∧
      (s.edges p.name ≠ none → dupOut (p :: s.outs) p = false) := by
  simp only [Dflow.addOut] at h
  split at h
  · cases h
  · rename_i hd
    cases he : s.edges p.name with
    | none =>
      rw [he] at h
      cases h
      exact ⟨rfl, by simpa using hd, by simp⟩
    | some t =>
      rw [he] at h
      by_cases ht : dupOut (p :: s.outs) p = true
      · simp only [ht, if_true] at h; cases h
      · simp only [ht, Bool.false_eq_true, if_false] at h
        cases h
        exact ⟨rfl, by simpa using hd, fun _ => by simpa using ht⟩

theorem Records.decl {ds : List (Decl N P T)} {s s' : Dflow N P T} {d : Decl N P T} (h : Records ds s)
    (hd : s.decl d = (s', true)) : Records (ds ++ [d]) s' := by
  cases d with
  | inp p =>
    obtain ⟨rfl, hn, ht⟩ := addIn_ok hd
    refine ⟨?_, ?_, ?_, h.one⟩
    · intro q
      show q ∈ p :: s.ins ↔ _
      rw [List.mem_cons, h.ins]; simp; tauto
    · intro q
      show q ∈ s.outs ↔ _
      rw [h.outs]; simp
    · intro q hq
      refine setEdge_ne _ _ _ _ ?_
      rcases hq with hq | hq
      · rcases List.mem_cons.mp hq with rfl | hq
        · exact Or.inl rfl
        · exact Or.inr (h.edge q (Or.inl hq))
      · exact Or.inr (h.edge q (Or.inr hq))
  | out p =>
    obtain ⟨rfl, hn, ht⟩ := addOut_ok hd
    refine ⟨?_, ?_, ?_, ?_⟩
    · intro q
      show q ∈ s.ins ↔ _
      rw [h.ins]; simp
    · intro q
      show q ∈ p :: s.outs ↔ _
      rw [List.mem_cons, h.outs]; simp; tauto
    · intro q hq
      refine setEdge_ne _ _ _ _ ?_
      rcases hq with hq | hq
      · exact Or.inr (h.edge q (Or.inl hq))
      · rcases List.mem_cons.mp hq with rfl | hq
        · exact Or.inl rfl
        · exact Or.inr (h.edge q (Or.inr hq))
    · refine List.pairwise_cons.mpr ⟨?_, h.one⟩
      intro q hq he
      by_cases hqt : q.task = p.task
      · have : declared s.outs p.task p.name = true := declared_iff.mpr ⟨q, hq, hqt, he.symm⟩
        rw [hn] at this; cases this
      · have h1 := ht (he ▸ h.edge q (Or.inr hq))
        have h2 : dupOut (p :: s.outs) p = true := by
          simp only [dupOut, List.any_eq_true]
          exact ⟨q, by simp [hq], by simp [hqt, he]⟩
        rw [h1] at h2; cases h2

theorem Records.declare : ∀ {ds' ds : List (Decl N P T)} {s s' : Dflow N P T}, Records ds s → s.declare ds' = some s' →
    Records (ds ++ ds') s'
  | [], ds, s, s', h, hd => by cases hd; simpa using h
  | d :: ds', ds, s, s', h, hd => by
    simp only [Dflow.declare] at hd
    split at hd
    · rename_i hok
      have := Records.declare (h.decl (d := d) (s' := (s.decl d).1) (Prod.ext rfl hok)) hd
      simpa using this
    · cases hd

theorem records_declare {ds : List (Decl N P T)} {s : Dflow N P T} (h : Dflow.empty.declare ds = some s) : Records ds s := by
  have h0 : Records ([] : List (Decl N P T)) Dflow.empty := by constructor <;> simp [Dflow.empty]
  simpa using Records.declare h0 h

omit [DecidableEq N] [DecidableEq P] [DecidableEq T] in
theorem unique_out : ∀ {ps : List (Port N P T)}, (ps.Pairwise fun p q => p.name ≠ q.name) → ∀ {p q}, p ∈ ps → q ∈ ps →
    p.name = q.name → p = q
  | [], _, _, _, h, _, _ => by cases h
  | x :: xs, hp, p, q, h1, h2, he => by
    obtain ⟨hx, hxs⟩ := List.pairwise_cons.mp hp
    rcases List.mem_cons.mp h1 with h1 | h1 <;> rcases List.mem_cons.mp h2 with h2 | h2
    · rw [h1, h2]
    · exact absurd (h1 ▸ he) (hx q h2)
    · exact absurd (h2 ▸ he).symm (hx p h1)
    · exact unique_out hxs h1 h2 he

theorem collectOut_some : ∀ {ks out res : List P}, collectOut ks out = some res →
    ks.Nodup ∧ (∀ k ∈ ks, k ∉ out) ∧ ∀ k, k ∈ res ↔ k ∈ ks ∨ k ∈ out
  | [], out, res, h => by cases h; simp
  | k :: ks, out, res, h => by
    simp only [collectOut] at h
    split at h
    · cases h
    · rename_i hk
      obtain ⟨h1, h2, h3⟩ := collectOut_some h
      refine ⟨List.nodup_cons.mpr ⟨fun hc => h2 k hc (by simp), h1⟩, ?_, ?_⟩
      · intro x hx
        rcases List.mem_cons.mp hx with rfl | hx
        · exact hk
        · exact fun hc => h2 x hx (by simp [hc])
      · intro x
        rw [h3]; simp; tauto

theorem collectOut_nodup : ∀ {ks out : List P}, ks.Nodup → (∀ k ∈ ks, k ∉ out) → ∃ res, collectOut ks out = some res
  | [], out, _, _ => ⟨out, rfl⟩
  | k :: ks, out, h, h' => by
    simp only [collectOut]
    rw [if_neg (h' k (by simp))]
    refine collectOut_nodup (List.nodup_cons.mp h).2 ?_
    intro x hx hc
    rcases List.mem_cons.mp hc with rfl | hc
    · exact (List.nodup_cons.mp h).1 hx
    · exact h' x (by simp [hx]) hc

omit [DecidableEq P] [DecidableEq T] in
theorem mem_portsOf {ps : List (Port N P T)} {n : N} {k : P} : k ∈ portsOf ps n ↔ ∃ p ∈ ps, p.task = n ∧ p.name = k := by
  simp [portsOf, and_assoc]

omit [DecidableEq T] in
theorem mem_depGraph {s : Dflow N P T} {names : List N} {a b : N} :
    b ∈ depGraph s names a ↔ b ∈ names ∧ b ≠ a ∧ ∃ k, k ∈ portsOf s.ins a ∧ k ∈ portsOf s.outs b := by
  simp only [depGraph, List.mem_flatMap, List.mem_filter, decide_eq_true_eq, ne_eq]
  constructor
  · rintro ⟨k, h1, h2, h3, h4⟩; exact ⟨h2, h3, k, h1, h4⟩
  · rintro ⟨h2, h3, k, h1, h4⟩; exact ⟨k, h1, h2, h3, h4⟩

/-- The graph `startSvc` gives to the search for cycles. -/
abbrev flowGraph (s : Dflow N P T) (names : List N) : N → List N := fun n => if n ∈ names then depGraph s names n else []

/-- The names of the nodes: all tasks with a port. -/
def NamesOf (ds : List (Decl N P T)) (names : List N) : Prop :=
  names.Nodup ∧ ∀ n, n ∈ names ↔ ∃ p, p.task = n ∧ (Decl.inp p ∈ ds ∨ Decl.out p ∈ ds)

omit [DecidableEq T] in
theorem flowGraph_iff {ds : List (Decl N P T)} {s : Dflow N P T} {names : List N} (hr : Records ds s) (hn : NamesOf ds names)
    (a b : N) : b ∈ flowGraph s names a ↔ a ≠ b ∧ DependsOn ds a b := by
  unfold flowGraph
  constructor
  · intro h
    split at h
    · obtain ⟨_, h2, k, h3, h4⟩ := mem_depGraph.mp h
      obtain ⟨p, hp, hpt, hpn⟩ := mem_portsOf.mp h3
      obtain ⟨q, hq, hqt, hqn⟩ := mem_portsOf.mp h4
      exact ⟨fun e => h2 e.symm, p, q, (hr.ins p).mp hp, (hr.outs q).mp hq, hpt, hqt, hpn.trans hqn.symm⟩
    · cases h
  · rintro ⟨hne, p, q, hp, hq, hpt, hqt, hpq⟩
    rw [if_pos ((hn.2 a).mpr ⟨p, hpt, Or.inl hp⟩)]
    exact mem_depGraph.mpr ⟨(hn.2 b).mpr ⟨q, hqt, Or.inr hq⟩, fun e => hne e.symm, p.name,
      mem_portsOf.mpr ⟨p, (hr.ins p).mpr hp, hpt, rfl⟩, mem_portsOf.mpr ⟨q, (hr.outs q).mpr hq, hqt, hpq.symm⟩⟩

omit [DecidableEq T] in
/-- Reaching in the graph is depending, directly or not, or being the same task. -/
theorem reach_flow {ds : List (Decl N P T)} {s : Dflow N P T} {names : List N} (hr : Records ds s) (hn : NamesOf ds names)
    (a b : N) : Reach (flowGraph s names) a b ↔ a = b ∨ TransGen (DependsOn ds) a b := by
  constructor
  · intro h
    induction h with
    | refl => exact Or.inl rfl
    | tail _ hbc ih =>
      have := (flowGraph_iff hr hn _ _).mp hbc
      rcases ih with rfl | ih
      · exact Or.inr (TransGen.single this.2)
      · exact Or.inr (ih.tail this.2)
  · rintro (rfl | h)
    · exact ReflTransGen.refl
    · induction h with
      | @single c h =>
        by_cases hac : a = c
        · subst hac; exact ReflTransGen.refl
        · exact ReflTransGen.single ((flowGraph_iff hr hn _ _).mpr ⟨hac, h⟩)
      | @tail b c _ hbc ih =>
        by_cases hac : b = c
        · subst hac; exact ih
        · exact ih.tail ((flowGraph_iff hr hn _ _).mpr ⟨hac, hbc⟩)

/-- C47: if the declarations are accepted and the service starts, each input has exactly one producer, and no
two tasks depend on each other, directly or through others. The full statement has
`∀ a, ¬ TransGen (DependsOn ds) a a` in place of the last part, see `C47_self_counterexample`. -/
theorem C47_accepted_partial (ds : List (Decl N P T)) (s : Dflow N P T) (names order : List N)
    (hd : Dflow.empty.declare ds = some s) (hn : NamesOf ds names) (ho : order.Perm names)
    (h : s.startSvc names order = true) :
    (∀ p, Decl.inp p ∈ ds → ∃ q, Decl.out q ∈ ds ∧ q.name = p.name ∧ ∀ q', Decl.out q' ∈ ds → q'.name = p.name → q' = q) ∧
    ∀ a b, TransGen (DependsOn ds) a b → TransGen (DependsOn ds) b a → a = b := by
  have hr := records_declare hd
  simp only [Dflow.startSvc] at h
  split at h
  · cases h
  · rename_i out hout
    split at h
    · rename_i hin
      split at h
      · cases h
      · rename_i comps hc
        have hco := collectOut_some hout
        constructor
        · intro p hp
          have hpn : p.task ∈ names := (hn.2 _).mpr ⟨p, rfl, Or.inl hp⟩
          rw [List.all_eq_true] at hin
          have h1 := hin p.task hpn
          rw [List.all_eq_true] at h1
          have h2 := h1 p.name (mem_portsOf.mpr ⟨p, (hr.ins p).mpr hp, rfl, rfl⟩)
          rw [decide_eq_true_eq, hco.2.2] at h2
          have h3 := h2.resolve_right (by simp)
          obtain ⟨n, _, hk⟩ := List.mem_flatMap.mp h3
          obtain ⟨q, hq, _, hqn⟩ := mem_portsOf.mp hk
          refine ⟨q, (hr.outs q).mp hq, hqn, ?_⟩
          intro q' hq' hqn'
          exact unique_out hr.one ((hr.outs q').mpr hq') hq (hqn'.trans hqn.symm)
        · intro a b hab hba
          have hmem : ∀ x y, TransGen (DependsOn ds) x y → x ∈ names := by
            intro x y hxy
            obtain ⟨z, ⟨p, q, hp, _, hpt, _⟩, _⟩ := TransGen.head'_iff.mp hxy
            exact (hn.2 x).mpr ⟨p, hpt, Or.inl hp⟩
          obtain ⟨out', ho', hcomp, hall, _⟩ := C47_tarjan (flowGraph s names) order names names.length
            (fun v hv => ho.mem_iff.mp hv) (by
              intro x _ y hy
              obtain ⟨_, p, q, _, hq, _, hqt, _⟩ := (flowGraph_iff hr hn x y).mp hy
              exact (hn.2 y).mpr ⟨q, hqt, Or.inr hq⟩) (Nat.le_refl _)
          rw [hc] at ho'
          cases ho'
          obtain ⟨c, hcm, hac⟩ := hall a (ho.mem_iff.mpr (hmem a b hab))
          have hbc : b ∈ c := ((hcomp c hcm).iff a hac b).mpr
            ⟨(reach_flow hr hn a b).mpr (Or.inr hab), (reach_flow hr hn b a).mpr (Or.inr hba)⟩
          rw [List.all_eq_true] at h
          have hl := h c hcm
          rw [decide_eq_true_eq] at hl
          match c, hl, hac, hbc with
          | [], _, hac, _ => cases hac
          | [x], _, hac, hbc => rw [List.mem_singleton.mp hac, List.mem_singleton.mp hbc]
    · cases h

/-- C47: a data flow in which each input has a producer and no two tasks depend on each other is
accepted. -/
theorem C47_not_rejected (ds : List (Decl N P T)) (s : Dflow N P T) (names order : List N)
    (hd : Dflow.empty.declare ds = some s) (hn : NamesOf ds names) (ho : order.Perm names)
    (hp : ∀ p, Decl.inp p ∈ ds → ∃ q, Decl.out q ∈ ds ∧ q.name = p.name)
    (hc : ∀ a b, TransGen (DependsOn ds) a b → TransGen (DependsOn ds) b a → a = b) :
    s.startSvc names order = true := by
  have hr := records_declare hd
  have hnd : (names.flatMap (portsOf s.outs)).Nodup := by
    refine List.nodup_flatMap.mpr ⟨?_, ?_⟩
    · intro n _
      unfold portsOf
      rw [List.Nodup, List.pairwise_map]
      exact hr.one.filter _
    · refine hn.1.imp_of_mem ?_
      intro a b _ _ hab k hka hkb
      obtain ⟨p, hp, hpt, hpn⟩ := mem_portsOf.mp hka
      obtain ⟨q, hq, hqt, hqn⟩ := mem_portsOf.mp hkb
      have := unique_out hr.one hp hq (hpn.trans hqn.symm)
      exact hab (by rw [← hpt, ← hqt, this])
  obtain ⟨out, hout⟩ := collectOut_nodup hnd (out := []) (by simp)
  have hmem := (collectOut_some hout).2.2
  have hin : (names.all fun n => (portsOf s.ins n).all fun k => k ∈ out) = true := by
    rw [List.all_eq_true]
    intro n _
    rw [List.all_eq_true]
    intro k hk
    obtain ⟨p, hpm, hpt, hpn⟩ := mem_portsOf.mp hk
    obtain ⟨q, hq, hqn⟩ := hp p ((hr.ins p).mp hpm)
    rw [decide_eq_true_eq, hmem]
    exact Or.inl (List.mem_flatMap.mpr ⟨q.task, (hn.2 _).mpr ⟨q, rfl, Or.inr hq⟩,
      mem_portsOf.mpr ⟨q, (hr.outs q).mpr hq, rfl, hqn.trans hpn⟩⟩)
  obtain ⟨comps, h1, h2, _, _⟩ := C47_tarjan (flowGraph s names) order names names.length
    (fun v hv => ho.mem_iff.mp hv) (by
      intro x _ y hy
      obtain ⟨_, p, q, _, hq, _, hqt, _⟩ := (flowGraph_iff hr hn x y).mp hy
      exact (hn.2 y).mpr ⟨q, hqt, Or.inr hq⟩) (Nat.le_refl _)
  simp only [Dflow.startSvc, hout, hin, if_true, h1]
  rw [List.all_eq_true]
  intro c hcm
  rw [decide_eq_true_eq]
  match c, h2 c hcm with
  | [], _ => simp
  | [x], _ => simp
  | x :: y :: c, hcc =>
    obtain ⟨r1, r2⟩ := (hcc.iff x (by simp) y).mp (by simp)
    have hne : x ≠ y := fun e => (List.nodup_cons.mp hcc.nodup).1 (by simp [e])
    have h3 := ((reach_flow hr hn x y).mp r1).resolve_left hne
    have h4 := ((reach_flow hr hn y x).mp r2).resolve_left (Ne.symm hne)
    exact absurd (hc x y h3 h4) hne

/-- Three tasks in a row, declared in some order. -/
def exampleDecls : List (Decl Nat Nat Nat) :=
  [.out ⟨1, 10, 0⟩, .inp ⟨2, 10, 0⟩, .out ⟨2, 20, 1⟩, .inp ⟨3, 20, 1⟩, .inp ⟨3, 10, 0⟩]

example : (∃ s, Dflow.empty.declare exampleDecls = some s ∧ s.startSvc [1, 2, 3] [3, 1, 2] = true) ∧
    NamesOf exampleDecls [1, 2, 3] := by
  refine ⟨⟨_, rfl, by decide⟩, by decide, ?_⟩
  intro n
  constructor
  · intro h
    fin_cases h
    · exact ⟨⟨1, 10, 0⟩, rfl, by simp [exampleDecls]⟩
    · exact ⟨⟨2, 10, 0⟩, rfl, by simp [exampleDecls]⟩
    · exact ⟨⟨3, 20, 1⟩, rfl, by simp [exampleDecls]⟩
  · rintro ⟨p, rfl, h⟩
    simp only [exampleDecls, List.mem_cons, Decl.inp.injEq, Decl.out.injEq, reduceCtorEq, List.not_mem_nil, or_false,
      false_or] at h
    rcases h with (rfl | rfl | rfl) | (rfl | rfl) <;> decide

/-- C47 fails for a task which needs what it makes: it is accepted. -/
theorem C47_self_counterexample : ∃ s : Dflow Nat Nat Nat,
    Dflow.empty.declare [.out ⟨1, 10, 0⟩, .inp ⟨1, 10, 0⟩] = some s ∧ s.startSvc [1] [1] = true ∧
    DependsOn ([.out ⟨1, 10, 0⟩, .inp ⟨1, 10, 0⟩] : List (Decl Nat Nat Nat)) 1 1 :=
  ⟨_, rfl, by decide, ⟨1, 10, 0⟩, ⟨1, 10, 0⟩, by simp, by simp, rfl, rfl, rfl⟩

/-! ## C50 -/

theorem declare_append : ∀ {ds ds' : List (Decl N P T)} {s s' : Dflow N P T}, s.declare (ds ++ ds') = some s' →
    ∃ m, s.declare ds = some m ∧ m.declare ds' = some s'
  | [], _, s, _, h => ⟨s, rfl, h⟩
  | d :: ds, ds', s, s', h => by
    simp only [List.cons_append, Dflow.declare] at h ⊢
    split at h
    · rename_i hok
      rw [if_pos hok]
      exact declare_append h
    · cases h

/-- The edge of a port keeps its type while in-ports and out-ports of other names are declared, and
while in-ports with its name are. -/
theorem edges_keep : ∀ {ds : List (Decl N P T)} {s s' : Dflow N P T} {name : P} {t : T}, s.declare ds = some s' →
    s.edges name = some t → (∀ p, Decl.out p ∈ ds → p.name ≠ name) → s'.edges name = some t
  | [], s, s', name, t, h, he, _ => by cases h; exact he
  | d :: ds, s, s', name, t, h, he, ho => by
    simp only [Dflow.declare] at h
    split at h
    · rename_i hok
      refine edges_keep h ?_ (fun p hp => ho p (by simp [hp]))
      cases d with
      | inp p =>
        obtain ⟨h1, _, h3⟩ := addIn_ok (s := s) (p := p) (Prod.ext rfl hok)
        simp only [Dflow.decl, h1, Dflow.setEdge]
        split
        · rename_i hk
          rw [h3 t (hk ▸ he)]
        · exact he
      | out p =>
        obtain ⟨h1, _, _⟩ := addOut_ok (s := s) (p := p) (Prod.ext rfl hok)
        simp only [Dflow.decl, h1, Dflow.setEdge]
        rw [if_neg (fun e => ho p (by simp) e.symm)]
        exact he
    · cases h

/-- C50: if the declarations are accepted, an in-port declared after the out-port with its name has the
type of the out-port; and two in-ports with the same name have the same type, unless the out-port is
declared between them. -/
theorem C50_types_partial (ds : List (Decl N P T)) (s : Dflow N P T) (hd : Dflow.empty.declare ds = some s) :
    (∀ pre mid post p q, ds = pre ++ Decl.out p :: (mid ++ Decl.inp q :: post) → p.name = q.name → p.type = q.type) ∧
    (∀ pre mid post p q, ds = pre ++ Decl.inp p :: (mid ++ Decl.inp q :: post) → p.name = q.name →
      (∀ o, Decl.out o ∈ mid → o.name ≠ p.name) → p.type = q.type) := by
  have step : ∀ (m : Dflow N P T) mid post q t, m.declare (mid ++ Decl.inp q :: post) = some s →
      m.edges q.name = some t → (∀ o, Decl.out o ∈ mid → o.name ≠ q.name) → t = q.type := by
    intro m mid post q t h he ho
    obtain ⟨m', h1, h2⟩ := declare_append h
    have he' := edges_keep h1 he ho
    simp only [Dflow.declare] at h2
    split at h2
    · rename_i hok
      exact (addIn_ok (s := m') (p := q) (Prod.ext rfl hok)).2.2 t he'
    · cases h2
  constructor
  · rintro pre mid post p q rfl hpq
    have hr := records_declare hd
    obtain ⟨m, h1, h2⟩ := declare_append hd
    simp only [Dflow.declare] at h2
    split at h2
    · rename_i hok
      obtain ⟨e1, e2, _⟩ := addOut_ok (s := m) (p := p) (Prod.ext rfl hok)
      refine step _ mid post q p.type h2 ?_ ?_
      · simp [Dflow.decl, e1, Dflow.setEdge, hpq]
      · intro o ho hon
        -- a second out-port with the name would have been refused
        have hd2 : Dflow.empty.declare ((pre ++ [Decl.out p]) ++ (mid ++ Decl.inp q :: post)) = some s := by simpa using hd
        obtain ⟨a, b, rfl⟩ := List.append_of_mem ho
        obtain ⟨m1, hm1, hm2⟩ := declare_append hd2
        have hm2' : m1.declare (a ++ (Decl.out o :: (b ++ Decl.inp q :: post))) = some s := by simpa using hm2
        obtain ⟨m2, hm3, hm4⟩ := declare_append hm2'
        have r2 := Records.declare (records_declare hm1) hm3
        simp only [Dflow.declare] at hm4
        split at hm4
        · rename_i hok'
          obtain ⟨f1, _, _⟩ := addOut_ok (s := m2) (p := o) (Prod.ext rfl hok')
          have r3 := Records.decl r2 (d := Decl.out o) (s' := (m2.decl (.out o)).1) (Prod.ext rfl hok')
          have := r3.one
          simp only [Dflow.decl, f1, Dflow.setEdge] at this
          have hp : p ∈ m2.outs := (r2.outs p).mpr (by simp)
          exact (List.pairwise_cons.mp this).1 p hp (hon.trans hpq.symm)
        · cases hm4
    · cases h2
  · rintro pre mid post p q rfl hpq ho
    obtain ⟨m, h1, h2⟩ := declare_append hd
    simp only [Dflow.declare] at h2
    split at h2
    · rename_i hok
      obtain ⟨e1, _, _⟩ := addIn_ok (s := m) (p := p) (Prod.ext rfl hok)
      refine step _ mid post q p.type h2 ?_ (fun o h => hpq ▸ ho o h)
      simp [Dflow.decl, e1, Dflow.setEdge, hpq]
    · cases h2

example : (exampleDecls = [] ++ Decl.out ⟨1, 10, 0⟩ :: ([.inp ⟨2, 10, 0⟩, .out ⟨2, 20, 1⟩, .inp ⟨3, 20, 1⟩] ++
    Decl.inp ⟨3, 10, 0⟩ :: [])) := rfl

/-- C50 fails when the consumer is declared before the producer: another type is accepted, and the application
starts. -/
theorem C50_order_counterexample : ∃ s : Dflow Nat Nat Nat,
    Dflow.empty.declare [.inp ⟨1, 10, 0⟩, .out ⟨2, 10, 1⟩] = some s ∧ s.startSvc [1, 2] [1, 2] = true :=
  ⟨_, rfl, by decide⟩

/-- The same declarations in the other order are refused. -/
theorem C50_order_refused : (Dflow.empty.declare ([.out ⟨2, 10, 1⟩, .inp ⟨1, 10, 0⟩] : List (Decl Nat Nat Nat))).isNone = true := by
  decide

end Verif.Fwk
