import Mathlib.Logic.Relation
import Mathlib.Data.List.Basic

/-!
# Strongly connected components (fwk/utils/tarjan)

The graph is a function from vertices to their successors (the values of the map; `[]` for vertices
which are no key of it). Maps are functions; the iteration order over the keys of the graph is the
order of the list `keys`, which is arbitrary.
-/

namespace Verif.Fwk

open Relation

variable {V : Type} [DecidableEq V]

/-- fwk/utils/tarjan/tarjan.go:55-67 (`data`, `node`). The stack has its top first. `count` is the length
of `nodes`; `stacked i` is `nodes[i].stacked`. The `lowlink` fields are used only by the call which
created the node and by its caller, and are the result of `strongConnect` here. -/
structure TData (V : Type) where
  count : Nat
  stacked : Nat → Bool
  stack : List V
  index : V → Option Nat
  output : List (List V)

/-- Lines 72-76 of fwk/utils/tarjan/tarjan.go:71-109 (`strongConnect`). -/
def TData.enter (s : TData V) (v : V) : TData V :=
  { s with
    index := fun x => if x = v then some s.count else s.index x
    stack := v :: s.stack
    stacked := fun i => if i = s.count then true else s.stacked i
    count := s.count + 1 }

/-- The loop which pops a component, fwk/utils/tarjan/tarjan.go:71-109 (`strongConnect`): the vertices taken
off the stack down to the one with index `i`, and the rest of the stack. -/
def popTo (index : V → Option Nat) (i : Nat) : List V → List V × List V
  | [] => ([], [])
  | w :: ws => if index w = some i then ([w], ws) else (w :: (popTo index i ws).1, (popTo index i ws).2)

/-- The last part of fwk/utils/tarjan/tarjan.go:71-109 (`strongConnect`), executed if `node.lowlink == index`. -/
def TData.leave (s : TData V) (i : Nat) : TData V :=
  { s with
    stack := (popTo s.index i s.stack).2
    stacked := fun j => if ∃ w ∈ (popTo s.index i s.stack).1, s.index w = some j then false else s.stacked j
    output := s.output ++ [(popTo s.index i s.stack).1] }

/-- `if node.lowlink == index {...}; return node` of fwk/utils/tarjan/tarjan.go:71-109 (`strongConnect`). -/
def TData.finish (i : Nat) (r : Nat × TData V) : Nat × TData V :=
  if r.1 = i then (r.1, r.2.leave i) else r

/-- One round of the loop over the successors, fwk/utils/tarjan/tarjan.go:71-109 (`strongConnect`): `call` is
the recursive call, `low` is `node.lowlink`. -/
def visit1 (call : V → TData V → Option (Nat × TData V)) (w : V) (low : Nat) (s : TData V) : Option (Nat × TData V) :=
  match s.index w with
  | none => (call w s).map fun r => (if r.1 < low then r.1 else low, r.2)
  | some i => some (if s.stacked i ∧ i < low then i else low, s)

/-- The loop over the successors, fwk/utils/tarjan/tarjan.go:71-109 (`strongConnect`). -/
def visit (call : V → TData V → Option (Nat × TData V)) : List V → Nat → TData V → Option (Nat × TData V)
  | [], low, s => some (low, s)
  | w :: ws, low, s => (visit1 call w low s).bind fun r => visit call ws r.1 r.2

/-- fwk/utils/tarjan/tarjan.go:71-109 (`strongConnect`). The first argument bounds the depth of the
recursion; `none` if it is exceeded (`C47_tarjan` shows that the number of vertices is enough). -/
def strongConnect (g : V → List V) : Nat → V → TData V → Option (Nat × TData V)
  | 0, _, _ => none
  | n + 1, v, s => (visit (strongConnect g n) (g v) s.count (s.enter v)).map (TData.finish s.count)

/-- The loop of fwk/utils/tarjan/tarjan.go:40-52 (`Connections`). -/
def connectAll (g : V → List V) (fuel : Nat) : List V → TData V → Option (TData V)
  | [], s => some s
  | v :: vs, s =>
    match s.index v with
    | some _ => connectAll g fuel vs s
    | none => (strongConnect g fuel v s).bind fun r => connectAll g fuel vs r.2

/-- fwk/utils/tarjan/tarjan.go:40-52 (`Connections`). -/
def connections (g : V → List V) (fuel : Nat) (keys : List V) : Option (List (List V)) :=
  (connectAll g fuel keys ⟨0, fun _ => false, [], fun _ => none, []⟩).map TData.output

/-! ## Correctness -/

/-- `b` can be reached from `a` along the edges of the graph. -/
abbrev Reach (g : V → List V) : V → V → Prop := ReflTransGen fun a b => b ∈ g a

/-- A strongly connected component: the vertices of `c` are different, there is one, and `c` consists of the
vertices which can be reached from it and from which it can be reached. -/
structure IsComponent (g : V → List V) (c : List V) : Prop where
  nodup : c.Nodup
  ne : c ≠ []
  iff : ∀ x ∈ c, ∀ y, y ∈ c ↔ Reach g x y ∧ Reach g y x

/-- The vertices of the components found. -/
def TData.done (s : TData V) (v : V) : Prop := ∃ c ∈ s.output, v ∈ c

/-- What is true between two steps of the algorithm; `gray` are the vertices being visited. -/
structure TInv (g : V → List V) (gray : List V) (s : TData V) : Prop where
  lt : ∀ v i, s.index v = some i → i < s.count
  inj : ∀ v w i, s.index v = some i → s.index w = some i → v = w
  sorted : s.stack.Pairwise fun a b => ∃ i j, s.index a = some i ∧ s.index b = some j ∧ j < i
  seen : ∀ v, s.index v ≠ none ↔ v ∈ s.stack ∨ s.done v
  disj : ∀ v ∈ s.stack, ¬ s.done v
  flag : ∀ v i, s.index v = some i → (s.stacked i = true ↔ v ∈ s.stack)
  comps : ∀ c ∈ s.output, IsComponent g c
  closed : ∀ v w, s.done v → w ∈ g v → s.done w
  sub : ∀ v ∈ gray, v ∈ s.stack
  black : ∀ v ∈ s.stack, v ∉ gray → ∀ w ∈ g v, s.index w ≠ none
  down : ∀ x ∈ gray, ∀ y ∈ s.stack, ∀ i j, s.index x = some i → s.index y = some j → i ≤ j → Reach g x y
  up : ∀ y ∈ s.stack, ∃ x ∈ gray, Reach g y x ∧ ∀ i j, s.index x = some i → s.index y = some j → i ≤ j
  apart : s.output.Pairwise fun c d => ∀ x ∈ c, x ∉ d

/-- What a part of the algorithm leaves unchanged: the indices given, the stack below and the
components found. -/
structure Ext (s s' : TData V) : Prop where
  index : ∀ v i, s.index v = some i → s'.index v = some i
  fresh : ∀ v i, s.index v = none → s'.index v = some i → s.count ≤ i
  count : s.count ≤ s'.count
  stack : ∃ new, s'.stack = new ++ s.stack
  out : ∃ new, s'.output = s.output ++ new

omit [DecidableEq V] in
theorem Ext.refl (s : TData V) : Ext s s :=
  ⟨fun _ _ h => h, fun _ _ h h' => absurd (h.symm.trans h') (by simp), Nat.le_refl _, ⟨[], rfl⟩, ⟨[], by simp⟩⟩

omit [DecidableEq V] in
theorem Ext.trans {a b c : TData V} (h : Ext a b) (h' : Ext b c) : Ext a c := by
  refine ⟨fun v i e => h'.index v i (h.index v i e), ?_, Nat.le_trans h.count h'.count, ?_, ?_⟩
  · intro v i e e'
    cases hb : b.index v with
    | none => exact Nat.le_trans h.count (h'.fresh v i hb e')
    | some j =>
      have := h'.index v j hb
      rw [this] at e'; cases e'
      exact h.fresh v _ e hb
  · obtain ⟨x, hx⟩ := h.stack
    obtain ⟨y, hy⟩ := h'.stack
    exact ⟨y ++ x, by rw [hy, hx, List.append_assoc]⟩
  · obtain ⟨x, hx⟩ := h.out
    obtain ⟨y, hy⟩ := h'.out
    exact ⟨x ++ y, by rw [hy, hx, List.append_assoc]⟩

omit [DecidableEq V] in
theorem Ext.done {s s' : TData V} (h : Ext s s') {v : V} (hv : s.done v) : s'.done v := by
  obtain ⟨c, hc, hv⟩ := hv
  obtain ⟨new, hn⟩ := h.out
  exact ⟨c, by rw [hn]; simp [hc], hv⟩

/-- The number of vertices of `U` not yet seen. -/
def unseen (U : List V) (s : TData V) : Nat := (U.filter fun v => (s.index v).isNone).length

omit [DecidableEq V] in
theorem Ext.unseen {s s' : TData V} (h : Ext s s') (U : List V) : Fwk.unseen U s' ≤ Fwk.unseen U s := by
  unfold Fwk.unseen
  induction U with
  | nil => simp
  | cons u us ih =>
    simp only [List.filter_cons]
    cases hu : s.index u with
    | none => cases hu' : s'.index u <;> simp <;> omega
    | some i => rw [h.index u i hu]; simpa using ih

/-- The post-condition of a call `strongConnect v`. -/
structure Post (g : V → List V) (gray : List V) (v : V) (s : TData V) (low : Nat) (s' : TData V) : Prop where
  inv : TInv g gray s'
  ext : Ext s s'
  idx : s'.index v = some s.count
  le : low ≤ s.count
  reach : low < s.count → ∃ y ∈ s'.stack, s'.index y = some low ∧ Reach g v y
  edge : ∀ x ∈ s'.stack, x ∉ s.stack → ∀ y ∈ s.stack, y ∈ g x → ∀ i, s'.index y = some i → low ≤ i

/-- The invariant of the loop over the successors of `v`; `s₀` is the state before `v` was entered
and `ws` are the successors still to be visited. -/
structure Loop (g : V → List V) (gray : List V) (v : V) (s₀ : TData V) (ws : List V) (low : Nat) (s : TData V) : Prop where
  inv : TInv g (v :: gray) s
  ext : Ext (s₀.enter v) s
  le : low ≤ s₀.count
  reach : low < s₀.count → ∃ y ∈ s.stack, s.index y = some low ∧ Reach g v y
  edge : ∀ x ∈ s.stack, x ∉ v :: s₀.stack → ∀ y ∈ s₀.stack, y ∈ g x → ∀ i, s.index y = some i → low ≤ i
  seen : ∀ w ∈ g v, w ∉ ws → s.index w ≠ none ∧ (w ∈ s₀.stack → ∀ i, s.index w = some i → low ≤ i)

omit [DecidableEq V] in
theorem popTo_eq {index : V → Option Nat} {i : Nat} {v : V} {rest : List V} (hv : index v = some i) :
    ∀ new : List V, (∀ x ∈ new, index x ≠ some i) → popTo index i (new ++ v :: rest) = (new ++ [v], rest)
  | [], _ => by simp [popTo, hv]
  | x :: xs, h => by
    have ih := popTo_eq (rest := rest) hv xs fun y hy => h y (by simp [hy])
    simp only [List.cons_append, popTo, if_neg (h x (by simp)), ih]

omit [DecidableEq V] in
theorem TInv.idx {g : V → List V} {gray : List V} {s : TData V} (h : TInv g gray s) {v : V} (hv : v ∈ s.stack) :
    ∃ i, s.index v = some i :=
  Option.ne_none_iff_exists'.mp ((h.seen v).mpr (Or.inl hv))

/-- Entering a vertex establishes the invariant of the loop over its successors. -/
theorem enter_loop {g : V → List V} {gray : List V} {s : TData V} {v : V} (h : TInv g gray s) (hv : s.index v = none)
    (hr : ∀ x ∈ gray, Reach g x v) : Loop g gray v s (g v) s.count (s.enter v) := by
  have hne : ∀ x, s.index x ≠ none → x ≠ v := fun x hx e => hx (e ▸ hv)
  have hst : ∀ x ∈ s.stack, x ≠ v := fun x hx => hne x ((h.seen x).mpr (Or.inl hx))
  have hold : ∀ x i, s.index x = some i → (s.enter v).index x = some i := by
    intro x i hx
    have : x ≠ v := hne x (by rw [hx]; simp)
    simp [TData.enter, this, hx]
  have hself : (s.enter v).index v = some s.count := by simp [TData.enter]
  have hback : ∀ x i, x ≠ v → (s.enter v).index x = some i → s.index x = some i := by
    intro x i hx hi
    simpa [TData.enter, hx] using hi
  refine ⟨?_, Ext.refl _, Nat.le_refl _, fun hc => absurd hc (Nat.lt_irrefl _), ?_, ?_⟩
  · constructor
    · intro x i hx
      by_cases hxv : x = v
      · subst hxv; rw [hself] at hx; cases hx; exact Nat.lt_succ_self _
      · exact Nat.lt_succ_of_lt (h.lt x i (hback x i hxv hx))
    · intro x y i hx hy
      by_cases hxv : x = v <;> by_cases hyv : y = v
      · rw [hxv, hyv]
      · subst hxv; rw [hself] at hx; cases hx
        exact absurd (h.lt y _ (hback y _ hyv hy)) (Nat.lt_irrefl _)
      · subst hyv; rw [hself] at hy; cases hy
        exact absurd (h.lt x _ (hback x _ hxv hx)) (Nat.lt_irrefl _)
      · exact h.inj x y i (hback x i hxv hx) (hback y i hyv hy)
    · show List.Pairwise _ (v :: s.stack)
      refine List.pairwise_cons.mpr ⟨?_, h.sorted.imp ?_⟩
      · intro b hb
        obtain ⟨j, hj⟩ := h.idx hb
        exact ⟨_, j, hself, hold b j hj, h.lt b j hj⟩
      · rintro a b ⟨i, j, ha, hb, hij⟩
        exact ⟨i, j, hold a i ha, hold b j hb, hij⟩
    · intro x
      show _ ↔ x ∈ v :: s.stack ∨ s.done x
      by_cases hxv : x = v
      · subst hxv; simp [hself]
      · have : (s.enter v).index x = s.index x := by simp [TData.enter, hxv]
        rw [this, h.seen x]; simp [hxv]
    · intro x hx
      rcases List.mem_cons.mp hx with rfl | hx
      · intro hd
        exact absurd hv ((h.seen x).mpr (Or.inr hd))
      · exact h.disj x hx
    · intro x i hx
      by_cases hxv : x = v
      · subst hxv; rw [hself] at hx; cases hx
        simp [TData.enter]
      · have hx' := hback x i hxv hx
        have hlt := h.lt x i hx'
        have := h.flag x i hx'
        simp only [TData.enter, if_neg (Nat.ne_of_lt hlt), List.mem_cons, hxv, false_or]
        exact this
    · exact h.comps
    · exact h.closed
    · intro x hx
      rcases List.mem_cons.mp hx with rfl | hx
      · exact List.mem_cons_self
      · exact List.mem_cons_of_mem _ (h.sub x hx)
    · intro x hx hg w hw
      rcases List.mem_cons.mp hx with rfl | hx
      · exact absurd List.mem_cons_self hg
      · obtain ⟨j, hj⟩ := Option.ne_none_iff_exists'.mp (h.black x hx (fun hc => hg (List.mem_cons_of_mem _ hc)) w hw)
        rw [hold w j hj]; simp
    · intro x hx y hy i j hi hj hij
      by_cases hyv : y = v
      · subst hyv
        rcases List.mem_cons.mp hx with rfl | hx
        · exact ReflTransGen.refl
        · exact hr x hx
      · have hys : y ∈ s.stack := by
          rcases List.mem_cons.mp hy with rfl | hy
          · exact absurd rfl hyv
          · exact hy
        have hj' := hback y j hyv hj
        rcases List.mem_cons.mp hx with rfl | hx
        · rw [hself] at hi; cases hi
          exact absurd (h.lt y j hj') (Nat.not_lt.mpr hij)
        · have hxv := hst x (h.sub x hx)
          exact h.down x hx y hys i j (hback x i hxv hi) hj' hij
    · intro y hy
      rcases List.mem_cons.mp hy with rfl | hy
      · exact ⟨y, List.mem_cons_self, ReflTransGen.refl, fun i j hi hj => by rw [hi] at hj; cases hj; exact Nat.le_refl _⟩
      · obtain ⟨x, hx, hr, hle⟩ := h.up y hy
        refine ⟨x, List.mem_cons_of_mem _ hx, hr, fun i j hi hj => ?_⟩
        exact hle i j (hback x i (hst x (h.sub x hx)) hi) (hback y j (hst y hy) hj)
    · exact h.apart
  · intro x hx hx'
    exact absurd hx hx'
  · intro w hw hn; exact absurd hw hn

/-- One round of the loop keeps its invariant. -/
theorem visit1_loop {g : V → List V} {gray : List V} {s₀ s : TData V} {v w : V} {ws : List V} {low : Nat}
    {call : V → TData V → Option (Nat × TData V)} (h : Loop g gray v s₀ (w :: ws) low s) (hw : w ∈ g v)
    (hgr : ∀ x ∈ gray, Reach g x v) (hv : s₀.index v = none)
    (hcall : ∀ s', Ext (s₀.enter v) s' → s'.index w = none → TInv g (v :: gray) s' →
      (∀ x ∈ v :: gray, Reach g x w) → ∃ r, call w s' = some r ∧ Post g (v :: gray) w s' r.1 r.2) :
    ∃ r, visit1 call w low s = some r ∧ Loop g gray v s₀ ws r.1 r.2 := by
  have hvi : s.index v = some s₀.count := h.ext.index v _ (by simp [TData.enter])
  have hstk : ∀ x ∈ s₀.stack, x ∈ s.stack := by
    obtain ⟨new, hn⟩ := h.ext.stack
    intro x hx; rw [hn]; simp [TData.enter, hx]
  unfold visit1
  cases hwi : s.index w with
  | some i =>
    refine ⟨_, rfl, ?_⟩
    have hstack : s.stacked i = true ↔ w ∈ s.stack := h.inv.flag w i hwi
    have hle : (if s.stacked i = true ∧ i < low then i else low) ≤ low := by split <;> omega
    refine ⟨h.inv, h.ext, Nat.le_trans hle h.le, ?_, ?_, ?_⟩
    · intro hc
      by_cases hi : s.stacked i = true ∧ i < low
      · simp only [if_pos hi] at hc ⊢
        exact ⟨w, hstack.mp hi.1, hwi, ReflTransGen.single hw⟩
      · simp only [if_neg hi] at hc ⊢
        exact h.reach hc
    · intro x hx hx' y hy hxy j hj
      exact Nat.le_trans hle (h.edge x hx hx' y hy hxy j hj)
    · intro x hx hx'
      by_cases hxw : x = w
      · subst hxw
        refine ⟨by rw [hwi]; simp, fun hm j hj => ?_⟩
        rw [hwi] at hj; cases hj
        have := hstack.mpr (hstk x hm)
        show (if s.stacked i = true ∧ i < low then i else low) ≤ i
        split <;> simp_all
      · have := h.seen x hx (by simp [hxw, hx'])
        exact ⟨this.1, fun hm j hj => Nat.le_trans hle (this.2 hm j hj)⟩
  | none =>
    have hreach : ∀ x ∈ v :: gray, Reach g x w := by
      intro x hx
      rcases List.mem_cons.mp hx with rfl | hx
      · exact ReflTransGen.single hw
      · exact (hgr x hx).tail hw
    obtain ⟨⟨n, s'⟩, hc, hp⟩ := hcall s h.ext hwi h.inv hreach
    simp only [hc]
    refine ⟨_, rfl, ?_⟩
    have hle : (if n < low then n else low) ≤ low := by split <;> omega
    have hle' : (if n < low then n else low) ≤ n := by split <;> omega
    refine ⟨hp.inv, h.ext.trans hp.ext, Nat.le_trans hle h.le, ?_, ?_, ?_⟩
    · intro hc
      by_cases hn : n < low
      · simp only [if_pos hn] at hc ⊢
        have : n < s.count := by
          have := h.inv.lt v _ hvi
          omega
        obtain ⟨y, hy, hyi, hyr⟩ := hp.reach this
        exact ⟨y, hy, hyi, (ReflTransGen.single hw).trans hyr⟩
      · simp only [if_neg hn] at hc ⊢
        obtain ⟨y, hy, hyi, hyr⟩ := h.reach hc
        obtain ⟨new, hnew⟩ := hp.ext.stack
        exact ⟨y, by rw [hnew]; simp [hy], hp.ext.index y _ hyi, hyr⟩
    · intro x hx hx' y hy hxy j hj
      by_cases hxs : x ∈ s.stack
      · obtain ⟨j', hj'⟩ := h.inv.idx (hstk y hy)
        have := hp.ext.index y j' hj'
        rw [this] at hj; cases hj
        exact Nat.le_trans hle (h.edge x hxs hx' y hy hxy _ hj')
      · exact Nat.le_trans hle' (hp.edge x hx hxs y (hstk y hy) hxy j hj)
    · intro x hx hx'
      by_cases hxw : x = w
      · subst hxw
        refine ⟨by rw [hp.idx]; simp, fun hm => ?_⟩
        obtain ⟨j, hj⟩ := h.inv.idx (hstk x hm)
        rw [hwi] at hj; cases hj
      · have := h.seen x hx (by simp [hxw, hx'])
        obtain ⟨j, hj⟩ := Option.ne_none_iff_exists'.mp this.1
        have hj' := hp.ext.index x j hj
        refine ⟨by rw [hj']; simp, fun hm k hk => ?_⟩
        rw [hj'] at hk; cases hk
        exact Nat.le_trans hle (this.2 hm j hj)

/-- The end of a call. -/
theorem finish_post {g : V → List V} {gray : List V} {s₀ s : TData V} {v : V} {low : Nat} (h₀ : TInv g gray s₀)
    (hv : s₀.index v = none) (h : Loop g gray v s₀ [] low s) :
    Post g gray v s₀ (TData.finish s₀.count (low, s)).1 (TData.finish s₀.count (low, s)).2 := by
  have hvi : s.index v = some s₀.count := h.ext.index v _ (by simp [TData.enter])
  have hold : ∀ x i, s₀.index x = some i → s.index x = some i := by
    intro x i hx
    refine h.ext.index x i ?_
    have : x ≠ v := fun e => by rw [e, hv] at hx; cases hx
    simp [TData.enter, this, hx]
  obtain ⟨new, hnew⟩ := h.ext.stack
  have hnew : s.stack = new ++ v :: s₀.stack := hnew
  have hsort := h.inv.sorted
  rw [hnew] at hsort
  have hnd : ∀ x ∈ new, ∀ i, s.index x = some i → s₀.count < i := by
    intro x hx i hi
    obtain ⟨a, b, ha, hb, hab⟩ := (List.pairwise_append.mp hsort).2.2 x hx v (by simp)
    rw [hvi] at hb; cases hb
    rw [hi] at ha; cases ha
    exact hab
  have hext : Ext s₀ s := by
    refine Ext.trans ?_ h.ext
    refine ⟨?_, ?_, Nat.le_succ _, ⟨[v], rfl⟩, ⟨[], by simp [TData.enter]⟩⟩
    · intro x i hx
      have : x ≠ v := fun e => by rw [e, hv] at hx; cases hx
      simp [TData.enter, this, hx]
    · intro x i hx hi
      simp only [TData.enter, hx] at hi
      split at hi
      · cases hi; exact Nat.le_refl _
      · cases hi
  have hlt₀ : ∀ y ∈ s₀.stack, ∀ i, s.index y = some i → i < s₀.count := by
    intro y hy i hi
    obtain ⟨j, hj⟩ := h₀.idx hy
    rw [hold y j hj] at hi; cases hi
    exact h₀.lt y _ hj
  have hge : ∀ x ∈ new ++ [v], ∀ i, s.index x = some i → s₀.count ≤ i := by
    intro x hx i hi
    rcases List.mem_append.mp hx with hx | hx
    · exact Nat.le_of_lt (hnd x hx i hi)
    · rw [List.mem_singleton.mp hx, hvi] at hi; cases hi; exact Nat.le_refl _
  have hvst : v ∈ s.stack := by rw [hnew]; simp
  have hvs₀ : v ∉ s₀.stack := fun hc => by
    obtain ⟨j, hj⟩ := h₀.idx hc
    rw [hv] at hj; cases hj
  have hmem : ∀ x, x ∈ s.stack ↔ x ∈ new ++ [v] ∨ x ∈ s₀.stack := by
    intro x; rw [hnew]; simp [or_assoc]
  have hdisj : ∀ x ∈ new ++ [v], x ∉ s₀.stack := by
    intro x hx hc
    obtain ⟨i, hi⟩ := h.inv.idx ((hmem x).mpr (Or.inl hx))
    have := hge x hx i hi
    have := hlt₀ x hc i hi
    omega
  have hgray : ∀ x ∈ gray, x ∈ s₀.stack := h₀.sub
  -- the edges from the new part of the stack
  have hsucc : ∀ x ∈ new ++ [v], ∀ y ∈ g x, s.index y ≠ none := by
    intro x hx y hy
    rcases List.mem_append.mp hx with hxn | hxv
    · refine h.inv.black x ((hmem x).mpr (Or.inl hx)) ?_ y hy
      intro hc
      rcases List.mem_cons.mp hc with rfl | hc
      · exact absurd (hnd x hxn _ hvi) (Nat.lt_irrefl _)
      · exact hdisj x hx (hgray x hc)
    · rw [List.mem_singleton.mp hxv] at hy
      exact (h.seen y hy (by simp)).1
  have hedge : ∀ x ∈ new ++ [v], ∀ y ∈ s₀.stack, y ∈ g x → ∀ i, s.index y = some i → low ≤ i := by
    intro x hx y hy hxy i hi
    rcases List.mem_append.mp hx with hxn | hxv
    · refine h.edge x ((hmem x).mpr (Or.inl hx)) ?_ y hy hxy i hi
      intro hc
      rcases List.mem_cons.mp hc with rfl | hc
      · exact absurd (hnd x hxn _ hvi) (Nat.lt_irrefl _)
      · exact hdisj x hx hc
    · rw [List.mem_singleton.mp hxv] at hxy
      exact (h.seen y hxy (by simp)).2 hy i hi
  by_cases hlow : low = s₀.count
  · -- a component is complete
    have hpop : popTo s.index s₀.count s.stack = (new ++ [v], s₀.stack) := by
      rw [hnew]
      refine popTo_eq hvi new fun x hx hc => ?_
      exact absurd (hnd x hx _ hc) (Nat.lt_irrefl _)
    have hfin : TData.finish s₀.count (low, s) = (low, s.leave s₀.count) := by simp [TData.finish, hlow]
    rw [hfin]
    have hlst : (s.leave s₀.count).stack = s₀.stack := by simp [TData.leave, hpop]
    have hlout : (s.leave s₀.count).output = s.output ++ [new ++ [v]] := by simp [TData.leave, hpop]
    have hlidx : (s.leave s₀.count).index = s.index := rfl
    have hldone : ∀ x, (s.leave s₀.count).done x ↔ s.done x ∨ x ∈ new ++ [v] := by
      intro x
      unfold TData.done
      rw [hlout]
      constructor
      · rintro ⟨c, hc, hx⟩
        rcases List.mem_append.mp hc with hc | hc
        · exact Or.inl ⟨c, hc, hx⟩
        · rw [List.mem_singleton.mp hc] at hx; exact Or.inr hx
      · rintro (⟨c, hc, hx⟩ | hx)
        · exact ⟨c, by simp [hc], hx⟩
        · exact ⟨_, by simp, hx⟩
    have hclosed1 : ∀ x y, (s.done x ∨ x ∈ new ++ [v]) → y ∈ g x → (s.done y ∨ y ∈ new ++ [v]) := by
      intro x y hx hy
      rcases hx with hx | hx
      · exact Or.inl (h.inv.closed x y hx hy)
      · have hsn := hsucc x hx y hy
        rcases (h.inv.seen y).mp hsn with hst | hd
        · rcases (hmem y).mp hst with hc | hc
          · exact Or.inr hc
          · obtain ⟨i, hi⟩ := h.inv.idx hst
            have := hedge x hx y hc hy i hi
            have := hlt₀ y hc i hi
            omega
        · exact Or.inl hd
    have hclosed : ∀ x y, Reach g x y → (s.done x ∨ x ∈ new ++ [v]) → (s.done y ∨ y ∈ new ++ [v]) := by
      intro x y hr hx
      induction hr with
      | refl => exact hx
      | tail _ hbc ih => exact hclosed1 _ _ ih hbc
    have hclosedD : ∀ x y, Reach g x y → s.done x → s.done y := by
      intro x y hr hx
      induction hr with
      | refl => exact hx
      | tail _ hbc ih => exact h.inv.closed _ _ ih hbc
    have hndone : ∀ x ∈ new ++ [v], ¬ s.done x := fun x hx => h.inv.disj x ((hmem x).mpr (Or.inl hx))
    have hfromv : ∀ x ∈ new ++ [v], Reach g v x := by
      intro x hx
      obtain ⟨i, hi⟩ := h.inv.idx ((hmem x).mpr (Or.inl hx))
      exact h.inv.down v List.mem_cons_self x ((hmem x).mpr (Or.inl hx)) _ i hvi hi (hge x hx i hi)
    have htov : ∀ x ∈ new ++ [v], Reach g x v := by
      intro x hx
      obtain ⟨z, hz, hr, _⟩ := h.inv.up x ((hmem x).mpr (Or.inl hx))
      rcases List.mem_cons.mp hz with rfl | hz
      · exact hr
      · have hz₀ := hgray z hz
        rcases hclosed x z hr (Or.inr hx) with hd | hn
        · exact absurd hd (h.inv.disj z ((hmem z).mpr (Or.inr hz₀)))
        · exact absurd hz₀ (hdisj z hn)
    have hcomp : IsComponent g (new ++ [v]) := by
      refine ⟨?_, by simp, ?_⟩
      · have hp : (new ++ [v]).Pairwise fun a b => ∃ i j, s.index a = some i ∧ s.index b = some j ∧ j < i := by
          have : new ++ v :: s₀.stack = (new ++ [v]) ++ s₀.stack := by simp
          rw [this] at hsort
          exact (List.pairwise_append.mp hsort).1
        refine hp.imp ?_
        rintro a b ⟨i, j, ha, hb, hij⟩ rfl
        rw [ha] at hb; cases hb
        exact Nat.lt_irrefl _ hij
      · intro x hx y
        constructor
        · intro hy
          exact ⟨(htov x hx).trans (hfromv y hy), (htov y hy).trans (hfromv x hx)⟩
        · rintro ⟨h1, h2⟩
          rcases hclosed x y h1 (Or.inr hx) with hd | hn
          · exact absurd (hclosedD y x h2 hd) (hndone x hx)
          · exact hn
    refine ⟨?_, ?_, hvi, by omega, fun hc => absurd hc (by simp [hlow]), ?_⟩
    · constructor
      · exact h.inv.lt
      · exact h.inv.inj
      · rw [hlst, hlidx]
        have : new ++ v :: s₀.stack = (new ++ [v]) ++ s₀.stack := by simp
        rw [this] at hsort
        exact (List.pairwise_append.mp hsort).2.1
      · intro x
        rw [hlidx, hlst, hldone, h.inv.seen x, hmem x]
        constructor
        · rintro ((h | h) | h)
          · exact Or.inr (Or.inr h)
          · exact Or.inl h
          · exact Or.inr (Or.inl h)
        · rintro (h | h | h)
          · exact Or.inl (Or.inr h)
          · exact Or.inr h
          · exact Or.inl (Or.inl h)
      · intro x hx
        rw [hlst] at hx
        rw [hldone]
        rintro (hd | hn)
        · exact h.inv.disj x ((hmem x).mpr (Or.inr hx)) hd
        · exact hdisj x hn hx
      · intro x i hx
        rw [hlidx] at hx
        rw [hlst]
        have hf := h.inv.flag x i hx
        have hstk : (s.leave s₀.count).stacked i = if ∃ w ∈ new ++ [v], s.index w = some i then false else s.stacked i := by
          simp [TData.leave, hpop]
        rw [hstk]
        by_cases he : ∃ w ∈ new ++ [v], s.index w = some i
        · obtain ⟨w, hw, hwi⟩ := he
          have : w = x := h.inv.inj w x i hwi hx
          subst this
          rw [if_pos ⟨w, hw, hwi⟩]
          simp [hdisj w hw]
        · rw [if_neg he, hf, hmem x]
          constructor
          · rintro (h | h)
            · exact absurd ⟨x, h, hx⟩ he
            · exact h
          · exact Or.inr
      · intro c hc
        rw [hlout] at hc
        rcases List.mem_append.mp hc with hc | hc
        · exact h.inv.comps c hc
        · rw [List.mem_singleton.mp hc]; exact hcomp
      · intro x w hx hw
        rw [hldone] at hx ⊢
        exact hclosed1 x w hx hw
      · intro x hx
        rw [hlst]; exact hgray x hx
      · intro x hx hg w hw
        rw [hlst] at hx
        obtain ⟨j, hj⟩ := Option.ne_none_iff_exists'.mp (h₀.black x hx hg w hw)
        rw [hlidx, hold w j hj]; simp
      · intro x hx y hy i j hi hj hij
        rw [hlst] at hy
        exact h.inv.down x (List.mem_cons_of_mem _ hx) y ((hmem y).mpr (Or.inr hy)) i j hi hj hij
      · intro y hy
        rw [hlst] at hy
        obtain ⟨x, hx, hr, hle⟩ := h₀.up y hy
        refine ⟨x, hx, hr, fun i j hi hj => ?_⟩
        rw [hlidx] at hi hj
        obtain ⟨i', hi'⟩ := h₀.idx (hgray x hx)
        obtain ⟨j', hj'⟩ := h₀.idx hy
        rw [hold x i' hi'] at hi
        rw [hold y j' hj'] at hj
        cases hi; cases hj
        exact hle _ _ hi' hj'
      · rw [hlout]
        refine List.pairwise_append.mpr ⟨h.inv.apart, List.pairwise_singleton .., ?_⟩
        intro c hc d hd x hx hxd
        rw [List.mem_singleton.mp hd] at hxd
        exact hndone x hxd ⟨c, hc, hx⟩
    · refine ⟨hext.index, hext.fresh, hext.count, ⟨[], by simp [hlst]⟩, ?_⟩
      obtain ⟨o, ho⟩ := hext.out
      exact ⟨o ++ [new ++ [v]], by rw [hlout, ho]; simp⟩
    · intro x hx hx'
      rw [hlst] at hx
      exact absurd hx hx'
  · -- `v` stays on the stack
    have hfin : TData.finish s₀.count (low, s) = (low, s) := by simp [TData.finish, hlow]
    rw [hfin]
    have hlt : low < s₀.count := Nat.lt_of_le_of_ne h.le hlow
    obtain ⟨y, hy, hyi, hyr⟩ := h.reach hlt
    have hvz : ∃ z ∈ gray, Reach g v z := by
      obtain ⟨z, hz, hr, hle⟩ := h.inv.up y hy
      rcases List.mem_cons.mp hz with rfl | hz
      · have := hle _ _ hvi hyi
        omega
      · exact ⟨z, hz, hyr.trans hr⟩
    have hgi : ∀ z ∈ gray, ∀ i, s.index z = some i → i < s₀.count := fun z hz => hlt₀ z (hgray z hz)
    refine ⟨?_, hext, hvi, h.le, fun _ => ⟨y, hy, hyi, hyr⟩, ?_⟩
    · refine ⟨h.inv.lt, h.inv.inj, h.inv.sorted, h.inv.seen, h.inv.disj, h.inv.flag, h.inv.comps, h.inv.closed, ?_, ?_, ?_, ?_,
        h.inv.apart⟩
      · intro x hx; exact h.inv.sub x (List.mem_cons_of_mem _ hx)
      · intro x hx hg w hw
        by_cases hxv : x = v
        · subst hxv; exact (h.seen w hw (by simp)).1
        · exact h.inv.black x hx (by simp [hxv, hg]) w hw
      · intro x hx; exact h.inv.down x (List.mem_cons_of_mem _ hx)
      · intro u hu
        obtain ⟨x, hx, hr, hle⟩ := h.inv.up u hu
        rcases List.mem_cons.mp hx with rfl | hx
        · obtain ⟨z, hz, hr'⟩ := hvz
          refine ⟨z, hz, hr.trans hr', fun i j hi hj => ?_⟩
          have h1 := hgi z hz i hi
          have h2 := hle _ j hvi hj
          omega
        · exact ⟨x, hx, hr, hle⟩
    · intro x hx hx' y hy hxy i hi
      rcases (hmem x).mp hx with hn | hn
      · exact hedge x hn y hy hxy i hi
      · exact absurd hn hx'

theorem unseen_enter {U : List V} {s : TData V} {v : V} (hv : v ∈ U) (hs : s.index v = none) :
    unseen U (s.enter v) < unseen U s := by
  have hle : ∀ U : List V, unseen U (s.enter v) ≤ unseen U s := by
    intro U
    unfold unseen
    induction U with
    | nil => simp
    | cons u us ih =>
      simp only [List.filter_cons]
      by_cases hu : u = v
      · subst hu; simp only [hs, TData.enter, if_true, Option.isNone_some, Bool.false_eq_true, if_false, Option.isNone_none,
          List.length_cons]
        simp only [TData.enter] at ih
        omega
      · simp only [TData.enter, if_neg hu] at ih ⊢
        split
        · simp only [List.length_cons]; omega
        · exact ih
  induction U with
  | nil => cases hv
  | cons u us ih =>
    by_cases hu : u = v
    · subst hu
      have := hle us
      unfold unseen at this ⊢
      simp only [List.filter_cons, hs, TData.enter, if_true, Option.isNone_some, Bool.false_eq_true, if_false,
        Option.isNone_none, List.length_cons] at this ⊢
      omega
    · have := ih ((List.mem_cons.mp hv).resolve_left (Ne.symm hu))
      unfold unseen at this ⊢
      simp only [List.filter_cons, TData.enter, if_neg hu] at this ⊢
      split
      · simp only [List.length_cons]; omega
      · omega

/-- The post-condition holds for each call, and the depth of the recursion is bounded by the number of
vertices which were not seen. -/
theorem strongConnect_post {g : V → List V} {U : List V} (hU : ∀ x ∈ U, ∀ y ∈ g x, y ∈ U) : ∀ (n : Nat) (v : V)
    (gray : List V) (s : TData V), TInv g gray s → s.index v = none → v ∈ U → (∀ x ∈ gray, Reach g x v) →
    unseen U s ≤ n → ∃ r, strongConnect g n v s = some r ∧ Post g gray v s r.1 r.2
  | 0, v, gray, s, h, hv, hvU, hr, hn => by
    have := unseen_enter hvU hv
    omega
  | n + 1, v, gray, s, h, hv, hvU, hr, hn => by
    have hdec := unseen_enter hvU hv
    have loop : ∀ ws : List V, (∀ w ∈ ws, w ∈ g v) → ∀ low s', Loop g gray v s ws low s' →
        ∃ r, visit (strongConnect g n) ws low s' = some r ∧ Loop g gray v s [] r.1 r.2 := by
      intro ws
      induction ws with
      | nil => intro _ low s' hl; exact ⟨(low, s'), rfl, hl⟩
      | cons w ws ih =>
        intro hws low s' hl
        have hw := hws w (by simp)
        obtain ⟨r, hr1, hr2⟩ := visit1_loop hl hw hr hv (call := strongConnect g n) (by
          intro s'' he hwn hinv hreach
          refine strongConnect_post hU n w (v :: gray) s'' hinv hwn (hU v hvU w hw) hreach ?_
          have := he.unseen U
          omega)
        obtain ⟨r', hr1', hr2'⟩ := ih (fun w hw => hws w (by simp [hw])) r.1 r.2 hr2
        exact ⟨r', by simp only [visit, hr1, Option.bind_some, hr1'], hr2'⟩
    obtain ⟨r, hr1, hr2⟩ := loop (g v) (fun _ h => h) s.count (s.enter v) (enter_loop h hv hr)
    refine ⟨TData.finish s.count r, by simp only [strongConnect, hr1, Option.map_some], ?_⟩
    exact finish_post h hv hr2

theorem connectAll_spec {g : V → List V} {U : List V} (hU : ∀ x ∈ U, ∀ y ∈ g x, y ∈ U) (fuel : Nat) (hf : U.length ≤ fuel) :
    ∀ (vs : List V) (s : TData V), (∀ v ∈ vs, v ∈ U) → TInv g [] s → ∃ s', connectAll g fuel vs s = some s' ∧ TInv g [] s' ∧
      Ext s s' ∧ ∀ v ∈ vs, s'.index v ≠ none
  | [], s, _, h => ⟨s, rfl, h, Ext.refl s, by simp⟩
  | v :: vs, s, hvs, h => by
    unfold connectAll
    cases hv : s.index v with
    | some i =>
      obtain ⟨s', h1, h2, h3, h4⟩ := connectAll_spec hU fuel hf vs s (fun x hx => hvs x (by simp [hx])) h
      refine ⟨s', h1, h2, h3, ?_⟩
      intro x hx
      rcases List.mem_cons.mp hx with rfl | hx
      · rw [h3.index x i hv]; simp
      · exact h4 x hx
    | none =>
      have hn : unseen U s ≤ fuel := Nat.le_trans (List.length_filter_le ..) hf
      obtain ⟨r, hr, hp⟩ := strongConnect_post hU fuel v [] s h hv (hvs v (by simp)) (by simp) hn
      obtain ⟨s', h1, h2, h3, h4⟩ := connectAll_spec hU fuel hf vs r.2 (fun x hx => hvs x (by simp [hx])) hp.inv
      refine ⟨s', by simp only [hr, Option.bind_some, h1], h2, hp.ext.trans h3, ?_⟩
      intro x hx
      rcases List.mem_cons.mp hx with rfl | hx
      · rw [h3.index x _ hp.idx]; simp
      · exact h4 x hx

/-- The strongly connected components are found, each of them once, in every graph and whatever the order in
which the vertices and the edges are visited: each item of the result is one, and each vertex is in
exactly one item. `U` are the vertices: the keys of the graph and what their edges lead to. -/
theorem C47_tarjan (g : V → List V) (keys U : List V) (fuel : Nat) (hk : ∀ v ∈ keys, v ∈ U)
    (hU : ∀ x ∈ U, ∀ y ∈ g x, y ∈ U) (hf : U.length ≤ fuel) :
    ∃ out, connections g fuel keys = some out ∧ (∀ c ∈ out, IsComponent g c) ∧ (∀ v ∈ keys, ∃ c ∈ out, v ∈ c) ∧
      out.Pairwise fun c d => ∀ x ∈ c, x ∉ d := by
  have h0 : TInv g [] (⟨0, fun _ => false, [], fun _ => none, []⟩ : TData V) := by
    constructor <;> simp [TData.done]
  obtain ⟨s', h1, h2, _, h4⟩ := connectAll_spec hU fuel hf keys _ hk h0
  refine ⟨s'.output, by simp only [connections, h1, Option.map_some], h2.comps, ?_, h2.apart⟩
  intro v hv
  rcases (h2.seen v).mp (h4 v hv) with hs | hd
  · obtain ⟨x, hx, _⟩ := h2.up v hs
    cases hx
  · exact hd

/-- The graph of the example in fwk/utils/tarjan/tarjan_test.go. -/
def wikiGraph : Nat → List Nat
  | 1 => [2]
  | 2 => [3]
  | 3 => [1]
  | 4 => [2, 3, 5]
  | 5 => [4, 6]
  | 6 => [3, 7]
  | 7 => [6]
  | 8 => [5, 7, 8]
  | _ => []

example : (∀ v ∈ [1, 2, 3, 4, 5, 6, 7, 8], v ∈ [1, 2, 3, 4, 5, 6, 7, 8]) ∧
    (∀ x ∈ [1, 2, 3, 4, 5, 6, 7, 8], ∀ y ∈ wikiGraph x, y ∈ [1, 2, 3, 4, 5, 6, 7, 8]) := by decide

example : connections wikiGraph 8 [8, 7, 6, 5, 4, 3, 2, 1] = some [[1, 3, 2], [7, 6], [4, 5], [8]] := by decide +kernel

end Verif.Fwk
