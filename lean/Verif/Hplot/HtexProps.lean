import Verif.Hplot.Htex
import Mathlib.Data.List.Perm.Basic

/-!
# LaTeX in the background (C171)
-/

namespace Verif.Hplot.Htex

variable {D E : Type}

/-! ## Specification -/

/-- The documents a program submits. -/
def docs : List (Instr D) → List D
  | [] => []
  | .compile d :: p => d :: docs p
  | .wait :: p => docs p

/-- For every `wait` the number of documents submitted before it. -/
def before (k : Nat) : List (Instr D) → List Nat
  | [] => []
  | .compile _ :: p => before (k + 1) p
  | .wait :: p => k :: before k p

/-- A compilation is going on. -/
def isRunning : D × Phase E → Bool
  | (_, .running) => true
  | _ => false

/-- The result of `Wait` is right for the documents: they are all finished, it is nil if and only if all
succeeded, and otherwise it is the error of one of them. -/
def Right (w : Option E) (js : List (D × Phase E)) : Prop :=
  (∀ j ∈ js, ∃ r, j.2 = .finished r) ∧ (w = none ↔ ∀ j ∈ js, j.2 = .finished none) ∧
    ∀ e, w = some e → ∃ j ∈ js, j.2 = .finished (some e)

/-! ## Invariant -/

def holds : D × Phase E → Bool
  | (_, .running) => true
  | (_, .compiled _) => true
  | _ => false

def isCompiled : Phase E → Bool
  | .waiting => false
  | .running => false
  | _ => true

/-- Is a document, and has been compiled. -/
def logged [DecidableEq D] (d : D) (j : D × Phase E) : Bool := decide (j.1 = d) && isCompiled j.2

structure Inv [DecidableEq D] (n : Nat) (prog : List (Instr D)) (s : St D E) : Prop where
  tok : s.tokens = s.jobs.countP holds
  le : s.tokens ≤ n
  lg : ∀ d, s.log.count d = s.jobs.countP (logged d)
  dc : s.jobs.map (·.1) ++ docs s.prog = docs prog
  e1 : s.err = none → ∀ j ∈ s.jobs, ∀ r, j.2 = .finished r → r = none
  e2 : ∀ e, s.err = some e → ∃ j ∈ s.jobs, j.2 = .finished (some e)
  bf : ∃ b, before 0 prog = b ++ before s.jobs.length s.prog ∧ b.length = s.waits.length ∧
    ∀ (k : Nat) (w : Option E) (m : Nat), s.waits[k]? = some w → b[k]? = some m → m ≤ s.jobs.length ∧ Right w (s.jobs.take m)

theorem split_at {α : Type} {l : List α} {i : Nat} {x : α} (h : l[i]? = some x) :
    ∃ a b, l = a ++ x :: b ∧ a.length = i ∧ ∀ y, l.set i y = a ++ y :: b := by
  induction l generalizing i with
  | nil => simp at h
  | cons z l ih =>
    cases i with
    | zero =>
      simp only [List.getElem?_cons_zero, Option.some.injEq] at h
      subst h
      exact ⟨[], l, rfl, rfl, fun y => rfl⟩
    | succ i =>
      rw [List.getElem?_cons_succ] at h
      obtain ⟨a, b, h1, h2, h3⟩ := ih h
      exact ⟨z :: a, b, by rw [h1]; rfl, by simp [h2], fun y => by rw [List.set_cons_succ, h3]; rfl⟩

variable [DecidableEq D]

theorem inv_start (n : Nat) (prog : List (Instr D)) : Inv n prog (start prog : St D E) where
  tok := rfl
  le := Nat.zero_le _
  lg := fun _ => rfl
  dc := rfl
  e1 := fun _ j hj => by cases hj
  e2 := fun _ h => by cases h
  bf := ⟨[], rfl, rfl, fun k w m h => by simp [start] at h⟩

theorem right_all {s : St D E} {n : Nat} {prog : List (Instr D)} (h : Inv n prog s)
    (ha : s.jobs.all isFinished = true) : Right s.err s.jobs := by
  have hf : ∀ j ∈ s.jobs, ∃ r, j.2 = .finished r := by
    intro j hj
    have := List.all_eq_true.1 ha j hj
    obtain ⟨d, p⟩ := j
    cases p <;> first | exact ⟨_, rfl⟩ | cases this
  refine ⟨hf, ⟨fun he j hj => ?_, fun hj => ?_⟩, h.e2⟩
  · obtain ⟨r, hr⟩ := hf j hj
    rw [hr, h.e1 he j hj r hr]
  · cases he : s.err with
    | none => rfl
    | some e =>
      obtain ⟨j, hm, hq⟩ := h.e2 e he
      rw [hj j hm] at hq
      cases hq

theorem inv_main {n : Nat} {prog : List (Instr D)} {s t : St D E} (h : Inv n prog s) (ht : stepMain s = some t) :
    Inv n prog t := by
  unfold stepMain at ht
  split at ht
  · cases ht
  · rename_i d p hp
    cases ht
    obtain ⟨b, hb, hl, hw⟩ := h.bf
    refine ⟨?_, h.le, ?_, ?_, ?_, ?_, b, ?_, hl, ?_⟩
    · simp [h.tok, List.countP_append, holds]
    · intro d'
      simp [h.lg d', List.countP_append, logged, isCompiled]
    · have := h.dc
      rw [hp] at this
      simpa [docs] using this
    · intro he j hj r hr
      rcases List.mem_append.1 hj with hj | hj
      · exact h.e1 he j hj r hr
      · rw [List.mem_singleton] at hj
        subst hj
        cases hr
    · intro e he
      obtain ⟨j, hm, hq⟩ := h.e2 e he
      exact ⟨j, List.mem_append_left _ hm, hq⟩
    · rw [hp] at hb
      simpa [before] using hb
    · intro k w m hk hm
      obtain ⟨h1, h2⟩ := hw k w m hk hm
      refine ⟨by simp; omega, ?_⟩
      rw [List.take_append_of_le_length h1]
      exact h2
  · rename_i p hp
    split at ht
    · rename_i ha
      cases ht
      obtain ⟨b, hb, hl, hw⟩ := h.bf
      refine ⟨h.tok, h.le, h.lg, ?_, h.e1, h.e2, b ++ [s.jobs.length], ?_, by simp [hl], ?_⟩
      · have := h.dc
        rw [hp] at this
        simpa [docs] using this
      · rw [hp] at hb
        simpa [before] using hb
      · intro k w m hk hm
        dsimp only at hk ⊢
        by_cases hlt : k < s.waits.length
        · rw [List.getElem?_append_left hlt] at hk
          rw [List.getElem?_append_left (by omega)] at hm
          exact hw k w m hk hm
        · rw [List.getElem?_append_right (by omega)] at hk
          rw [List.getElem?_append_right (by omega)] at hm
          rw [hl] at hm
          cases hkk : k - s.waits.length with
          | succ q => rw [hkk] at hk; simp at hk
          | zero =>
            rw [hkk] at hk hm
            simp only [List.getElem?_cons_zero, Option.some.injEq] at hk hm
            subst hk hm
            refine ⟨Nat.le_refl _, ?_⟩
            rw [List.take_length]
            exact right_all h ha
    · cases ht

omit [DecidableEq D] in
/-- What `Right` needs is not changed by a document that is not finished. -/
theorem right_set {w : Option E} {a b : List (D × Phase E)} {x y : D × Phase E} {m : Nat}
    (hx : ∀ r, x.2 ≠ .finished r) (h : Right w ((a ++ x :: b).take m)) : Right w ((a ++ y :: b).take m) := by
  by_cases hm : m ≤ a.length
  · rw [List.take_append_of_le_length hm] at h ⊢
    exact h
  · exfalso
    have : x ∈ (a ++ x :: b).take m := by
      rw [List.take_append]
      refine List.mem_append_right _ ?_
      obtain ⟨q, hq⟩ : ∃ q, m - a.length = q + 1 := ⟨m - a.length - 1, by omega⟩
      rw [hq, List.take_succ_cons]
      exact List.mem_cons_self ..
    obtain ⟨r, hr⟩ := h.1 x this
    exact hx r hr

theorem once_none {e r : Option E} (h : once e r = none) : e = none ∧ r = none := by
  cases e <;> simp_all [once]

theorem inv_phase {n : Nat} {prog : List (Instr D)} {s t : St D E} {i : Nat} {d : D} {r : Option E} {p : Phase E}
    (h : Inv n prog s) (hi : s.jobs[i]? = some (d, p)) (ht : stepPhase n s i d r p = some t) : Inv n prog t := by
  obtain ⟨a, b, h1, _, h3⟩ := split_at hi
  obtain ⟨c, hb, hl, hw⟩ := h.bf
  have htok := h.tok
  have hle := h.le
  have hlg := h.lg
  have hdc := h.dc
  have he1 := h.e1
  have he2 := h.e2
  have hlen : ∀ y : D × Phase E, s.jobs.length = (a ++ y :: b).length := by intro y; rw [h1]; simp
  rw [h1] at htok hlg hdc he1 he2
  cases p with
  | waiting =>
    rw [stepPhase] at ht
    split at ht
    · cases ht
      refine ⟨?_, ?_, ?_, ?_, ?_, ?_, c, ?_, hl, ?_⟩
      · simp only [h3, htok]; simp [List.countP_append, List.countP_cons, holds]; omega
      · dsimp only; omega
      · intro d'
        simp only [h3, hlg d']; simp [List.countP_append, logged, isCompiled]
      · simp only [h3]; simpa using hdc
      · intro he j hj q hq
        simp only [h3] at hj
        refine he1 he j ?_ q hq
        rcases List.mem_append.1 hj with hj | hj
        · exact List.mem_append_left _ hj
        · rcases List.mem_cons.1 hj with rfl | hj
          · cases hq
          · exact List.mem_append_right _ (List.mem_cons_of_mem _ hj)
      · intro e he
        obtain ⟨j, hm, hq⟩ := he2 e he
        refine ⟨j, ?_, hq⟩
        simp only [h3]
        rcases List.mem_append.1 hm with hj | hj
        · exact List.mem_append_left _ hj
        · rcases List.mem_cons.1 hj with rfl | hj
          · cases hq
          · exact List.mem_append_right _ (List.mem_cons_of_mem _ hj)
      · simp only [h3, ← hlen]; exact hb
      · intro k w m hk hm
        obtain ⟨q1, q2⟩ := hw k w m hk hm
        simp only [h3, ← hlen]
        rw [h1] at q2
        exact ⟨q1, right_set (by intro q hq; cases hq) q2⟩
    · cases ht
  | running =>
    rw [stepPhase] at ht
    cases ht
    refine ⟨?_, hle, ?_, ?_, ?_, ?_, c, ?_, hl, ?_⟩
    · simp only [h3, htok]; simp [List.countP_append, List.countP_cons, holds]
    · intro d'
      simp only [h3, List.count_append, hlg d', List.count_singleton]
      simp only [List.countP_append, List.countP_cons, logged, isCompiled, Bool.and_false, Bool.false_eq_true,
        if_false, Bool.and_true, decide_eq_true_eq, beq_iff_eq]
      omega
    · simp only [h3]; simpa using hdc
    · intro he j hj q hq
      simp only [h3] at hj
      refine he1 he j ?_ q hq
      rcases List.mem_append.1 hj with hj | hj
      · exact List.mem_append_left _ hj
      · rcases List.mem_cons.1 hj with rfl | hj
        · cases hq
        · exact List.mem_append_right _ (List.mem_cons_of_mem _ hj)
    · intro e he
      obtain ⟨j, hm, hq⟩ := he2 e he
      refine ⟨j, ?_, hq⟩
      simp only [h3]
      rcases List.mem_append.1 hm with hj | hj
      · exact List.mem_append_left _ hj
      · rcases List.mem_cons.1 hj with rfl | hj
        · cases hq
        · exact List.mem_append_right _ (List.mem_cons_of_mem _ hj)
    · simp only [h3, ← hlen]; exact hb
    · intro k w m hk hm
      obtain ⟨q1, q2⟩ := hw k w m hk hm
      simp only [h3, ← hlen]
      rw [h1] at q2
      exact ⟨q1, right_set (by intro q hq; cases hq) q2⟩
  | compiled u =>
    rw [stepPhase] at ht
    split at ht
    · cases ht
    · cases ht
      refine ⟨?_, ?_, ?_, ?_, ?_, ?_, c, ?_, hl, ?_⟩
      · simp only [h3, htok]; simp [List.countP_append, List.countP_cons, holds]
      · dsimp only; omega
      · intro d'
        simp only [h3, hlg d']; simp [List.countP_append, List.countP_cons, logged, isCompiled]
      · simp only [h3]; simpa using hdc
      · intro he j hj q hq
        simp only [h3] at hj
        refine he1 he j ?_ q hq
        rcases List.mem_append.1 hj with hj | hj
        · exact List.mem_append_left _ hj
        · rcases List.mem_cons.1 hj with rfl | hj
          · cases hq
          · exact List.mem_append_right _ (List.mem_cons_of_mem _ hj)
      · intro e he
        obtain ⟨j, hm, hq⟩ := he2 e he
        refine ⟨j, ?_, hq⟩
        simp only [h3]
        rcases List.mem_append.1 hm with hj | hj
        · exact List.mem_append_left _ hj
        · rcases List.mem_cons.1 hj with rfl | hj
          · cases hq
          · exact List.mem_append_right _ (List.mem_cons_of_mem _ hj)
      · simp only [h3, ← hlen]; exact hb
      · intro k w m hk hm
        obtain ⟨q1, q2⟩ := hw k w m hk hm
        simp only [h3, ← hlen]
        rw [h1] at q2
        exact ⟨q1, right_set (by intro q hq; cases hq) q2⟩
  | released u =>
    rw [stepPhase] at ht
    cases ht
    refine ⟨?_, hle, ?_, ?_, ?_, ?_, c, ?_, hl, ?_⟩
    · simp only [h3, htok]; simp [List.countP_append, holds]
    · intro d'
      simp only [h3, hlg d']; simp [List.countP_append, List.countP_cons, logged, isCompiled]
    · simp only [h3]; simpa using hdc
    · intro he j hj q hq
      obtain ⟨g1, g2⟩ := once_none he
      simp only [h3] at hj
      rcases List.mem_append.1 hj with hj | hj
      · exact he1 g1 j (List.mem_append_left _ hj) q hq
      · rcases List.mem_cons.1 hj with rfl | hj
        · cases hq; exact g2
        · exact he1 g1 j (List.mem_append_right _ (List.mem_cons_of_mem _ hj)) q hq
    · intro e he
      simp only [h3]
      dsimp only at he
      cases hs : s.err with
      | none =>
        rw [hs] at he
        have hu : u = some e := he
        subst hu
        exact ⟨_, List.mem_append_right _ (List.mem_cons_self ..), rfl⟩
      | some e' =>
        rw [hs] at he
        have hu : some e' = some e := he
        obtain ⟨j, hm, hq⟩ := he2 e (hs.trans hu)
        refine ⟨j, ?_, hq⟩
        rcases List.mem_append.1 hm with hj | hj
        · exact List.mem_append_left _ hj
        · rcases List.mem_cons.1 hj with rfl | hj
          · cases hq
          · exact List.mem_append_right _ (List.mem_cons_of_mem _ hj)
    · simp only [h3, ← hlen]; exact hb
    · intro k w m hk hm
      obtain ⟨q1, q2⟩ := hw k w m hk hm
      simp only [h3, ← hlen]
      rw [h1] at q2
      exact ⟨q1, right_set (by intro q hq; cases hq) q2⟩
  | finished u => cases ht

theorem inv_step {n : Nat} {prog : List (Instr D)} {s t : St D E} {x : Actor E} (h : Inv n prog s)
    (ht : step n s x = some t) : Inv n prog t := by
  cases x with
  | main => exact inv_main h ht
  | job i r =>
    rw [step] at ht
    split at ht
    · cases ht
    · rename_i d p hi
      exact inv_phase h hi ht

theorem inv_run {n : Nat} {prog : List (Instr D)} (as : List (Actor E)) {s : St D E} (h : Inv n prog s) :
    Inv n prog (run n s as) := by
  induction as generalizing s with
  | nil => exact h
  | cons x as ih =>
    rw [run]
    refine ih ?_
    cases ht : step n s x with
    | none => exact h
    | some t => exact inv_step h ht

/-! ## Progress -/

def left : Phase E → Nat
  | .waiting => 4
  | .running => 3
  | .compiled _ => 2
  | .released _ => 1
  | .finished _ => 0

def cost : Instr D → Nat
  | .compile _ => 5
  | .wait => 1

/-- The number of steps that are left. -/
def rank (s : St D E) : Nat := (s.prog.map cost).sum + (s.jobs.map fun j => left j.2).sum

omit [DecidableEq D] in
theorem rank_step {n : Nat} {s t : St D E} {x : Actor E} (ht : step n s x = some t) : rank t + 1 = rank s := by
  cases x with
  | main =>
    rw [step, stepMain] at ht
    split at ht
    · cases ht
    · rename_i d p hp
      cases ht
      simp [rank, hp, cost, left]
      omega
    · rename_i p hp
      split at ht
      · cases ht
        simp [rank, hp, cost]
        omega
      · cases ht
  | job i r =>
    rw [step] at ht
    split at ht
    · cases ht
    · rename_i d p hi
      obtain ⟨a, b, h1, _, h3⟩ := split_at hi
      cases p with
      | waiting =>
        rw [stepPhase] at ht
        split at ht
        · cases ht
          simp only [rank]
          rw [h3, h1]
          simp only [List.map_append, List.map_cons, List.sum_append, List.sum_cons, left]; omega
        · cases ht
      | running =>
        rw [stepPhase] at ht
        cases ht
        simp only [rank]
        rw [h3, h1]
        simp only [List.map_append, List.map_cons, List.sum_append, List.sum_cons, left]; omega
      | compiled u =>
        rw [stepPhase] at ht
        split at ht
        · cases ht
        · cases ht
          simp only [rank]
          rw [h3, h1]
          simp only [List.map_append, List.map_cons, List.sum_append, List.sum_cons, left]; omega
      | released u =>
        rw [stepPhase] at ht
        cases ht
        simp only [rank]
        rw [h3, h1]
        simp only [List.map_append, List.map_cons, List.sum_append, List.sum_cons, left]; omega
      | finished u => cases ht

/-- Somebody can go on while the caller is not at its end. -/
theorem progress {n : Nat} (hn : 0 < n) {prog : List (Instr D)} {s : St D E} (h : Inv n prog s) (hp : s.prog ≠ []) :
    ∃ x t, step n s x = some t := by
  by_cases hm : ∃ t, stepMain s = some t
  · obtain ⟨t, ht⟩ := hm
    exact ⟨.main, t, ht⟩
  have hj : ∃ j ∈ s.jobs, isFinished j = false := by
    cases hs : s.prog with
    | nil => exact absurd hs hp
    | cons x p =>
      cases x with
      | compile d => exact absurd ⟨_, by rw [stepMain, hs]⟩ hm
      | wait =>
        by_contra hc
        refine hm ⟨{ s with prog := p, waits := s.waits ++ [s.err] }, ?_⟩
        rw [stepMain, hs]
        dsimp only
        rw [if_pos]
        refine List.all_eq_true.2 fun j hj => ?_
        cases hq : isFinished j with
        | true => rfl
        | false => exact absurd ⟨j, hj, hq⟩ hc
  have go : ∀ j ∈ s.jobs, (isFinished j = false) → (j.2 = .waiting → s.tokens < n) → ∃ x t, step n s x = some t := by
    intro j hj hf hw
    obtain ⟨i, hi⟩ := List.mem_iff_getElem?.1 hj
    obtain ⟨d, p⟩ := j
    refine ⟨.job i none, ?_⟩
    rw [step, hi]
    dsimp only
    cases p with
    | waiting => exact ⟨_, by rw [stepPhase, if_pos (hw rfl)]⟩
    | running => exact ⟨_, rfl⟩
    | compiled u =>
      have : s.tokens ≠ 0 := by
        rw [h.tok]
        have : 0 < s.jobs.countP holds := List.countP_pos_iff.2 ⟨_, hj, rfl⟩
        omega
      exact ⟨_, by rw [stepPhase, if_neg this]⟩
    | released u => exact ⟨_, rfl⟩
    | finished u => cases hf
  obtain ⟨j, hj, hf⟩ := hj
  by_cases hlt : s.tokens < n
  · exact go j hj hf fun _ => hlt
  · have : 0 < s.jobs.countP holds := by rw [← h.tok]; omega
    obtain ⟨j', hj', hh⟩ := List.countP_pos_iff.1 this
    obtain ⟨d', p'⟩ := j'
    refine go _ hj' ?_ ?_
    · cases p' <;> first | rfl | cases hh
    · intro hw
      dsimp only at hw
      subst hw
      cases hh

/-! ## Theorems -/

/-- **C171** (limit): whatever the schedule, at any time at most as many compilations are going on as the handler
allows: the number given, or one more than the number of processors; and that is at least one. -/
theorem C171_limit (n : Int) (cpus : Nat) (prog : List (Instr D)) (as : List (Actor E)) :
    (run (limit n cpus) (start prog) as).jobs.countP isRunning ≤ limit n cpus ∧
      (0 < n → (limit n cpus : Int) = n) ∧ (n ≤ 0 → limit n cpus = cpus + 1) := by
  have h := inv_run (n := limit n cpus) as (inv_start (E := E) (limit n cpus) prog)
  refine ⟨?_, ?_, ?_⟩
  · refine Nat.le_trans ?_ (h.tok ▸ h.le)
    refine List.countP_mono_left fun j _ hj => ?_
    obtain ⟨d, p⟩ := j
    cases p <;> first | rfl | cases hj
  · intro hn
    rw [limit, if_neg (by omega)]
    omega
  · intro hn
    rw [limit, if_pos hn]

/-- **C171** (waiting): every result of `Wait` is right for all documents that were submitted before it, since the
handler was made. -/
theorem C171_wait (n : Int) (cpus : Nat) (prog : List (Instr D)) (as : List (Actor E)) (k m : Nat) (w : Option E)
    (hw : (run (limit n cpus) (start prog) as).waits[k]? = some w) (hm : (before 0 prog)[k]? = some m) :
    (((run (limit n cpus) (start prog) as).jobs.take m).map (·.1) = (docs prog).take m) ∧
      Right w ((run (limit n cpus) (start prog) as).jobs.take m) := by
  have h := inv_run (n := limit n cpus) as (inv_start (E := E) (limit n cpus) prog)
  obtain ⟨b, hb, hl, hq⟩ := h.bf
  rw [hb, List.getElem?_append_left] at hm
  · obtain ⟨h1, h2⟩ := hq k w m hw hm
    refine ⟨?_, h2⟩
    rw [← h.dc, List.map_take, List.take_append_of_le_length (by simpa using h1)]
  · rw [hl]
    exact (List.getElem?_eq_some_iff.1 hw).1

/-- **C171** (each once): when all documents are finished, each has been compiled exactly once. -/
theorem C171_once (n : Int) (cpus : Nat) (prog : List (Instr D)) (as : List (Actor E))
    (hp : (run (limit n cpus) (start prog) as).prog = [])
    (hf : (run (limit n cpus) (start prog) as).jobs.all isFinished = true) :
    (run (limit n cpus) (start prog) as).log.Perm (docs prog) := by
  have h := inv_run (n := limit n cpus) as (inv_start (E := E) (limit n cpus) prog)
  generalize run (limit n cpus) (start prog) as = s at *
  rw [List.perm_iff_count]
  intro d
  have hd := h.dc
  rw [hp] at hd
  simp only [docs, List.append_nil] at hd
  rw [h.lg, ← hd, List.count, List.countP_map]
  refine List.countP_congr fun j hj => ?_
  have := List.all_eq_true.1 hf j hj
  obtain ⟨d', p⟩ := j
  cases p <;> first | (simp [logged, isCompiled]; done) | cases this

/-- **C171** (no deadlock): as long as the caller is not at its end, somebody can go on; and whoever goes on, there
are fewer steps left, so every schedule that lets somebody go on comes to the end. -/
theorem C171_ends (n : Int) (cpus : Nat) (prog : List (Instr D)) (as : List (Actor E))
    (hp : (run (limit n cpus) (start prog) as).prog ≠ []) :
    (∃ x t, step (limit n cpus) (run (limit n cpus) (start prog) as) x = some t) ∧
      ∀ x t, step (limit n cpus) (run (limit n cpus) (start prog) as) x = some t →
        rank t < rank (run (limit n cpus) (start prog) as) := by
  have h := inv_run (n := limit n cpus) as (inv_start (E := E) (limit n cpus) prog)
  refine ⟨progress ?_ h hp, fun x t ht => by have := rank_step ht; omega⟩
  unfold limit
  split <;> omega

/-- **C171** (the end is reached): from every state that can be reached there is a way to the end of the caller. -/
theorem C171_reaches (n : Int) (cpus : Nat) (prog : List (Instr D)) (as : List (Actor E)) :
    ∃ bs, (run (limit n cpus) (start prog) (as ++ bs)).prog = [] := by
  have happ : ∀ (as bs : List (Actor E)) (s : St D E),
      run (limit n cpus) s (as ++ bs) = run (limit n cpus) (run (limit n cpus) s as) bs := by
    intro as bs
    induction as with
    | nil => intro s; rfl
    | cons x as ih => intro s; rw [List.cons_append, run, run, ih]
  suffices ∀ k (s : St D E), Inv (limit n cpus) prog s → rank s ≤ k → ∃ bs, (run (limit n cpus) s bs).prog = [] by
    obtain ⟨bs, hbs⟩ := this _ _ (inv_run (n := limit n cpus) as (inv_start (E := E) (limit n cpus) prog)) (Nat.le_refl _)
    exact ⟨bs, by rw [happ]; exact hbs⟩
  intro k
  induction k with
  | zero =>
    intro s _ hk
    refine ⟨[], ?_⟩
    rw [run]
    cases hs : s.prog with
    | nil => rfl
    | cons x p =>
      exfalso
      unfold rank at hk
      rw [hs] at hk
      cases x <;> simp [cost] at hk
  | succ k ih =>
    intro s hi hk
    by_cases hp : s.prog = []
    · exact ⟨[], hp⟩
    · obtain ⟨x, t, ht⟩ := progress (by unfold limit; split <;> omega) hi hp
      have := rank_step ht
      obtain ⟨bs, hbs⟩ := ih t (inv_step hi ht) (by omega)
      exact ⟨x :: bs, by rw [run, ht]; exact hbs⟩

/-! ## One compilation -/

omit [DecidableEq D] in
theorem baseName_slash (dir name : Bytes) (h : 47 ∉ name) : baseName (dir ++ 47 :: name) = name := by
  unfold baseName
  rw [List.reverse_append, List.reverse_cons, List.append_assoc, List.takeWhile_append_of_pos]
  · simp
  · intro x hx
    have : x ∈ name := List.mem_reverse.1 hx
    simp only [ne_eq, decide_not, Bool.not_eq_eq_eq_not, Bool.not_true, decide_eq_false_iff_not]
    rintro rfl
    exact h this

/-- **C171** (one document): if the command makes a PDF with the name of the document, then it is beside the document
afterwards, and no other file has changed. -/
theorem C171_pdf (cmd : Bytes → Option (Bytes → Option Bytes)) (canCreate : Bytes → Bool) (dir name pdf : Bytes)
    (files : Bytes → Option Bytes) (fs : Fs) (hs : 47 ∉ name)
    (hc : cmd (dir ++ 47 :: name ++ dotTex) = some files) (hf : files (name ++ dotPdf) = some pdf)
    (ho : canCreate (dir ++ 47 :: name ++ dotPdf) = true) :
    (compile cmd canCreate (dir ++ 47 :: name ++ dotTex) fs).1 = .ok ∧
      (compile cmd canCreate (dir ++ 47 :: name ++ dotTex) fs).2 (dir ++ 47 :: name ++ dotPdf) = some pdf ∧
      ∀ q, q ≠ dir ++ 47 :: name ++ dotPdf → (compile cmd canCreate (dir ++ 47 :: name ++ dotTex) fs).2 q = fs q := by
  have ht : (dir ++ 47 :: name ++ dotTex).take ((dir ++ 47 :: name ++ dotTex).length - dotTex.length) =
      dir ++ 47 :: name := by
    rw [List.length_append, Nat.add_sub_cancel, List.take_left']
    rfl
  have hb : baseName (dir ++ 47 :: name ++ dotPdf) = name ++ dotPdf := by
    rw [List.append_assoc, List.cons_append]
    refine baseName_slash dir (name ++ dotPdf) fun hm => ?_
    rcases List.mem_append.1 hm with hm | hm
    · exact hs hm
    · revert hm; decide
  have hl : ¬ (dir ++ 47 :: name ++ dotTex).length < dotTex.length := by
    rw [List.length_append]; omega
  have : compile cmd canCreate (dir ++ 47 :: name ++ dotTex) fs = (.ok, put fs (dir ++ 47 :: name ++ dotPdf) pdf) := by
    rw [compile, hc]
    dsimp only
    rw [collect, if_neg hl, ht, if_pos ho, hb, hf]
  rw [this]
  exact ⟨rfl, by simp [put], fun q hq => if_neg hq⟩

/-- **C171** (failure): if the command fails, this is an error and no file has changed. -/
theorem C171_failed (cmd : Bytes → Option (Bytes → Option Bytes)) (canCreate : Bytes → Bool) (fname : Bytes) (fs : Fs)
    (hc : cmd fname = none) : compile cmd canCreate fname fs = (.err, fs) := by
  rw [compile, hc]

/-! ## Examples and counterexamples -/

/-- Three documents and two places: the second one fails. -/
def three : List (Instr Nat) := [.compile 1, .compile 2, .compile 3, .wait]

def sched : List (Actor Nat) :=
  [.main, .main, .main, .job 2 none, .job 1 none, .job 0 none, .job 1 (some 7), .job 1 none, .job 0 none, .job 1 none,
    .job 0 none, .main, .job 0 none, .job 0 none, .job 2 none, .job 2 none, .job 2 none, .main]

example : (run (limit 2 8) (start three) sched).waits = [some 7] ∧
    (run (limit 2 8) (start three) sched).log = [2, 1, 3] ∧
    (run (limit 2 8) (start three) (sched.take 6)).jobs.countP isRunning = 2 ∧
    (run (limit 2 8) (start three) sched).prog = [] ∧
    (run (limit 2 8) (start three) sched).jobs.all isFinished = true ∧ before 0 three = [3] := by
  decide +kernel

example : (run (limit 2 8) (start three) (sched.take 6)).prog ≠ [] := by decide +kernel

/-- A handler that is used again: after an error every `Wait` gives this error, although all documents since
have been compiled. -/
theorem C171_sticky_counterexample :
    (run (limit 2 8) (start [.compile 1, .wait, .compile 2, .wait])
      ([.main, .job 0 none, .job 0 (some 7), .job 0 none, .job 0 none, .main, .main, .job 1 none, .job 1 none,
        .job 1 none, .job 1 none, .main] : List (Actor Nat))).waits = [some 7, some 7] := by
  decide +kernel

/-- `CompileLatex` itself never fails, whatever the document is: only `Wait` does. -/
example : (run (limit 2 8) (start [.compile 1]) ([.main] : List (Actor Nat))).prog = [] := by
  decide +kernel

/-- `/a/p.tex`, `p.pdf` -/
example : (47 : UInt8) ∉ ([112] : Bytes) ∧
    (compile (fun _ => some fun n => if n = [112] ++ dotPdf then some [1, 2] else none) (fun _ => true)
      ([47, 97] ++ 47 :: [112] ++ dotTex) (fun _ => none)).2 ([47, 97] ++ 47 :: [112] ++ dotPdf) = some [1, 2] := by
  decide +kernel

/-- The command succeeds but makes no PDF with the name of the document: there is an error, but the PDF of an
earlier compilation is now empty. -/
theorem C171_emptied_counterexample :
    (compile (fun _ => some fun _ => none) (fun _ => true) ([47, 112] ++ dotTex)
      (fun q => if q = [47, 112] ++ dotPdf then some [1, 2] else none)).1 = .err ∧
    (compile (fun _ => some fun _ => none) (fun _ => true) ([47, 112] ++ dotTex)
      (fun q => if q = [47, 112] ++ dotPdf then some [1, 2] else none)).2 ([47, 112] ++ dotPdf) = some [] := by
  decide +kernel

/-- A document that is called `abc` panics, after it has been compiled. -/
theorem C171_short_counterexample (files : Bytes → Option Bytes) (canCreate : Bytes → Bool) (fs : Fs) :
    (compile (fun _ => some files) canCreate [97, 98, 99] fs).1 = .panic := rfl

end Verif.Hplot.Htex
