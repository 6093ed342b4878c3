import Verif.Fwk.Event

/-!
# An event with an acyclic data flow runs to its end (C49)
-/

namespace Verif.Fwk

open Relation

variable {K A : Type} [DecidableEq K]

/-- A task keeps to its declared ports as long as the store is not closed: it gets only keys of `ins`, puts
each key of `todo` once and no other key, and does not return without error before all of them are put. -/
def Obeys (ins : K → Prop) : List K → Prog K A → Prop
  | todo, .ret e => e = true ∨ todo = []
  | todo, .get k next => ins k ∧ ∀ v, Obeys ins todo (next (some v))
  | todo, .put k _ next => k ∈ todo ∧ Obeys ins (todo.erase k) (next true)

/-- A data flow: what the tasks get and put, and the keys filled by the input stream. Each key is put by
one task at most, each key which is needed is put by a task or by the input stream; and all are keys of
the store, as fwk/dflow.go:143-149 (`keys`) are all ports declared. -/
structure Flow {n : Nat} (known : K → Bool) (input : K → Option A) (ins : Fin n → K → Prop) (outs : Fin n → List K) : Prop where
  nodup : ∀ i, (outs i).Nodup
  apart : ∀ i j k, k ∈ outs i → k ∈ outs j → i = j
  fresh : ∀ i k, k ∈ outs i → input k = none
  made : ∀ i k, ins i k → input k ≠ none ∨ ∃ j, k ∈ outs j
  knownIn : ∀ i k, ins i k → known k = true
  knownOut : ∀ i k, k ∈ outs i → known k = true

/-- Task `i` needs a key which task `j` puts. -/
def Needs {n : Nat} (ins : Fin n → K → Prop) (outs : Fin n → List K) (i j : Fin n) : Prop := ∃ k, ins i k ∧ k ∈ outs j

/-- The key has been put. -/
def Put {n : Nat} (input : K → Option A) (outs todo : Fin n → List K) (k : K) : Prop :=
  input k ≠ none ∨ ∃ j, k ∈ outs j ∧ k ∉ todo j

/-- The state of a task agrees with what it has still to put. -/
def TaskOk (ins : K → Prop) (todo : List K) : TSt K A → Prop
  | .run p => Obeys ins todo p
  | .hold k _ p => ins k ∧ Obeys ins todo p
  | .fin e => e = true ∨ todo = []
  | .gone => todo = []

/-- A task is inside `Get` for the key. -/
def EvSt.holds {n : Nat} (σ : EvSt n K A) (k : K) (i : Fin n) : Prop := ∃ v p, σ.task i = .hold k v p

def TSt.isGone : TSt K A → Bool
  | .gone => true
  | _ => false

/-- The tasks of which the worker has received the result. -/
def EvSt.collected {n : Nat} (σ : EvSt n K A) : Finset (Fin n) := Finset.univ.filter fun i => (σ.task i).isGone

/-- The invariant of an event until the worker is done with it; `todo` are the keys which each task has still
to put. -/
structure EvInv {n : Nat} (known : K → Bool) (input : K → Option A) (ins : Fin n → K → Prop) (outs todo : Fin n → List K)
    (σ : EvSt n K A) : Prop where
  known : σ.known = known
  quit : σ.quit = false
  sub : ∀ i k, k ∈ todo i → k ∈ outs i
  nodup : ∀ i, (todo i).Nodup
  ok : ∀ i, TaskOk (ins i) (todo i) (σ.task i)
  avail : ∀ k, Put input outs todo k → σ.chan k ≠ none ∨ ∃ i, σ.holds k i
  one : ∀ k i, σ.holds k i → σ.chan k = none ∧ ∀ j, σ.holds k j → j = i
  empty : ∀ k j, k ∈ todo j → σ.chan k = none ∧ ∀ i, ¬ σ.holds k i
  count : σ.ndone = σ.collected.card
  more : n ≠ 0 → σ.ndone < n

omit [DecidableEq K] in
theorem collected_same {n : Nat} {σ : EvSt n K A} {i : Fin n} {t : TSt K A} (h : (σ.task i).isGone = false) (ht : t.isGone = false) :
    (σ.setTask i t).collected = σ.collected := by
  ext j
  unfold EvSt.collected
  rw [Finset.mem_filter, Finset.mem_filter, setTask_task]
  split
  · rename_i hj; subst hj; rw [h, ht]
  · rfl

omit [DecidableEq K] in
theorem collected_gone {n : Nat} {σ : EvSt n K A} {i : Fin n} (h : (σ.task i).isGone = false) :
    (σ.setTask i .gone).collected.card = σ.collected.card + 1 := by
  have : (σ.setTask i .gone).collected = insert i σ.collected := by
    ext j
    unfold EvSt.collected
    rw [Finset.mem_insert, Finset.mem_filter, Finset.mem_filter, setTask_task]
    by_cases hj : j = i
    · subst hj; simp [TSt.isGone]
    · simp [hj]
  rw [this, Finset.card_insert_of_notMem]
  simp [EvSt.collected, h]

omit [DecidableEq K] in
theorem holds_set {n : Nat} {σ : EvSt n K A} {i j : Fin n} {t : TSt K A} {k : K} (h : (σ.setTask i t).holds k j) :
    (j = i ∧ ∃ v p, t = .hold k v p) ∨ (j ≠ i ∧ σ.holds k j) := by
  obtain ⟨v, p, h⟩ := h
  rw [setTask_task] at h
  split at h
  · rename_i hj; exact Or.inl ⟨hj, v, p, h⟩
  · rename_i hj; exact Or.inr ⟨hj, v, p, h⟩

omit [DecidableEq K] in
theorem holds_set_ne {n : Nat} {σ : EvSt n K A} {i j : Fin n} {t : TSt K A} {k : K} (hj : j ≠ i) :
    (σ.setTask i t).holds k j ↔ σ.holds k j := by
  unfold EvSt.holds
  simp [setTask_task, hj]

/-- Replacing the state of a task which is not inside `Get` by another such state keeps the invariant. -/
theorem EvInv.quiet {n : Nat} {known : K → Bool} {input : K → Option A} {ins : Fin n → K → Prop} {outs todo : Fin n → List K}
    {σ : EvSt n K A} (h : EvInv known input ins outs todo σ) {i : Fin n} {t : TSt K A} (hi : ∀ k, ¬ σ.holds k i)
    (hg : (σ.task i).isGone = false) (ht : ∀ k v p, t ≠ .hold k v p) (htg : t.isGone = false) (hok : TaskOk (ins i) (todo i) t) :
    EvInv known input ins outs todo (σ.setTask i t) := by
  have hh : ∀ k j, (σ.setTask i t).holds k j ↔ σ.holds k j := by
    intro k j
    by_cases hj : j = i
    · subst hj
      constructor
      · intro hc
        rcases holds_set hc with ⟨_, v, p, e⟩ | ⟨hn, _⟩
        · exact absurd e (ht k v p)
        · exact absurd rfl hn
      · intro hc; exact absurd hc (hi k)
    · exact holds_set_ne hj
  refine ⟨h.known, h.quit, h.sub, h.nodup, ?_, ?_, ?_, ?_, ?_, h.more⟩
  · intro j
    rw [setTask_task]
    split
    · rename_i hj; subst hj; exact hok
    · exact h.ok j
  · intro k hp
    rcases h.avail k hp with hc | ⟨j, hj⟩
    · exact Or.inl hc
    · exact Or.inr ⟨j, (hh k j).mpr hj⟩
  · intro k j hj
    obtain ⟨h1, h2⟩ := h.one k j ((hh k j).mp hj)
    exact ⟨h1, fun j' hj' => h2 j' ((hh k j').mp hj')⟩
  · intro k j hj
    obtain ⟨h1, h2⟩ := h.empty k j hj
    exact ⟨h1, fun j' hj' => h2 j' ((hh k j').mp hj')⟩
  · show σ.ndone = _
    rw [collected_same hg htg]; exact h.count

/-- The invariant is kept by each step, until the worker is done. -/
theorem EvInv.step {n : Nat} {known : K → Bool} {input : K → Option A} {ins : Fin n → K → Prop} {outs todo : Fin n → List K}
    {σ σ' : EvSt n K A} {e : EvEv n} (hf : Flow known input ins outs) (h : EvInv known input ins outs todo σ)
    (hx : σ.exec e = some σ') (hend : σ'.ended = none) : ∃ todo', EvInv known input ins outs todo' σ' := by
  cases e with
  | step i =>
    simp only [EvSt.exec] at hx
    have hok := h.ok i
    cases ht : σ.task i with
    | run p =>
      rw [ht] at hok
      have hnh : ∀ k, ¬ σ.holds k i := by rintro k ⟨v, q, hq⟩; rw [ht] at hq; cases hq
      have hng : (σ.task i).isGone = false := by rw [ht]; rfl
      cases p with
      | ret e =>
        simp only [EvSt.taskStep, ht] at hx
        cases hx
        exact ⟨todo, h.quiet hnh hng (by simp) rfl hok⟩
      | get k next =>
        obtain ⟨hk, hnext⟩ := hok
        simp only [EvSt.taskStep, ht, EvSt.getStep, h.known, hf.knownIn i k hk, if_true] at hx
        split at hx
        · rename_i v hv
          cases hx
          refine ⟨todo, h.known, h.quit, h.sub, h.nodup, ?_, ?_, ?_, ?_, ?_, h.more⟩
          · intro j
            rw [setTask_task]
            split
            · rename_i hj; subst hj; exact ⟨hk, hnext v⟩
            · exact h.ok j
          · intro k' hp
            by_cases hkk : k' = k
            · subst hkk
              exact Or.inr ⟨i, v, next (some v), by simp [setTask_task]⟩
            · rcases h.avail k' hp with hc | ⟨j, hj⟩
              · left
                simpa [EvSt.setTask, EvSt.setChan, hkk] using hc
              · have hji : j ≠ i := fun e => hnh k' (e ▸ hj)
                exact Or.inr ⟨j, (holds_set_ne (σ := σ.setChan k none) hji).mpr hj⟩
          · intro k' j hj
            rcases holds_set hj with ⟨rfl, v', p', he⟩ | ⟨hji, hj⟩
            · cases he
              refine ⟨by simp [EvSt.setTask, EvSt.setChan], ?_⟩
              intro j' hj'
              rcases holds_set hj' with ⟨e, _⟩ | ⟨_, hj'⟩
              · exact e
              · have := (h.one k j' hj').1
                rw [hv] at this; cases this
            · have hj : σ.holds k' j := hj
              obtain ⟨h1, h2⟩ := h.one k' j hj
              have hkk : k' ≠ k := fun e => by rw [e, hv] at h1; cases h1
              refine ⟨by simpa [EvSt.setTask, EvSt.setChan, hkk] using h1, ?_⟩
              intro j' hj'
              rcases holds_set hj' with ⟨_, v', p', he⟩ | ⟨_, hj'⟩
              · cases he; exact absurd rfl hkk
              · exact h2 j' hj'
          · intro k' j hj
            obtain ⟨h1, h2⟩ := h.empty k' j hj
            have hkk : k' ≠ k := fun e => by rw [e, hv] at h1; cases h1
            refine ⟨by simpa [EvSt.setTask, EvSt.setChan, hkk] using h1, ?_⟩
            intro j' hj'
            rcases holds_set hj' with ⟨_, v', p', he⟩ | ⟨_, hj'⟩
            · cases he; exact hkk rfl
            · exact h2 j' hj'
          · show σ.ndone = _
            rw [collected_same (σ := σ.setChan k none) hng rfl]; exact h.count
        · cases hx
      | put k v next =>
        obtain ⟨hk, hnext⟩ := hok
        have hemp := h.empty k i hk
        simp only [EvSt.taskStep, ht, EvSt.putStep, h.known, hf.knownOut i k (h.sub i k hk), if_true, hemp.1] at hx
        cases hx
        have hi' : ∀ j, j ≠ i → k ∉ todo j := by
          intro j hj hc
          exact hj (hf.apart j i k (h.sub j k hc) (h.sub i k hk))
        refine ⟨fun j => if j = i then (todo i).erase k else todo j, h.known, h.quit, ?_, ?_, ?_, ?_, ?_, ?_, ?_, h.more⟩
        · intro j k' hk'
          by_cases hj : j = i
          · subst hj
            simp only [if_true] at hk'
            exact h.sub j k' (List.mem_of_mem_erase hk')
          · simp only [if_neg hj] at hk'
            exact h.sub j k' hk'
        · intro j
          by_cases hj : j = i
          · subst hj; simp only [if_true]; exact (h.nodup j).erase k
          · simp only [if_neg hj]; exact h.nodup j
        · intro j
          rw [setTask_task]
          by_cases hj : j = i
          · subst hj; simp only [if_true]; exact hnext
          · simp only [if_neg hj]; exact h.ok j
        · intro k' hp
          by_cases hkk : k' = k
          · subst hkk; left; simp [EvSt.setTask, EvSt.setChan]
          · have hp' : Put input outs todo k' := by
              rcases hp with hp | ⟨j, h1, h2⟩
              · exact Or.inl hp
              · refine Or.inr ⟨j, h1, fun hc => h2 ?_⟩
                by_cases hj : j = i
                · subst hj; simp only [if_true]; exact (List.mem_erase_of_ne hkk).mpr hc
                · simp only [if_neg hj]; exact hc
            rcases h.avail k' hp' with hc | ⟨j, hj⟩
            · left; simpa [EvSt.setTask, EvSt.setChan, hkk] using hc
            · have hji : j ≠ i := fun e => hnh k' (e ▸ hj)
              exact Or.inr ⟨j, (holds_set_ne (σ := σ.setChan k (some v)) hji).mpr hj⟩
        · intro k' j hj
          rcases holds_set hj with ⟨_, v', p', he⟩ | ⟨hji, hj⟩
          · cases he
          · have hj : σ.holds k' j := hj
            have hkk : k' ≠ k := fun e => hemp.2 j (e ▸ hj)
            obtain ⟨h1, h2⟩ := h.one k' j hj
            refine ⟨by simpa [EvSt.setTask, EvSt.setChan, hkk] using h1, ?_⟩
            intro j' hj'
            rcases holds_set hj' with ⟨_, v', p', he⟩ | ⟨_, hj'⟩
            · cases he
            · exact h2 j' hj'
        · intro k' j hj
          have hkk : k' ≠ k := by
            rintro rfl
            by_cases hji : j = i
            · subst hji
              simp only [if_true] at hj
              exact ((h.nodup j).mem_erase_iff.mp hj).1 rfl
            · simp only [if_neg hji] at hj
              exact hi' j hji hj
          have hj' : k' ∈ todo j := by
            by_cases hji : j = i
            · subst hji; simp only [if_true] at hj; exact List.mem_of_mem_erase hj
            · simp only [if_neg hji] at hj; exact hj
          obtain ⟨h1, h2⟩ := h.empty k' j hj'
          refine ⟨by simpa [EvSt.setTask, EvSt.setChan, hkk] using h1, ?_⟩
          intro j' hj'
          rcases holds_set hj' with ⟨_, v', p', he⟩ | ⟨_, hj'⟩
          · cases he
          · exact h2 j' hj'
        · show σ.ndone = _
          rw [collected_same (σ := σ.setChan k (some v)) hng rfl]; exact h.count
    | hold k v p =>
      rw [ht] at hok
      obtain ⟨hk, hp⟩ := hok
      have hhi : σ.holds k i := ⟨v, p, ht⟩
      obtain ⟨hc, huniq⟩ := h.one k i hhi
      have hng : (σ.task i).isGone = false := by rw [ht]; rfl
      have hik : ∀ k', σ.holds k' i → k' = k := by
        rintro k' ⟨v', p', e⟩; rw [ht] at e; cases e; rfl
      simp only [EvSt.taskStep, ht, EvSt.backStep, hc] at hx
      cases hx
      refine ⟨todo, h.known, h.quit, h.sub, h.nodup, ?_, ?_, ?_, ?_, ?_, h.more⟩
      · intro j
        rw [setTask_task]
        split
        · rename_i hj; subst hj; exact hp
        · exact h.ok j
      · intro k' hp
        by_cases hkk : k' = k
        · subst hkk; left; simp [EvSt.setTask, EvSt.setChan]
        · rcases h.avail k' hp with hc | ⟨j, hj⟩
          · left; simpa [EvSt.setTask, EvSt.setChan, hkk] using hc
          · have hji : j ≠ i := fun e => hkk (hik k' (e ▸ hj))
            exact Or.inr ⟨j, (holds_set_ne (σ := σ.setChan k (some v)) hji).mpr hj⟩
      · intro k' j hj
        rcases holds_set hj with ⟨_, v', p', he⟩ | ⟨hji, hj⟩
        · cases he
        · have hj : σ.holds k' j := hj
          have hkk : k' ≠ k := fun e => hji (huniq j (e ▸ hj))
          obtain ⟨h1, h2⟩ := h.one k' j hj
          refine ⟨by simpa [EvSt.setTask, EvSt.setChan, hkk] using h1, ?_⟩
          intro j' hj'
          rcases holds_set hj' with ⟨_, v', p', he⟩ | ⟨_, hj'⟩
          · cases he
          · exact h2 j' hj'
      · intro k' j hj
        obtain ⟨h1, h2⟩ := h.empty k' j hj
        have hkk : k' ≠ k := fun e => h2 i (e ▸ hhi)
        refine ⟨by simpa [EvSt.setTask, EvSt.setChan, hkk] using h1, ?_⟩
        intro j' hj'
        rcases holds_set hj' with ⟨_, v', p', he⟩ | ⟨_, hj'⟩
        · cases he
        · exact h2 j' hj'
      · show σ.ndone = _
        rw [collected_same (σ := σ.setChan k (some v)) hng rfl]; exact h.count
    | fin e => simp only [EvSt.taskStep, ht] at hx; cases hx
    | gone => simp only [EvSt.taskStep, ht] at hx; cases hx
  | quit i =>
    simp only [EvSt.exec, EvSt.quitStep, h.quit] at hx
    cases hx
  | collect i =>
    simp only [EvSt.exec, EvSt.collectStep] at hx
    split at hx
    · cases hx; cases hend
    · rename_i _ ht
      have hok := h.ok i
      rw [ht] at hok
      have htodo : todo i = [] := hok.resolve_left (by simp)
      have hng : (σ.task i).isGone = false := by rw [ht]; rfl
      have hnh : ∀ k, ¬ σ.holds k i := by rintro k ⟨v, q, hq⟩; rw [ht] at hq; cases hq
      split at hx
      · cases hx; cases hend
      · rename_i hnn
        cases hx
        have hh : ∀ k j, (σ.setTask i .gone).holds k j ↔ σ.holds k j := by
          intro k j
          by_cases hj : j = i
          · subst hj
            constructor
            · intro hc
              rcases holds_set hc with ⟨_, v, p, e⟩ | ⟨hn, _⟩
              · cases e
              · exact absurd rfl hn
            · intro hc; exact absurd hc (hnh k)
          · exact holds_set_ne hj
        refine ⟨todo, h.known, h.quit, h.sub, h.nodup, ?_, ?_, ?_, ?_, ?_, ?_⟩
        · intro j
          show TaskOk _ _ ((σ.setTask i .gone).task j)
          rw [setTask_task]
          split
          · rename_i hj; subst hj; exact htodo
          · exact h.ok j
        · intro k hp
          rcases h.avail k hp with hc | ⟨j, hj⟩
          · exact Or.inl hc
          · exact Or.inr ⟨j, (hh k j).mpr hj⟩
        · intro k j hj
          obtain ⟨h1, h2⟩ := h.one k j ((hh k j).mp hj)
          exact ⟨h1, fun j' hj' => h2 j' ((hh k j').mp hj')⟩
        · intro k j hj
          obtain ⟨h1, h2⟩ := h.empty k j hj
          exact ⟨h1, fun j' hj' => h2 j' ((hh k j').mp hj')⟩
        · show σ.ndone + 1 = (σ.setTask i .gone).collected.card
          rw [collected_gone hng, h.count]
        · intro hn0
          show σ.ndone + 1 < n
          have := h.more hn0
          omega
    · cases hx

/-- While the worker is not done, it was not done before. -/
theorem ended_back {n : Nat} {σ σ' : EvSt n K A} {e : EvEv n} (hx : σ.exec e = some σ') (h : σ'.ended = none) : σ.ended = none := by
  cases hend : σ.ended with
  | none => rfl
  | some b =>
    have : σ'.ended = some b := by
      cases e with
      | step i =>
        simp only [EvSt.exec, EvSt.taskStep] at hx
        split at hx
        · cases hx; exact hend
        · simp only [EvSt.getStep] at hx
          split at hx
          · split at hx
            · cases hx; exact hend
            · cases hx
          · cases hx; exact hend
        · simp only [EvSt.putStep] at hx
          split at hx
          · split at hx
            · cases hx; exact hend
            · cases hx
          · cases hx
        · simp only [EvSt.backStep] at hx
          split at hx
          · cases hx; exact hend
          · cases hx
        · cases hx
        · cases hx
      | quit i =>
        simp only [EvSt.exec, EvSt.quitStep] at hx
        split at hx
        · cases hx; exact hend
        · cases hx; exact hend
        · cases hx
      | collect i =>
        simp only [EvSt.exec, EvSt.collectStep, hend] at hx
        cases hx
    rw [this] at h; cases h

theorem EvInv.run {n : Nat} {known : K → Bool} {input : K → Option A} {ins : Fin n → K → Prop} {outs : Fin n → List K}
    (hf : Flow known input ins outs) : ∀ (es : List (EvEv n)) {todo : Fin n → List K} {σ σ' : EvSt n K A},
    EvInv known input ins outs todo σ → σ.run es = some σ' → σ'.ended = none → ∃ todo', EvInv known input ins outs todo' σ'
  | [], todo, σ, σ', h, hx, _ => by cases hx; exact ⟨todo, h⟩
  | e :: es, todo, σ, σ', h, hx, hend => by
    simp only [EvSt.run] at hx
    cases he : σ.exec e with
    | none => rw [he] at hx; cases hx
    | some τ =>
      rw [he] at hx
      have hback : ∀ (es : List (EvEv n)) {a b : EvSt n K A}, a.run es = some b → b.ended = none → a.ended = none := by
        intro es
        induction es with
        | nil => intro a b hab hb; cases hab; exact hb
        | cons e es ih =>
          intro a b hab hb
          simp only [EvSt.run] at hab
          cases he : a.exec e with
          | none => rw [he] at hab; cases hab
          | some c => rw [he] at hab; exact ended_back he (ih hab hb)
      obtain ⟨todo', h'⟩ := h.step hf he (hback es hx hend)
      exact EvInv.run hf es h' hx hend

omit [DecidableEq K] in
/-- In an acyclic data flow the tasks can be visited so that each comes after those it needs. -/
theorem needs_wf {n : Nat} {ins : Fin n → K → Prop} {outs : Fin n → List K}
    (hc : ∀ i, ¬ TransGen (Needs ins outs) i i) : WellFounded fun j i => Needs ins outs i j := by
  have h1 : WellFounded (TransGen fun j i => Needs ins outs i j) := by
    have hirr : Std.Irrefl (TransGen fun j i => Needs ins outs i j) := ⟨fun i h => hc i (transGen_swap.mp h)⟩
    exact Finite.wellFounded_of_trans_of_irrefl _
  exact Subrelation.wf (fun {a b} (h : Needs ins outs b a) => TransGen.single (r := fun j i => Needs ins outs i j) h) h1

/-- C49: if the data flow is acyclic, each input has a producer and the tasks keep to their declared ports, then
as long as the worker has not finished the event (successfully, or because a task failed), something can
happen: the event is never stuck. -/
theorem C49_progress_partial {n : Nat} (hn : n ≠ 0) (known : K → Bool) (input : K → Option A) (ins : Fin n → K → Prop)
    (outs : Fin n → List K) (progs : Fin n → Prog K A) (hf : Flow known input ins outs)
    (hc : ∀ i, ¬ TransGen (Needs ins outs) i i) (hp : ∀ i, Obeys (ins i) (outs i) (progs i)) (es : List (EvEv n))
    (σ : EvSt n K A) (hx : (EvSt.start known input progs).run es = some σ) (hend : σ.ended = none) :
    ∃ e, (σ.exec e).isSome = true := by
  have h0 : EvInv known input ins outs outs (EvSt.start known input progs) := by
    refine ⟨rfl, rfl, fun _ _ h => h, hf.nodup, hp, ?_, ?_, ?_, ?_, fun _ => Nat.pos_of_ne_zero hn⟩
    · intro k hk
      rcases hk with hk | ⟨j, h1, h2⟩
      · exact Or.inl hk
      · exact absurd h1 h2
    · rintro k i ⟨v, p, h⟩; cases h
    · intro k j hk
      refine ⟨hf.fresh j k hk, ?_⟩
      rintro i ⟨v, p, h⟩; cases h
    · show 0 = _
      unfold EvSt.collected
      simp [EvSt.start, TSt.isGone]
  obtain ⟨todo, h⟩ := EvInv.run hf es h0 hx hend
  by_contra hno
  have hstep : ∀ i, σ.taskStep i = none := by
    intro i
    cases hs : σ.taskStep i with
    | none => rfl
    | some τ => exact absurd ⟨.step i, by simp only [EvSt.exec, hs]; rfl⟩ hno
  have hcol : ∀ i, σ.collectStep i = none := by
    intro i
    cases hs : σ.collectStep i with
    | none => rfl
    | some τ => exact absurd ⟨.collect i, by simp only [EvSt.exec, hs]; rfl⟩ hno
  have hnohold : ∀ k i, ¬ σ.holds k i := by
    rintro k i ⟨v, p, hi⟩
    have := hstep i
    simp only [EvSt.taskStep, hi, EvSt.backStep, (h.one k i ⟨v, p, hi⟩).1] at this
    cases this
  -- every task which is not done waits for a task which is not done
  have hwait : ∀ i, (σ.task i).isGone = false → ∃ j, Needs ins outs i j ∧ (σ.task j).isGone = false := by
    intro i hi
    have hok := h.ok i
    have hs := hstep i
    cases ht : σ.task i with
    | run p =>
      rw [ht] at hok
      cases p with
      | ret e => simp only [EvSt.taskStep, ht] at hs; cases hs
      | get k next =>
        obtain ⟨hk, _⟩ := hok
        simp only [EvSt.taskStep, ht, EvSt.getStep, h.known, hf.knownIn i k hk, if_true] at hs
        have hch : σ.chan k = none := by
          cases hch : σ.chan k with
          | none => rfl
          | some v => rw [hch] at hs; cases hs
        have hnp : ¬ Put input outs todo k := by
          intro hput
          rcases h.avail k hput with h1 | ⟨j, hj⟩
          · exact h1 hch
          · exact hnohold k j hj
        rcases hf.made i k hk with hi | ⟨j, hj⟩
        · exact absurd (Or.inl hi) hnp
        · refine ⟨j, ⟨k, hk, hj⟩, ?_⟩
          have hjt : k ∈ todo j := by
            by_contra hc
            exact hnp (Or.inr ⟨j, hj, hc⟩)
          have hokj := h.ok j
          cases htj : σ.task j with
          | gone =>
            rw [htj] at hokj
            have : todo j = [] := hokj
            rw [this] at hjt; cases hjt
          | run _ => rfl
          | hold _ _ _ => rfl
          | fin _ => rfl
      | put k v next =>
        obtain ⟨hk, _⟩ := hok
        simp only [EvSt.taskStep, ht, EvSt.putStep, h.known, hf.knownOut i k (h.sub i k hk), if_true, (h.empty k i hk).1] at hs
        cases hs
    | hold k v p => exact absurd ⟨v, p, ht⟩ (hnohold k i)
    | fin e =>
      have := hcol i
      simp only [EvSt.collectStep, hend, ht] at this
      cases e with
      | true => cases this
      | false =>
        simp only at this
        split at this <;> cases this
    | gone => rw [ht] at hi; cases hi
  have hall : ∀ i, (σ.task i).isGone = true := by
    intro i
    induction i using (needs_wf hc).induction with
    | _ i ih =>
      cases hg : (σ.task i).isGone with
      | true => rfl
      | false =>
        obtain ⟨j, hj, hjg⟩ := hwait i hg
        rw [ih j hj] at hjg; cases hjg
  have hcard : σ.collected.card = n := by
    have : σ.collected = Finset.univ := by
      unfold EvSt.collected
      ext i; simp [hall i]
    rw [this]; simp
  have := h.more hn
  rw [h.count, hcard] at this
  exact Nat.lt_irrefl _ this

/-! ### Every execution is finite -/

/-- One step of a task. -/
inductive TStep : TSt K A → TSt K A → Prop
  | take (k v next) : TStep (.hold k v (next (some v))) (.run (.get k next))
  | noget (k next) : TStep (.run (next none)) (.run (.get k next))
  | back (k v p) : TStep (.run p) (.hold k v p)
  | put (k v next b) : TStep (.run (next b)) (.run (.put k v next))
  | ret (e) : TStep (.fin e) (.run (.ret e))
  | gone (e) : TStep .gone (.fin e)

omit [DecidableEq K] in
theorem tstep_wf : WellFounded (TStep (K := K) (A := A)) := by
  have hgone : Acc TStep (TSt.gone : TSt K A) := ⟨_, by rintro y ⟨⟩⟩
  have hfin : ∀ e, Acc TStep (TSt.fin e : TSt K A) := fun e => ⟨_, by rintro y ⟨⟩; exact hgone⟩
  have hrun : ∀ p : Prog K A, Acc TStep (.run p) := by
    intro p
    induction p with
    | ret e => exact ⟨_, by rintro y ⟨⟩; exact hfin e⟩
    | get k next ih =>
      refine ⟨_, ?_⟩
      rintro y ⟨⟩
      · refine ⟨_, ?_⟩
        rintro y ⟨⟩
        exact ih _
      · exact ih _
    | put k v next ih =>
      refine ⟨_, ?_⟩
      rintro y ⟨⟩
      exact ih _
  refine ⟨fun t => ?_⟩
  cases t with
  | run p => exact hrun p
  | hold k v p => exact ⟨_, by rintro y ⟨⟩; exact hrun p⟩
  | fin e => exact hfin e
  | gone => exact hgone

/-- Every step is a step of one task. -/
theorem exec_tstep {n : Nat} {σ σ' : EvSt n K A} {e : EvEv n} (hx : σ.exec e = some σ') :
    ∃ i, TStep (σ'.task i) (σ.task i) ∧ ∀ j, j ≠ i → σ'.task j = σ.task j := by
  have key : ∀ {τ : EvSt n K A} (i : Fin n) (t : TSt K A), (∀ j, τ.task j = if j = i then t else σ.task j) → TStep t (σ.task i) →
      ∃ i, TStep (τ.task i) (σ.task i) ∧ ∀ j, j ≠ i → τ.task j = σ.task j := by
    intro τ i t hτ ht
    refine ⟨i, ?_, fun j hj => by rw [hτ, if_neg hj]⟩
    rw [hτ, if_pos rfl]; exact ht
  cases e with
  | step i =>
    simp only [EvSt.exec, EvSt.taskStep] at hx
    split at hx
    · rename_i ht; cases hx; exact key i _ (fun _ => rfl) (ht ▸ .ret _)
    · rename_i ht
      simp only [EvSt.getStep] at hx
      split at hx
      · split at hx
        · cases hx; exact key i _ (fun _ => rfl) (ht ▸ .take _ _ _)
        · cases hx
      · cases hx; exact key i _ (fun _ => rfl) (ht ▸ .noget _ _)
    · rename_i ht
      simp only [EvSt.putStep] at hx
      split at hx
      · split at hx
        · cases hx; exact key i _ (fun _ => rfl) (ht ▸ .put _ _ _ _)
        · cases hx
      · cases hx
    · rename_i ht
      simp only [EvSt.backStep] at hx
      split at hx
      · cases hx; exact key i _ (fun _ => rfl) (ht ▸ .back _ _ _)
      · cases hx
    · cases hx
    · cases hx
  | quit i =>
    simp only [EvSt.exec, EvSt.quitStep] at hx
    split at hx
    · rename_i ht; cases hx; exact key i _ (fun _ => rfl) (ht ▸ .noget _ _)
    · rename_i ht; cases hx; exact key i _ (fun _ => rfl) (ht ▸ .put _ _ _ _)
    · cases hx
  | collect i =>
    simp only [EvSt.exec, EvSt.collectStep] at hx
    split at hx
    · rename_i ht; cases hx; exact key i _ (fun _ => rfl) (ht ▸ .gone _)
    · rename_i ht
      split at hx
      · cases hx; exact key i _ (fun _ => rfl) (ht ▸ .gone _)
      · cases hx; exact key i _ (fun _ => rfl) (ht ▸ .gone _)
    · cases hx

/-- C49: there is no infinite execution of an event, whatever the tasks do (each of them returns after finitely
many calls to the store); with `C49_progress_partial`, the event ends on every schedule. -/
theorem C49_terminates {n : Nat} : WellFounded fun σ' σ : EvSt n K A => ∃ e, σ.exec e = some σ' := by
  have hlex := Pi.Lex.wellFounded (r := (· < · : Fin n → Fin n → Prop)) (s := fun {_} => TStep (K := K) (A := A)) fun _ => tstep_wf
  refine Subrelation.wf ?_ (InvImage.wf (fun σ : EvSt n K A => σ.task) hlex)
  rintro σ' σ ⟨e, hx⟩
  obtain ⟨i, h1, h2⟩ := exec_tstep hx
  exact ⟨i, fun j hj => h2 j (ne_of_lt hj), h1⟩

/-! ### The result -/

/-- The result which is sent by a task when an event happens. -/
def EvSt.result {n : Nat} (σ : EvSt n K A) : EvEv n → List (Fin n × Bool)
  | .step i =>
    match σ.task i with
    | .run (.ret b) => [(i, b)]
    | _ => []
  | _ => []

/-- The results sent by the tasks during an execution (`true`: an error). -/
def EvSt.results {n : Nat} (σ : EvSt n K A) : List (EvEv n) → List (Fin n × Bool)
  | [] => []
  | e :: es => σ.result e ++ ((σ.exec e).map fun σ' => σ'.results es).getD []

/-- The results of the tasks and what the worker knows of them agree: it is done without error only after it
has received the results of all tasks, none of which is an error, and with an error only after it has
received an error. -/
structure ResInv {n : Nat} (past : List (Fin n × Bool)) (σ : EvSt n K A) : Prop where
  fin : ∀ i e, σ.task i = .fin e → (i, e) ∈ past
  sent : ∀ i e, (i, e) ∈ past → σ.task i = .fin e ∨ σ.task i = .gone
  gone : σ.ended = none → ∀ i, σ.task i = .gone → (i, false) ∈ past ∧ (i, true) ∉ past
  count : σ.ended = none → σ.ndone = σ.collected.card
  good : σ.ended = some false → ∀ i, σ.task i = .gone ∧ (i, false) ∈ past ∧ (i, true) ∉ past
  err : σ.ended = some true → ∃ i, (i, true) ∈ past

omit [DecidableEq K] in
theorem ResInv.quiet {n : Nat} {past : List (Fin n × Bool)} {σ τ : EvSt n K A} (h : ResInv past σ) {i : Fin n} {t : TSt K A}
    (hi : ∀ e, σ.task i ≠ .fin e) (hg : σ.task i ≠ .gone) (ht : ∀ e, t ≠ .fin e) (htg : t ≠ .gone)
    (hτ : ∀ j, τ.task j = if j = i then t else σ.task j) (he : τ.ended = σ.ended) (hn : τ.ndone = σ.ndone) : ResInv past τ := by
  have hfin : ∀ j e, τ.task j = .fin e ↔ σ.task j = .fin e := by
    intro j e
    rw [hτ]
    split
    · rename_i hj; subst hj; exact ⟨fun h => absurd h (ht e), fun h => absurd h (hi e)⟩
    · rfl
  have hgone : ∀ j, τ.task j = .gone ↔ σ.task j = .gone := by
    intro j
    rw [hτ]
    split
    · rename_i hj; subst hj; exact ⟨fun h => absurd h htg, fun h => absurd h hg⟩
    · rfl
  have hcol : τ.collected = σ.collected := by
    ext j
    have : ∀ t : TSt K A, t.isGone = true ↔ t = .gone := by intro t; cases t <;> simp [TSt.isGone]
    unfold EvSt.collected
    rw [Finset.mem_filter, Finset.mem_filter, this, this, hgone]
  refine ⟨?_, ?_, ?_, ?_, ?_, ?_⟩
  · intro j e hj; exact h.fin j e ((hfin j e).mp hj)
  · intro j e hj; rw [hfin, hgone]; exact h.sent j e hj
  · intro hend j hj; exact h.gone (he ▸ hend) j ((hgone j).mp hj)
  · intro hend; rw [hn, hcol]; exact h.count (he ▸ hend)
  · intro hend j; rw [hgone]; exact h.good (he ▸ hend) j
  · intro hend; exact h.err (he ▸ hend)

theorem ResInv.step {n : Nat} {past : List (Fin n × Bool)} {σ σ' : EvSt n K A} {e : EvEv n} (h : ResInv past σ)
    (hx : σ.exec e = some σ') : ResInv (past ++ σ.result e) σ' := by
  cases e with
  | step i =>
    simp only [EvSt.exec] at hx
    cases ht : σ.task i with
    | run p =>
      have hi : ∀ e, σ.task i ≠ .fin e := by rw [ht]; simp
      have hg : σ.task i ≠ .gone := by rw [ht]; simp
      cases p with
      | ret b =>
        simp only [EvSt.taskStep, ht] at hx
        cases hx
        have hres : σ.result (.step i) = [(i, b)] := by simp only [EvSt.result, ht]
        have hnot : ∀ b', (i, b') ∉ past := by
          intro b' hb
          rcases h.sent i b' hb with h1 | h1 <;> rw [ht] at h1 <;> cases h1
        have hng : (σ.task i).isGone = false := by rw [ht]; rfl
        rw [hres]
        refine ⟨?_, ?_, ?_, ?_, ?_, ?_⟩
        · intro j e hj
          rw [setTask_task] at hj
          split at hj
          · rename_i hji; subst hji; cases hj; simp
          · exact List.mem_append_left _ (h.fin j e hj)
        · intro j e hj
          rw [setTask_task]
          rcases List.mem_append.mp hj with hj | hj
          · rw [if_neg (show ¬ j = i from fun e' => hnot e (e' ▸ hj))]
            exact h.sent j e hj
          · simp only [List.mem_singleton, Prod.mk.injEq] at hj
            rw [if_pos hj.1, hj.2]
            exact Or.inl rfl
        · intro hend j hj
          rw [setTask_task] at hj
          split at hj
          · cases hj
          · rename_i hji
            obtain ⟨h1, h2⟩ := h.gone hend j hj
            refine ⟨List.mem_append_left _ h1, ?_⟩
            simp only [List.mem_append, List.mem_singleton, Prod.mk.injEq, not_or, not_and]
            exact ⟨h2, fun e => absurd e hji⟩
        · intro hend
          rw [collected_same hng rfl]
          exact h.count hend
        · intro hend j
          have := (h.good hend i).1
          exact absurd this hg
        · intro hend
          obtain ⟨j, hj⟩ := h.err hend
          exact ⟨j, List.mem_append_left _ hj⟩
      | get k next =>
        have hres : σ.result (.step i) = [] := by simp only [EvSt.result, ht]
        rw [hres, List.append_nil]
        simp only [EvSt.taskStep, ht, EvSt.getStep] at hx
        split at hx
        · split at hx
          · cases hx; exact h.quiet hi hg (by simp) (by simp) (fun _ => rfl) rfl rfl
          · cases hx
        · cases hx; exact h.quiet (t := .run (next none)) hi hg (by simp) (by simp) (fun _ => rfl) rfl rfl
      | put k v next =>
        have hres : σ.result (.step i) = [] := by simp only [EvSt.result, ht]
        rw [hres, List.append_nil]
        simp only [EvSt.taskStep, ht, EvSt.putStep] at hx
        split at hx
        · split at hx
          · cases hx; exact h.quiet hi hg (by simp) (by simp) (fun _ => rfl) rfl rfl
          · cases hx
        · cases hx
    | hold k v p =>
      have hres : σ.result (.step i) = [] := by simp only [EvSt.result, ht]
      rw [hres, List.append_nil]
      simp only [EvSt.taskStep, ht, EvSt.backStep] at hx
      split at hx
      · cases hx
        exact h.quiet (by rw [ht]; simp) (by rw [ht]; simp) (by simp) (by simp) (fun _ => rfl) rfl rfl
      · cases hx
    | fin e => simp only [EvSt.taskStep, ht] at hx; cases hx
    | gone => simp only [EvSt.taskStep, ht] at hx; cases hx
  | quit i =>
    simp only [EvSt.result, List.append_nil]
    simp only [EvSt.exec, EvSt.quitStep] at hx
    split at hx
    · rename_i ht; cases hx
      exact h.quiet (by rw [ht]; simp) (by rw [ht]; simp) (by simp) (by simp) (fun _ => rfl) rfl rfl
    · rename_i ht; cases hx
      exact h.quiet (by rw [ht]; simp) (by rw [ht]; simp) (by simp) (by simp) (fun _ => rfl) rfl rfl
    · cases hx
  | collect i =>
    simp only [EvSt.result, List.append_nil]
    simp only [EvSt.exec, EvSt.collectStep] at hx
    have key : ∀ {τ : EvSt n K A} {b : Bool}, σ.task i = .fin b → (∀ j, τ.task j = if j = i then .gone else σ.task j) →
        (∀ j e, τ.task j = .fin e → (j, e) ∈ past) ∧ ∀ j e, (j, e) ∈ past → τ.task j = .fin e ∨ τ.task j = .gone := by
      intro τ b ht hτ
      refine ⟨?_, ?_⟩
      · intro j e hj
        rw [hτ] at hj
        split at hj
        · cases hj
        · exact h.fin j e hj
      · intro j e hj
        rw [hτ]
        split
        · exact Or.inr rfl
        · exact h.sent j e hj
    split at hx
    · rename_i hend ht
      cases hx
      obtain ⟨k1, k2⟩ := key (τ := { σ.setTask i .gone with ndone := σ.ndone + 1, quit := true, ended := some true }) ht (fun _ => rfl)
      exact ⟨k1, k2, (by intro h; cases h), (by intro h; cases h), (by intro h; cases h), fun _ => ⟨i, h.fin i true ht⟩⟩
    · rename_i hend ht
      have hng : (σ.task i).isGone = false := by rw [ht]; rfl
      have hif : (i, false) ∈ past ∧ (i, true) ∉ past := by
        refine ⟨h.fin i false ht, fun hc => ?_⟩
        rcases h.sent i true hc with h1 | h1 <;> rw [ht] at h1 <;> cases h1
      split at hx
      · rename_i hnn
        cases hx
        obtain ⟨k1, k2⟩ := key (τ := { σ.setTask i .gone with ndone := σ.ndone + 1, quit := true, ended := some false }) ht (fun _ => rfl)
        refine ⟨k1, k2, (by intro h; cases h), (by intro h; cases h), ?_, (by intro h; cases h)⟩
        intro _ j
        have hcard : (σ.setTask i .gone).collected.card = n := by
          rw [collected_gone hng, ← h.count hend, hnn]
        have huniv : (σ.setTask i .gone).collected = Finset.univ := by
          apply Finset.eq_univ_of_card; rw [hcard]; simp
        have hj : j ∈ (σ.setTask i .gone).collected := by rw [huniv]; exact Finset.mem_univ _
        have hjg : (σ.setTask i .gone).task j = .gone := by
          have := (Finset.mem_filter.mp hj).2
          cases hc : (σ.setTask i .gone).task j <;> rw [hc] at this <;> first | rfl | cases this
        refine ⟨hjg, ?_⟩
        rw [setTask_task] at hjg
        split at hjg
        · rename_i hji; subst hji; exact hif
        · exact h.gone hend j hjg
      · cases hx
        obtain ⟨k1, k2⟩ := key (τ := { σ.setTask i .gone with ndone := σ.ndone + 1 }) ht (fun _ => rfl)
        refine ⟨k1, k2, ?_, ?_, ?_, ?_⟩
        · intro _ j hj
          have hj : (σ.setTask i .gone).task j = .gone := hj
          rw [setTask_task] at hj
          split at hj
          · rename_i hji; subst hji; exact hif
          · exact h.gone hend j hj
        · intro _
          show σ.ndone + 1 = (σ.setTask i .gone).collected.card
          rw [collected_gone hng, h.count hend]
        · intro hc
          have : σ.ended = some false := hc
          rw [hend] at this; cases this
        · intro hc
          have : σ.ended = some true := hc
          rw [hend] at this; cases this
    · cases hx

theorem ResInv.run {n : Nat} : ∀ (es : List (EvEv n)) {past : List (Fin n × Bool)} {σ σ' : EvSt n K A}, ResInv past σ →
    σ.run es = some σ' → ResInv (past ++ σ.results es) σ'
  | [], past, σ, σ', h, hx => by
    cases hx
    simpa [EvSt.results] using h
  | e :: es, past, σ, σ', h, hx => by
    simp only [EvSt.run] at hx
    cases he : σ.exec e with
    | none => rw [he] at hx; cases hx
    | some τ =>
      rw [he] at hx
      have := ResInv.run es (h.step he) hx
      simpa [EvSt.results, he] using this

/-- C49: the event is reported as processed only when every task has returned, without error; and it is reported
as failed only when a task has returned an error. This holds for all tasks and all schedules. -/
theorem C49_result {n : Nat} (known : K → Bool) (input : K → Option A) (progs : Fin n → Prog K A) (es : List (EvEv n))
    (σ : EvSt n K A) (hx : (EvSt.start known input progs).run es = some σ) :
    (σ.ended = some false → ∀ i, (i, false) ∈ (EvSt.start known input progs).results es ∧
      (i, true) ∉ (EvSt.start known input progs).results es) ∧
    (σ.ended = some true → ∃ i, (i, true) ∈ (EvSt.start known input progs).results es) := by
  have h0 : ResInv [] (EvSt.start known input progs) := by
    refine ⟨?_, ?_, ?_, ?_, ?_, ?_⟩
    · intro i e h; cases h
    · intro i e h; cases h
    · intro _ i h; cases h
    · intro _
      show 0 = _
      unfold EvSt.collected
      simp [EvSt.start, TSt.isGone]
    · intro h; cases h
    · intro h; cases h
  have h := ResInv.run es h0 hx
  rw [List.nil_append] at h
  exact ⟨fun hend i => (h.good hend i).2, h.err⟩

/-- C49: a data flow which is acyclic, whose inputs all have a producer and whose tasks keep to their ports and return
no error, is processed on every schedule: an execution which cannot be continued has ended with success. -/
theorem C49_completes_partial {n : Nat} (hn : n ≠ 0) (known : K → Bool) (input : K → Option A) (ins : Fin n → K → Prop)
    (outs : Fin n → List K) (progs : Fin n → Prog K A) (hf : Flow known input ins outs)
    (hc : ∀ i, ¬ TransGen (Needs ins outs) i i) (hp : ∀ i, Obeys (ins i) (outs i) (progs i)) (es : List (EvEv n))
    (σ : EvSt n K A) (hx : (EvSt.start known input progs).run es = some σ) (hmax : ∀ e, σ.exec e = none)
    (hok : ∀ i, (i, true) ∉ (EvSt.start known input progs).results es) :
    σ.ended = some false ∧ ∀ i, (i, false) ∈ (EvSt.start known input progs).results es := by
  cases hend : σ.ended with
  | none =>
    obtain ⟨e, he⟩ := C49_progress_partial hn known input ins outs progs hf hc hp es σ hx hend
    rw [hmax e] at he; cases he
  | some b =>
    have hr := C49_result known input progs es σ hx
    cases b with
    | true =>
      obtain ⟨i, hi⟩ := hr.2 hend
      exact absurd hi (hok i)
    | false => exact ⟨rfl, fun i => (hr.1 hend i).1⟩

/-! ### Tasks left when an event has ended -/

omit [DecidableEq K] in
theorem setTask_quit {n : Nat} (σ : EvSt n K A) (i : Fin n) (t : TSt K A) : (σ.setTask i t).quit = σ.quit := rfl

/-- The store is closed once the worker is done with the event. -/
theorem closed_step {n : Nat} {σ σ' : EvSt n K A} {e : EvEv n} (h : σ.ended ≠ none → σ.quit = true) (hx : σ.exec e = some σ') :
    σ'.ended ≠ none → σ'.quit = true := by
  cases e with
  | step i =>
    simp only [EvSt.exec, EvSt.taskStep] at hx
    split at hx
    · cases hx; exact h
    · simp only [EvSt.getStep] at hx
      split at hx
      · split at hx
        · cases hx; exact h
        · cases hx
      · cases hx; exact h
    · simp only [EvSt.putStep] at hx
      split at hx
      · split at hx
        · cases hx; exact h
        · cases hx
      · cases hx
    · simp only [EvSt.backStep] at hx
      split at hx
      · cases hx; exact h
      · cases hx
    · cases hx
    · cases hx
  | quit i =>
    simp only [EvSt.exec, EvSt.quitStep] at hx
    split at hx
    · cases hx; exact h
    · cases hx; exact h
    · cases hx
  | collect i =>
    simp only [EvSt.exec, EvSt.collectStep] at hx
    split at hx
    · cases hx; intro _; rfl
    · split at hx
      · cases hx; intro _; rfl
      · cases hx; exact h
    · cases hx

theorem closed_run {n : Nat} : ∀ (es : List (EvEv n)) {σ σ' : EvSt n K A}, (σ.ended ≠ none → σ.quit = true) →
    σ.run es = some σ' → σ'.ended ≠ none → σ'.quit = true
  | [], _, _, h, hx => by simp only [EvSt.run] at hx; cases hx; exact h
  | e :: es, σ, _, h, hx => by
    simp only [EvSt.run] at hx
    cases he : σ.exec e with
    | none => rw [he] at hx; cases hx
    | some τ =>
      rw [he] at hx
      exact closed_run es (closed_step h he) hx

/-- C49: when the worker has left an event, no task is left waiting in `Get` or `Put`: a task which has not returned can make
a step or is woken up, unless it is to put back a value whose place was taken by a second `Put`. So, by `C49_terminates`,
the goroutines of the event end. This holds for all tasks, whatever they do. -/
theorem C49_released {n : Nat} (known : K → Bool) (input : K → Option A) (progs : Fin n → Prog K A) (es : List (EvEv n))
    (σ : EvSt n K A) (hx : (EvSt.start known input progs).run es = some σ) (hend : σ.ended ≠ none) (i : Fin n) :
    (∀ p, σ.task i = .run p → (σ.exec (.step i)).isSome = true ∨ (σ.exec (.quit i)).isSome = true) ∧
    (∀ k v p, σ.task i = .hold k v p → σ.chan k = none → (σ.exec (.step i)).isSome = true) := by
  have hq := closed_run es (fun h => absurd rfl h) hx hend
  refine ⟨?_, ?_⟩
  · intro p hp
    cases p with
    | ret e => left; simp [EvSt.exec, EvSt.taskStep, hp]
    | get k next => right; simp [EvSt.exec, EvSt.quitStep, hp, hq]
    | put k v next => right; simp [EvSt.exec, EvSt.quitStep, hp, hq]
  · intro k v p hp hc
    simp [EvSt.exec, EvSt.taskStep, hp, EvSt.backStep, hc]

/-! ### An example, and the cases which hang -/

/-- Three tasks in a row: the first reads key 0, filled by the input stream. -/
def chainProgs : Fin 3 → Prog Nat Nat
  | 0 => .get 0 fun v => .put 1 (v.getD 0 + 1) fun _ => .ret false
  | 1 => .get 1 fun v => .put 2 (v.getD 0 + 1) fun _ => .ret false
  | 2 => .get 2 fun _ => .get 0 fun _ => .ret false

def chainIns : Fin 3 → Nat → Prop
  | 0 => fun k => k = 0
  | 1 => fun k => k = 1
  | 2 => fun k => k = 2 ∨ k = 0

def chainOuts : Fin 3 → List Nat
  | 0 => [1]
  | 1 => [2]
  | 2 => []

def chainKnown (k : Nat) : Bool := decide (k < 3)

def chainInput (k : Nat) : Option Nat := if k = 0 then some 5 else none

theorem chain_flow : Flow chainKnown chainInput chainIns chainOuts := by
  constructor
  · decide
  · intro i j k hi hj
    match i, j with
    | 0, 0 => rfl
    | 1, 1 => rfl
    | 0, 1 => simp [chainOuts] at hi hj; omega
    | 1, 0 => simp [chainOuts] at hi hj; omega
    | 2, _ => simp [chainOuts] at hi
    | 0, 2 => simp [chainOuts] at hj
    | 1, 2 => simp [chainOuts] at hj
  · intro i k hi
    match i with
    | 0 => simp [chainOuts] at hi; subst hi; rfl
    | 1 => simp [chainOuts] at hi; subst hi; rfl
    | 2 => simp [chainOuts] at hi
  · intro i k hi
    match i with
    | 0 => cases hi; exact Or.inl (by simp [chainInput])
    | 1 => cases hi; exact Or.inr ⟨0, by simp [chainOuts]⟩
    | 2 =>
      rcases hi with rfl | rfl
      · exact Or.inr ⟨1, by simp [chainOuts]⟩
      · exact Or.inl (by simp [chainInput])
  · intro i k hi
    match i with
    | 0 => cases hi; rfl
    | 1 => cases hi; rfl
    | 2 => rcases hi with rfl | rfl <;> rfl
  · intro i k hi
    match i with
    | 0 => simp [chainOuts] at hi; subst hi; rfl
    | 1 => simp [chainOuts] at hi; subst hi; rfl
    | 2 => simp [chainOuts] at hi

theorem chain_later {i j : Fin 3} (h : Needs chainIns chainOuts i j) : j < i := by
  obtain ⟨k, h1, h2⟩ := h
  match i, j with
  | 0, 0 => simp [chainOuts, chainIns] at h1 h2; omega
  | 0, 1 => simp [chainOuts, chainIns] at h1 h2; omega
  | 1, 0 => decide
  | 1, 1 => simp [chainOuts, chainIns] at h1 h2; omega
  | 2, 0 => decide
  | 2, 1 => decide
  | 0, 2 => simp [chainOuts] at h2
  | 1, 2 => simp [chainOuts] at h2
  | 2, 2 => simp [chainOuts] at h2

theorem chain_acyclic (i : Fin 3) : ¬ TransGen (Needs chainIns chainOuts) i i := by
  have : ∀ {i j : Fin 3}, TransGen (Needs chainIns chainOuts) i j → j < i := by
    intro i j h
    induction h with
    | single h => exact chain_later h
    | tail _ h ih => exact lt_trans (chain_later h) ih
  exact fun h => lt_irrefl _ (this h)

theorem chain_obeys (i : Fin 3) : Obeys (chainIns i) (chainOuts i) (chainProgs i) := by
  match i with
  | 0 => exact ⟨rfl, fun v => ⟨by simp [chainOuts], Or.inr (by simp [chainOuts])⟩⟩
  | 1 => exact ⟨rfl, fun v => ⟨by simp [chainOuts], Or.inr (by simp [chainOuts])⟩⟩
  | 2 => exact ⟨Or.inl rfl, fun v => ⟨Or.inr rfl, fun w => Or.inr rfl⟩⟩

/-- The hypotheses of `C49_progress_partial` are met by the chain, with the tasks scheduled the wrong way round. -/
example : ∃ e, ∃ σ, (EvSt.start chainKnown chainInput chainProgs).run [.step 0, .step 0, .step 0, .step 1] = some σ ∧
    (σ.exec e).isSome = true := by
  obtain ⟨σ, hσ⟩ : ∃ σ, (EvSt.start chainKnown chainInput chainProgs).run [.step 0, .step 0, .step 0, .step 1] = some σ := ⟨_, rfl⟩
  have hend : σ.ended = none := by
    have : ((EvSt.start chainKnown chainInput chainProgs).run [.step 0, .step 0, .step 0, .step 1]).map EvSt.ended = some none := rfl
    rw [hσ] at this; exact Option.some.inj this
  obtain ⟨e, he⟩ := C49_progress_partial (by decide) _ _ _ _ _ chain_flow chain_acyclic chain_obeys _ σ hσ hend
  exact ⟨e, σ, hσ, he⟩

/-- A complete execution of the chain. -/
example : ((EvSt.start chainKnown chainInput chainProgs).run
      [.step 0, .step 0, .step 0, .step 1, .step 0, .step 1, .collect 0, .step 1, .step 2, .step 1, .step 2, .step 2, .collect 1,
        .step 2, .step 2, .collect 2]).map EvSt.ended = some (some false) ∧
    (EvSt.start chainKnown chainInput chainProgs).results
      [.step 0, .step 0, .step 0, .step 1, .step 0, .step 1, .collect 0, .step 1, .step 2, .step 1, .step 2, .step 2, .collect 1,
        .step 2, .step 2, .collect 2] = [(0, false), (1, false), (2, false)] := ⟨rfl, rfl⟩

/-- C49, an application without tasks: the worker waits for the result of no task, and an event never ends. -/
theorem C49_no_tasks_counterexample (known : K → Bool) (input : K → Option A) (progs : Fin 0 → Prog K A) (e : EvEv 0) :
    (EvSt.start known input progs).exec e = none ∧ (EvSt.start known input progs).ended = none := by
  refine ⟨?_, rfl⟩
  cases e with
  | step i => exact i.elim0
  | quit i => exact i.elim0
  | collect i => exact i.elim0

/-- C49, a task which needs its own output (accepted when the application starts, see `C47_self_counterexample`):
the event is stuck at once. -/
theorem C49_self_counterexample (e : EvEv 1) :
    (EvSt.start (fun _ => true) (fun _ => none) (fun _ : Fin 1 => Prog.get 7 fun v => .put 7 (v.getD 0) fun _ => .ret false)).exec e =
      (none : Option (EvSt 1 Nat Nat)) := by
  cases e <;> rfl

/-- C49, a task which puts a key it did not declare: the event is stuck, no error is reported. -/
theorem C49_undeclared_put_counterexample (e : EvEv 1) :
    (EvSt.start (fun k => decide (k = 1)) (fun _ => none) (fun _ : Fin 1 => Prog.put 7 5 fun _ => .ret false)).exec e =
      (none : Option (EvSt 1 Nat Nat)) := by
  cases e <;> rfl

/-- C49, a task which puts a value twice, while another task reads it: the reader has taken the value, the second
`Put` fills the channel, and `Get` does not return any more. -/
theorem C49_second_put_counterexample :
    ∃ σ : EvSt 2 Nat Nat, (EvSt.start (fun _ => true) (fun _ => none) (fun i : Fin 2 =>
        if i = 0 then Prog.put 7 1 fun _ => .put 7 2 fun _ => .ret false else .get 7 fun _ => .ret false)).run
      [.step 0, .step 1, .step 0, .step 0, .collect 0] = some σ ∧ σ.ended = none ∧ ∀ e, σ.exec e = none := by
  refine ⟨_, rfl, rfl, ?_⟩
  intro e
  cases e with
  | step i => match i with
    | 0 => rfl
    | 1 => rfl
  | quit i => rfl
  | collect i => match i with
    | 0 => rfl
    | 1 => rfl

/-- An event which failed, with a task waiting for a key nobody puts: it is woken up. -/
example : ∃ σ : EvSt 2 Nat Nat, (EvSt.start (fun _ => true) (fun _ => none) (fun i : Fin 2 =>
      if i = 0 then Prog.ret true else .get 7 fun _ => .ret false)).run [.step 0, .collect 0] = some σ ∧
    σ.ended ≠ none ∧ σ.exec (.step 1) = none ∧ (σ.exec (.quit 1)).isSome = true := by
  refine ⟨_, rfl, by decide, rfl, rfl⟩

/-- C49, a failed event is left while other tasks are still inside `Process`: the worker goes on to the next event,
which calls `Process` of the same task again, at the same time. -/
theorem C49_failed_event_left_counterexample :
    ∃ σ : EvSt 2 Nat Nat, (EvSt.start (fun _ => true) (fun _ => none) (fun i : Fin 2 =>
        if i = 0 then Prog.ret true else .put 7 1 fun _ => .ret false)).run [.step 0, .collect 0] = some σ ∧
      σ.ended = some true ∧ ∃ p, σ.task 1 = .run p := by
  refine ⟨_, rfl, rfl, _, rfl⟩

end Verif.Fwk
