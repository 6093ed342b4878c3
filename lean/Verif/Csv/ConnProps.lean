import Verif.Csv.Driver

/-!
# C156: a connection is open as long as somebody uses it
-/

namespace Verif.Csv

section
variable {N C : Type} [DecidableEq N] {temp : N → N}

/-! ## Specification -/

/-- What can happen, together with how many users have a connection: users open, and close what they
have, one after the other. -/
inductive Held (temp : N → N) : CDrv N C → (Nat → Nat) → Prop
  | init : Held temp ⟨[], []⟩ fun _ => 0
  | opened {s : CDrv N C} {held : Nat → Nat} (h : Held temp s held) (name : N) (cfg : C) :
    Held temp (openConn temp s name cfg).2
      fun i => if i = (openConn temp s name cfg).1 then held i + 1 else held i
  | closed {s : CDrv N C} {held : Nat → Nat} (h : Held temp s held) (id : Nat) (hid : 0 < held id) :
    Held temp (closeConn s id) fun i => if i = id then held i - 1 else held i

/-! ## The map -/

theorem dbGet_del (k k' : N) : ∀ m : List (N × Nat),
    dbGet k (dbDel k' m) = if k = k' then none else dbGet k m
  | [] => by simp [dbDel, dbGet]
  | p :: m => by
    have ih := dbGet_del k k' m
    simp only [dbDel, List.filter_cons] at ih ⊢
    by_cases h : p.1 = k'
    · rw [if_neg (by simp [h]), ih]
      by_cases hk : k = k'
      · simp [hk]
      · have : p.1 ≠ k := fun e => hk (e.symm.trans h)
        simp [hk, dbGet, this]
    · rw [if_pos (by simpa using h)]
      simp only [dbGet]
      by_cases hp : p.1 = k
      · have : k ≠ k' := fun e => h (hp.trans e)
        simp [hp, this]
      · rw [if_neg hp, if_neg hp]
        exact ih

/-! ## The invariant -/

/-- What holds after each operation. -/
structure CInv (s : CDrv N C) (held : Nat → Nat) : Prop where
  conn : ∀ id c, s.conns[id]? = some c →
    c.refs = held id ∧ (c.live = true ↔ 0 < held id) ∧ c.fname = c.name
  none : ∀ id, s.conns.length ≤ id → held id = 0
  kept : ∀ n id, dbGet n s.dbs = some id ↔ ∃ c, s.conns[id]? = some c ∧ c.name = n ∧ 0 < held id

theorem inv_open (hl : ∀ n, temp n = n) {s : CDrv N C} {held : Nat → Nat} (h : CInv s held) (name : N)
    (cfg : C) : CInv (openConn temp s name cfg).2
      (fun i => if i = (openConn temp s name cfg).1 then held i + 1 else held i) := by
  cases hg : dbGet name s.dbs with
  | some id0 =>
    obtain ⟨c0, h1, h2, h3⟩ := (h.kept name id0).mp hg
    have hlt := (List.getElem?_eq_some_iff.mp h1).1
    simp only [openConn, hg]
    refine ⟨?_, ?_, ?_⟩
    · intro id c hc
      rw [List.getElem?_modify] at hc
      by_cases e : id0 = id
      · subst e
        rw [h1] at hc
        simp only [if_true, Option.map_eq_map, Option.map_some, Option.some.injEq] at hc
        subst hc
        obtain ⟨a1, a2, a3⟩ := h.conn _ _ h1
        refine ⟨by simp [addRef, a1], ?_, a3⟩
        simp only [addRef, if_true, Nat.zero_lt_succ, iff_true]
        exact a2.mpr h3
      · have e' : ¬ id = id0 := fun x => e x.symm
        simp only [e, if_false] at hc
        simp only [e', if_false]
        exact h.conn id c (by simpa using hc)
    · intro id hid
      simp only [List.length_modify] at hid
      have e' : ¬ id = id0 := by omega
      simp only [e', if_false]
      exact h.none id hid
    · intro n id
      rw [h.kept n id]
      rw [List.getElem?_modify]
      by_cases e : id0 = id
      · subst e
        simp only [if_true, h1, Option.map_eq_map, Option.map_some, Option.some.injEq, exists_eq_left']
        simp [addRef, h3]
      · have e' : ¬ id = id0 := fun x => e x.symm
        simp [e, e']
  | none =>
    have hno : ∀ id c, s.conns[id]? = some c → c.name = name → held id = 0 := by
      intro id c hc hn
      rcases Nat.eq_zero_or_pos (held id) with h0 | h0
      · exact h0
      · have := (h.kept name id).mpr ⟨c, hc, hn, h0⟩
        rw [hg] at this
        cases this
    simp only [openConn, hg]
    refine ⟨?_, ?_, ?_⟩
    · intro id c hc
      by_cases e : id = s.conns.length
      · subst e
        simp only [List.getElem?_concat_length, Option.some.injEq] at hc
        subst hc
        simp [h.none _ (Nat.le_refl _), hl]
      · simp only [e, if_false]
        rw [List.getElem?_append] at hc
        split at hc
        · exact h.conn id c hc
        · rename_i hx
          have : id - s.conns.length ≠ 0 := by omega
          obtain ⟨k, hk⟩ := Nat.exists_eq_succ_of_ne_zero this
          simp [hk] at hc
    · intro id hid
      simp only [List.length_append, List.length_cons, List.length_nil] at hid
      have e : ¬ id = s.conns.length := by omega
      simp only [e, if_false]
      exact h.none id (by omega)
    · intro n id
      simp only [dbGet]
      by_cases e : id = s.conns.length
      · subst e
        simp only [List.getElem?_concat_length, Option.some.injEq, exists_eq_left', if_true,
          Nat.zero_lt_succ, and_true]
        by_cases hn : name = n
        · simp [hn]
        · simp only [hn, if_false, iff_false]
          intro hk
          obtain ⟨c, hc, _⟩ := (h.kept n _).mp hk
          simp at hc
      · simp only [e, if_false]
        have hget : (s.conns ++ [⟨name, temp name, cfg, 1, true⟩])[id]? = s.conns[id]? := by
          rw [List.getElem?_append]
          split
          · rfl
          · rename_i hx
            have : id - s.conns.length ≠ 0 := by omega
            obtain ⟨k, hk⟩ := Nat.exists_eq_succ_of_ne_zero this
            simp [hk]
            omega
        rw [hget]
        by_cases hn : name = n
        · subst hn
          simp only [if_true, Option.some.injEq]
          constructor
          · intro x
            exact absurd x.symm e
          · rintro ⟨c, hc, hcn, hp⟩
            rw [hno id c hc hcn] at hp
            omega
        · simp only [hn, if_false]
          exact h.kept n id

theorem inv_close {s : CDrv N C} {held : Nat → Nat} (h : CInv s held) (id : Nat) (hid : 0 < held id) :
    CInv (closeConn s id) fun i => if i = id then held i - 1 else held i := by
  have hlt : id < s.conns.length := by
    rcases Nat.lt_or_ge id s.conns.length with h1 | h1
    · exact h1
    · rw [h.none id h1] at hid
      omega
  have hc := List.getElem?_eq_getElem hlt
  obtain ⟨a1, a2, a3⟩ := h.conn _ _ hc
  have hk := (h.kept s.conns[id].name id).mpr ⟨_, hc, rfl, hid⟩
  simp only [closeConn, hc]
  by_cases h1 : 1 < s.conns[id].refs
  · rw [if_pos h1]
    refine ⟨?_, ?_, ?_⟩
    · intro i c hi
      by_cases e : i = id
      · subst e
        simp only [List.getElem?_set_self hlt, Option.some.injEq] at hi
        subst hi
        refine ⟨by simp [a1], ?_, a3⟩
        simp only [if_true]
        rw [a2]
        omega
      · rw [List.getElem?_set_ne (fun x => e x.symm)] at hi
        simp only [e, if_false]
        exact h.conn i c hi
    · intro i hi
      simp only [List.length_set] at hi
      have e : ¬ i = id := by omega
      simp only [e, if_false]
      exact h.none i hi
    · intro n i
      rw [h.kept n i]
      by_cases e : i = id
      · subst e
        simp only [List.getElem?_set_self hlt, hc, Option.some.injEq, exists_eq_left', if_true]
        constructor
        · rintro ⟨x, _⟩
          exact ⟨x, by omega⟩
        · rintro ⟨x, _⟩
          exact ⟨x, hid⟩
      · rw [List.getElem?_set_ne (fun x => e x.symm)]
        simp [e]
  · rw [if_neg h1]
    have hr : s.conns[id].refs = 1 := by omega
    rw [if_pos hr, a3]
    refine ⟨?_, ?_, ?_⟩
    · intro i c hi
      by_cases e : i = id
      · subst e
        simp only [List.getElem?_set_self hlt, Option.some.injEq] at hi
        subst hi
        have : held i - 1 = 0 := by omega
        simp [this]
      · rw [List.getElem?_set_ne (fun x => e x.symm)] at hi
        simp only [e, if_false]
        exact h.conn i c hi
    · intro i hi
      simp only [List.length_set] at hi
      have e : ¬ i = id := by omega
      simp only [e, if_false]
      exact h.none i hi
    · intro n i
      rw [dbGet_del]
      by_cases e : i = id
      · subst e
        have h0 : held i - 1 = 0 := by omega
        simp only [if_true, h0, Nat.lt_irrefl, and_false, exists_false, iff_false]
        intro x
        by_cases hn : n = s.conns[i].name
        · simp [hn] at x
        · simp only [hn, if_false] at x
          obtain ⟨c, hc', hn', _⟩ := (h.kept n i).mp x
          rw [hc] at hc'
          simp only [Option.some.injEq] at hc'
          subst hc'
          exact hn hn'.symm
      · rw [List.getElem?_set_ne (fun x => e x.symm)]
        simp only [e, if_false]
        by_cases hn : n = s.conns[id].name
        · simp only [hn, if_true]
          constructor
          · intro x
            cases x
          · intro x
            have := (h.kept _ i).mpr x
            rw [hk] at this
            exact absurd (Option.some.inj this).symm e
        · simp only [hn, if_false]
          exact h.kept n i

theorem inv_held (hl : ∀ n, temp n = n) {s : CDrv N C} {held : Nat → Nat} (h : Held temp s held) :
    CInv s held := by
  induction h with
  | init => exact ⟨by simp, by simp, by simp [dbGet]⟩
  | opened _ name cfg ih => exact inv_open hl ih name cfg
  | closed _ id hid ih => exact inv_close ih id hid

/-- **C156 (part).** For files that are opened under their own names, whatever was opened and closed
before, one after the other: a connection somebody has is open, and one nobody has any more is
closed; opening a file gives an open connection to this file, the one others have, or else a new one
with the configuration asked for. -/
theorem C156_open_partial (hl : ∀ n, temp n = n) (s : CDrv N C) (held : Nat → Nat) (h : Held temp s held) :
    (∀ id, 0 < held id → ∃ c, s.conns[id]? = some c ∧ c.live = true) ∧
    (∀ (id : Nat) (c : CConn N C), s.conns[id]? = some c → held id = 0 → c.live = false) ∧
    ∀ (name : N) (cfg : C), ∃ c, (openConn temp s name cfg).2.conns[(openConn temp s name cfg).1]? = some c ∧
      c.name = name ∧ c.live = true ∧
      (∀ (id : Nat) (c' : CConn N C), 0 < held id → s.conns[id]? = some c' → c'.name = name →
        (openConn temp s name cfg).1 = id) ∧
      ((∀ (id : Nat) (c' : CConn N C), 0 < held id → s.conns[id]? = some c' → c'.name ≠ name) →
        (openConn temp s name cfg).1 = s.conns.length ∧ c.cfg = cfg) := by
  have hi := inv_held hl h
  refine ⟨?_, ?_, ?_⟩
  · intro id h0
    have hlt : id < s.conns.length := by
      rcases Nat.lt_or_ge id s.conns.length with h1 | h1
      · exact h1
      · rw [hi.none id h1] at h0
        omega
    have hc := List.getElem?_eq_getElem hlt
    exact ⟨_, hc, (hi.conn _ _ hc).2.1.mpr h0⟩
  · intro id c hc h0
    have := (hi.conn _ _ hc).2.1
    rw [h0] at this
    cases hb : c.live with
    | false => rfl
    | true => exact absurd (this.mp hb) (Nat.lt_irrefl 0)
  · intro name cfg
    cases hg : dbGet name s.dbs with
    | some id0 =>
      obtain ⟨c0, h1, h2, h3⟩ := (hi.kept name id0).mp hg
      simp only [openConn, hg]
      refine ⟨addRef c0, by simp [h1], h2, (hi.conn _ _ h1).2.1.mpr h3, ?_, ?_⟩
      · intro id c' hp hc hn
        have := (hi.kept name id).mpr ⟨c', hc, hn, hp⟩
        rw [hg] at this
        exact Option.some.inj this
      · intro hn
        exact absurd h2 (hn id0 c0 h3 h1)
    | none =>
      simp only [openConn, hg]
      refine ⟨⟨name, temp name, cfg, 1, true⟩, by simp, rfl, rfl, ?_, fun _ => by simp⟩
      intro id c' hp hc hn
      have := (hi.kept name id).mpr ⟨c', hc, hn, hp⟩
      rw [hg] at this
      cases this

/-- **C156, the network.** What comes from the network is kept in a file of another name: opened again
after the last user has closed it, the connection is the closed one. -/
theorem C156_network_counterexample (url : N) (cfg : C) (h : temp url ≠ url) :
    let s1 := openConn temp ⟨[], []⟩ url cfg
    let s2 := openConn temp (closeConn s1.2 s1.1) url cfg
    s2.2.conns[s2.1]? = some ⟨url, temp url, cfg, 1, false⟩ := by
  simp [openConn, dbGet, closeConn, dbDel, Ne.symm h, addRef]

/-- **C156, configurations.** A file that is open already is not read again: the names of columns or the
delimiter asked for are ignored. -/
theorem C156_config_counterexample (name : N) (cfg cfg' : C) :
    let s1 := openConn temp ⟨[], []⟩ name cfg
    let s2 := openConn temp s1.2 name cfg'
    s2.2.conns[s2.1]? = some ⟨name, temp name, cfg, 2, true⟩ := by
  simp [openConn, dbGet, addRef]

/-! ## Closing while another user opens -/

theorem closeStep_done (s : CDrv N C) (id : Nat) : closeStep s id .done = (s, .done) := by
  simp only [closeStep]
  split <;> rfl

/-- The steps of closing one after the other are closing. -/
theorem closeStep_all (s : CDrv N C) (id : Nat) (c : CConn N C) (hc : s.conns[id]? = some c) :
    let a := closeStep s id .start
    let b := closeStep a.1 id a.2
    let e := closeStep b.1 id b.2
    e = (closeConn s id, .done) := by
  have hlt := (List.getElem?_eq_some_iff.mp hc).1
  by_cases h : 1 < c.refs
  · have e : closeStep s id .start = (closeConn s id, .done) := by
      simp only [closeStep, closeConn, hc, if_pos h]
    simp only [e, closeStep_done]
  · have e1 : closeStep s id .start = (s, .checked) := by
      simp only [closeStep, hc, if_neg h]
    have e2 : closeStep s id .checked = (⟨s.dbs, s.conns.set id { c with live := false }⟩, .shut) := by
      simp only [closeStep, hc]
    simp only [e1, e2]
    simp only [closeStep, closeConn, hc, if_neg h, List.getElem?_set_self hlt, List.set_set]

/-- **C156, concurrency.** While one user closes a connection, another one may be given it: the counter
is looked at without the lock.  Then the other user has a closed connection, and it stays with the
driver, which gives it to everybody from then on. -/
theorem C156_race_counterexample (name : N) (cfg : C) (hl : temp name = name) :
    let s1 := openConn temp ⟨[], []⟩ name cfg
    let a := closeStep s1.2 s1.1 .start
    let s2 := openConn temp a.1 name cfg
    let b := closeStep s2.2 s1.1 a.2
    let e := closeStep b.1 s1.1 b.2
    e.2 = .done ∧ s2.1 = s1.1 ∧ e.1.conns[s2.1]? = some ⟨name, name, cfg, 0, false⟩ ∧
      (openConn temp e.1 name cfg).1 = s1.1 ∧
      (openConn temp e.1 name cfg).2.conns[s1.1]? = some ⟨name, name, cfg, 1, false⟩ := by
  simp [openConn, dbGet, closeStep, addRef, hl]

end

/-- Two users have the first file, one the second; then the second is closed. -/
example : ∃ s held, Held (N := Nat) (C := Unit) id s held ∧ held 0 = 2 ∧ held 1 = 0 ∧ s.conns.length = 2 :=
  ⟨_, _, .closed (.opened (.opened (.opened .init 7 ()) 8 ()) 7 ()) 1 (by decide), by decide, by decide,
    by decide⟩

end Verif.Csv
