import Verif.Xrootd.Sessions
import Mathlib.Data.List.Nodup

/-!
# The sessions of a client (C192)
-/

namespace Verif.Xrootd.CliSessions

/-! ## Specification -/

/-- No call looks for a session while another is about to open one at the same address. -/
def Calm : St → List Ev → Prop
  | _, [] => True
  | s, e :: es => (∀ a, e = .look a → a ∉ s.waiting) ∧ ∀ s', step s e = some s' → Calm s' es

/-- The address of the first session that could be opened. -/
def firstOpened : List Ev → Option Nat
  | [] => none
  | .create a true :: _ => some a
  | _ :: es => firstOpened es

/-! ## Proofs -/

/-- What always holds. -/
structure Inv (s : St) : Prop where
  keys : (s.sess.map Prod.fst).Nodup
  ids : (s.sess.map Prod.snd).Nodup
  fresh : ∀ i ∈ s.sess.map Prod.snd, i < s.next
  freshO : ∀ i ∈ s.opened, i < s.next

theorem inv_step {s s' : St} {e : Ev} (hi : Inv s) (h : step s e = some s') : Inv s' := by
  cases e with
  | look a =>
    simp only [step] at h
    split at h <;> cases h
    · exact hi
    · exact ⟨hi.keys, hi.ids, hi.fresh, hi.freshO⟩
  | close =>
    simp only [step] at h
    cases h
    exact ⟨hi.keys, hi.ids, hi.fresh, fun i hm => hi.freshO i (List.mem_filter.mp hm).1⟩
  | create a ok =>
    simp only [step] at h
    split at h
    · split at h
      · cases h
        have sub : (s.sess.filter (fun p => p.1 ≠ a)).Sublist s.sess := List.filter_sublist
        refine ⟨?_, ?_, ?_, ?_⟩
        · rw [List.map_cons, List.nodup_cons]
          refine ⟨fun hm => ?_, hi.keys.sublist (sub.map _)⟩
          obtain ⟨p, hp, e⟩ := List.mem_map.mp hm
          exact (of_decide_eq_true (List.mem_filter.mp hp).2) e
        · rw [List.map_cons, List.nodup_cons]
          refine ⟨fun hm => ?_, hi.ids.sublist (sub.map _)⟩
          exact Nat.lt_irrefl _ (hi.fresh _ ((sub.map Prod.snd).subset hm))
        · intro i hm
          rw [List.map_cons] at hm
          rcases List.mem_cons.mp hm with rfl | hm
          · exact Nat.lt_succ_self _
          · exact Nat.lt_succ_of_lt (hi.fresh _ ((sub.map Prod.snd).subset hm))
        · intro i hm
          rcases List.mem_cons.mp hm with rfl | hm
          · exact Nat.lt_succ_self _
          · exact Nat.lt_succ_of_lt (hi.freshO _ hm)
      · cases h
        exact ⟨hi.keys, hi.ids, hi.fresh, hi.freshO⟩
    · cases h

theorem inv_run (es : List Ev) : ∀ {s s' : St}, Inv s → run s es = some s' → Inv s' := by
  induction es with
  | nil => intro s s' hi h; cases h; exact hi
  | cons e es ih =>
    intro s s' hi h
    simp only [run] at h
    cases hs : step s e with
    | none => rw [hs] at h; cases h
    | some s1 => rw [hs] at h; exact ih (inv_step hi hs) h

theorem inv_init : Inv init := ⟨.nil, .nil, fun _ h => (List.not_mem_nil h).elim, fun _ h => (List.not_mem_nil h).elim⟩

/-- **C192** (one each): a client uses one session for an address, and different ones for different addresses. -/
theorem C192_one (es : List Ev) (s : St) (h : run init es = some s) (p q : Nat × Nat) (hp : p ∈ s.sess) (hq : q ∈ s.sess) :
    p.1 = q.1 ↔ p.2 = q.2 := by
  have hi := inv_run es inv_init h
  constructor
  · intro e
    exact congrArg Prod.snd (List.inj_on_of_nodup_map hi.keys hp hq e)
  · intro e
    exact congrArg Prod.fst (List.inj_on_of_nodup_map hi.ids hp hq e)

/-- **C192** (used): the new session is the one used: after a session was opened at an address, it is that of the address. -/
theorem C192_used (s s' : St) (a : Nat) (h : step s (.create a true) = some s') : (a, s.next) ∈ s'.sess ∧ s.next ∈ s'.opened ∧
    ∀ p ∈ s.sess, p.1 ≠ a → p ∈ s'.sess := by
  simp only [step] at h
  split at h
  · simp only [if_true] at h
    cases h
    refine ⟨List.mem_cons_self, List.mem_cons_self, fun p hp hpa => List.mem_cons_of_mem _ (List.mem_filter.mpr ⟨hp, ?_⟩)⟩
    exact decide_eq_true hpa
  · cases h

theorem initial_run (es : List Ev) : ∀ {s s' : St}, run s es = some s' → s'.initial = s.initial.or (firstOpened es) := by
  induction es with
  | nil => intro s s' h; cases h; cases s.initial <;> rfl
  | cons e es ih =>
    intro s s' h
    simp only [run] at h
    cases hs : step s e with
    | none => rw [hs] at h; cases h
    | some s1 =>
      rw [hs] at h
      rw [ih h]
      cases e with
      | look a => simp only [step] at hs; split at hs <;> cases hs <;> rfl
      | close => simp only [step] at hs; cases hs; rfl
      | create a ok =>
        simp only [step] at hs
        split at hs
        · cases ok with
          | true =>
            simp only [if_true] at hs
            cases hs
            cases hin : s.initial <;> simp [firstOpened]
          | false =>
            rw [if_neg (by decide)] at hs
            cases hs
            rfl
        · cases hs

/-- **C192** (first): requests go to the server of the first session that could be opened, whatever is opened later. -/
theorem C192_initial (es : List Ev) (s : St) (h : run init es = some s) : s.initial = firstOpened es := by
  rw [initial_run es h]
  rfl

/-- What holds if the calls do not interfere. -/
structure Tidy (s : St) : Prop where
  known : ∀ i ∈ s.opened, i ∈ s.sess.map Prod.snd
  once : s.waiting.Nodup
  new : ∀ a ∈ s.waiting, a ∉ s.sess.map Prod.fst

theorem tidy_step {s s' : St} {e : Ev} (ht : Tidy s) (hc : ∀ a, e = .look a → a ∉ s.waiting) (h : step s e = some s') : Tidy s' := by
  cases e with
  | look a =>
    simp only [step] at h
    split at h
    · cases h
      exact ht
    · rename_i hn
      cases h
      refine ⟨ht.known, List.nodup_cons.mpr ⟨hc a rfl, ht.once⟩, fun b hb => ?_⟩
      rcases List.mem_cons.mp hb with rfl | hb
      · exact hn
      · exact ht.new b hb
  | close =>
    simp only [step] at h
    cases h
    exact ⟨fun i hm => ht.known i (List.mem_filter.mp hm).1, ht.once, ht.new⟩
  | create a ok =>
    simp only [step] at h
    split at h
    · rename_i ha
      split at h
      · cases h
        have hall : s.sess.filter (fun p => p.1 ≠ a) = s.sess :=
          List.filter_eq_self.mpr fun p hp => decide_eq_true fun e => ht.new a ha (List.mem_map.mpr ⟨p, hp, e⟩)
        refine ⟨fun i hm => ?_, ht.once.erase a, fun b hb => ?_⟩
        · show i ∈ ((a, s.next) :: s.sess.filter (fun p => p.1 ≠ a)).map Prod.snd
          rw [hall, List.map_cons]
          rcases List.mem_cons.mp hm with rfl | hm
          · exact List.mem_cons_self
          · exact List.mem_cons_of_mem _ (ht.known i hm)
        · show b ∉ ((a, s.next) :: s.sess.filter (fun p => p.1 ≠ a)).map Prod.fst
          rw [hall, List.map_cons]
          have hb' := (ht.once.mem_erase_iff).mp hb
          intro hm
          rcases List.mem_cons.mp hm with e | hm
          · exact hb'.1 e
          · exact ht.new b hb'.2 hm
      · cases h
        exact ⟨ht.known, ht.once.erase a, fun b hb => ht.new b (List.mem_of_mem_erase hb)⟩
    · cases h

theorem tidy_run (es : List Ev) : ∀ {s s' : St}, Tidy s → Calm s es → run s es = some s' → Tidy s' := by
  induction es with
  | nil => intro s s' hi _ h; cases h; exact hi
  | cons e es ih =>
    intro s s' hi hc h
    simp only [run] at h
    cases hs : step s e with
    | none => rw [hs] at h; cases h
    | some s1 => rw [hs] at h; exact ih (tidy_step hi hc.1 hs) (hc.2 s1 hs) h

theorem tidy_init : Tidy init := ⟨fun _ h => (List.not_mem_nil h).elim, .nil, fun _ h => (List.not_mem_nil h).elim⟩

/-- **C192** (closing): closing the client closes every session, if no two calls opened one at the same address at the same time. -/
theorem C192_close_partial (es : List Ev) (s s' : St) (hc : Calm init es) (h : run init es = some s) (h' : step s .close = some s') :
    s'.opened = [] := by
  have ht : Tidy s := tidy_run es tidy_init hc h
  simp only [step] at h'
  cases h'
  exact List.filter_eq_nil_iff.mpr fun i hi => by simpa using ht.known i hi

/-! ## Counterexamples and example -/

/-- Two calls that need a session at one address at the same time: one of their two sessions is never closed. -/
theorem C192_twice_counterexample : ∃ s, run init [.look 7, .look 7, .create 7 true, .create 7 true, .close] = some s ∧ s.opened = [0] :=
  ⟨_, rfl, by decide⟩

/-- A client that was closed still uses its closed sessions: none is opened in their place. -/
theorem C192_closed_counterexample : ∃ s, run init [.look 7, .create 7 true, .close, .look 7] = some s ∧ s.sess = [(7, 0)] ∧
    s.opened = [] ∧ s.waiting = [] := ⟨_, rfl, by decide, by decide, by decide⟩

example : run init [.look 7, .look 8, .create 8 true, .create 7 false, .look 7, .create 7 true, .look 8, .close]
    = some ⟨[(7, 1), (8, 0)], [], [], 2, some 8⟩ := by decide

example : Calm init [.look 7, .create 7 true] :=
  ⟨fun _ _ h => (List.not_mem_nil h).elim, fun _ _ => ⟨fun _ h => (by cases h), fun _ _ => trivial⟩⟩

end Verif.Xrootd.CliSessions
