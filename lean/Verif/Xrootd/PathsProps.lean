import Batteries.Data.List.Perm
import Verif.Xrootd.Paths

/-!
# Data connections of a session (C185)
-/

namespace Verif.Xrootd.Paths

/-! ## Specification -/

def boundOf : Ev → Option Nat
  | .bound _ p => some p
  | _ => none

/-- The numbers the server gave in a run. -/
def given (es : List Ev) : List Nat := es.filterMap boundOf

/-- No connection is used by two requests, or offered while it is used. -/
def Exclusive (s : St) : Prop :=
  (∀ r r' p, (r, p) ∈ s.inUse → (r', p) ∈ s.inUse → r = r') ∧ (∀ r p, (r, p) ∈ s.inUse → p ∉ s.offers) ∧ s.offers.Nodup

/-! ## Proofs -/

/-- The connections other than the main one are those offered and those in use. -/
def Inv (s : St) : Prop := s.subs.Nodup ∧ (s.offers ++ s.inUse.map Prod.snd).Perm (s.subs.filter (fun p => p ≠ 0))

theorem inv_step {max : Nat} {s s' : St} {e : Ev} (hi : Inv s) (hf : ∀ p, boundOf e = some p → p ∉ s.subs)
    (h : step max s e = some s') : Inv s' ∧ (∀ p, p ∈ s'.subs ↔ p ∈ s.subs ∨ boundOf e = some p) := by
  obtain ⟨hn, hp⟩ := hi
  cases e with
  | take r p =>
    simp only [step] at h
    split at h
    · rename_i hm
      cases h
      refine ⟨⟨hn, List.Perm.trans ?_ hp⟩, fun q => by simp [boundOf]⟩
      change (s.offers.erase p ++ (p :: s.inUse.map Prod.snd)).Perm _
      exact (List.perm_middle.trans ((List.perm_cons_erase hm).symm.append_right _ |> fun x => x))
    · cases h
  | full r =>
    simp only [step] at h
    split at h
    · cases h; exact ⟨⟨hn, hp⟩, fun q => by simp [boundOf]⟩
    · cases h
  | start r =>
    simp only [step] at h
    split at h
    · cases h; exact ⟨⟨hn, hp⟩, fun q => by simp [boundOf]⟩
    · cases h
  | failed r =>
    simp only [step] at h
    split at h
    · cases h; exact ⟨⟨hn, hp⟩, fun q => by simp [boundOf]⟩
    · cases h
  | done r p =>
    simp only [step] at h
    split at h
    · rename_i hm
      cases h
      refine ⟨⟨hn, List.Perm.trans ?_ hp⟩, fun q => by simp [boundOf]⟩
      change ((p :: s.offers) ++ (s.inUse.erase (r, p)).map Prod.snd).Perm _
      have : (s.inUse.map Prod.snd).Perm (p :: (s.inUse.erase (r, p)).map Prod.snd) := (List.perm_cons_erase hm).map Prod.snd
      exact List.perm_middle.symm.trans (this.symm.append_left _)
    · cases h
  | bound r p =>
    simp only [step] at h
    split at h
    · cases h
      have hfresh : p ∉ s.subs := hf p rfl
      have hk : insertKey p s.subs = p :: s.subs := if_neg hfresh
      refine ⟨⟨?_, ?_⟩, fun q => ?_⟩
      · change (insertKey p s.subs).Nodup
        rw [hk]
        exact List.nodup_cons.mpr ⟨hfresh, hn⟩
      · change (s.offers ++ (if p = 0 then s.inUse else (r, p) :: s.inUse).map Prod.snd).Perm ((insertKey p s.subs).filter _)
        rw [hk]
        by_cases h0 : p = 0
        · rw [if_pos h0, List.filter_cons_of_neg (by simp [h0])]
          exact hp
        · rw [if_neg h0, List.filter_cons_of_pos (by simp [h0]), List.map_cons]
          exact List.perm_middle.trans (hp.cons p)
      · change q ∈ insertKey p s.subs ↔ _
        rw [hk, List.mem_cons]
        simp only [boundOf, Option.some.injEq]
        constructor
        · rintro (h | h)
          · exact Or.inr h.symm
          · exact Or.inl h
        · rintro (h | h)
          · exact Or.inr h
          · exact Or.inl h.symm
    · cases h

theorem inv_run {max : Nat} (es : List Ev) : ∀ {s s' : St}, Inv s → (∀ p ∈ given es, p ∉ s.subs) → (given es).Nodup →
    run max s es = some s' → Inv s' ∧ (∀ p, p ∈ s'.subs ↔ p ∈ s.subs ∨ p ∈ given es) := by
  induction es with
  | nil => intro s s' hi _ _ h; cases h; exact ⟨hi, fun p => by simp [given]⟩
  | cons e es ih =>
    intro s s' hi hf hn h
    simp only [run] at h
    cases hs : step max s e with
    | none => rw [hs] at h; cases h
    | some s1 =>
      rw [hs] at h
      have hmem : ∀ p, boundOf e = some p → p ∈ given (e :: es) := fun p hp =>
        List.mem_filterMap.mpr ⟨e, List.mem_cons_self, hp⟩
      have hsub : ∀ p, p ∈ given es → p ∈ given (e :: es) := fun p hp => by
        obtain ⟨x, hx, hx'⟩ := List.mem_filterMap.mp hp
        exact List.mem_filterMap.mpr ⟨x, List.mem_cons_of_mem _ hx, hx'⟩
      have hsplit : given (e :: es) = (boundOf e).toList ++ given es := by
        unfold given
        rw [List.filterMap_cons]
        cases boundOf e <;> rfl
      obtain ⟨hi1, hm1⟩ := inv_step hi (fun p hp => hf p (hmem p hp)) hs
      have hn' : (given es).Nodup ∧ ∀ p, boundOf e = some p → p ∉ given es := by
        rw [hsplit] at hn
        have := List.nodup_append.mp hn
        refine ⟨this.2.1, fun p hp hq => this.2.2 p (by rw [hp]; exact List.mem_cons_self) p hq rfl⟩
      obtain ⟨hi2, hm2⟩ := ih hi1 (fun p hp hp1 => by
        rcases (hm1 p).mp hp1 with h1 | h1
        · exact hf p (hsub p hp) h1
        · exact hn'.2 p h1 hp) hn'.1 h
      refine ⟨hi2, fun p => ?_⟩
      rw [hm2 p, hm1 p, hsplit, List.mem_append, Option.mem_toList, or_assoc]

theorem inv_init : Inv init := ⟨List.nodup_nil, List.Perm.refl _⟩

theorem snd_unique {l : List (Nat × Nat)} (h : (l.map Prod.snd).Nodup) {r r' p : Nat} (h1 : (r, p) ∈ l) (h2 : (r', p) ∈ l) : r = r' := by
  induction l with
  | nil => exact (List.not_mem_nil h1).elim
  | cons x l ih =>
    rw [List.map_cons, List.nodup_cons] at h
    rcases List.mem_cons.mp h1 with h1 | h1
    · rcases List.mem_cons.mp h2 with h2 | h2
      · rw [← h1] at h2
        exact (Prod.mk.inj h2).1.symm
      · exact absurd (List.mem_map.mpr ⟨_, h2, by rw [← h1]⟩) h.1
    · rcases List.mem_cons.mp h2 with h2 | h2
      · exact absurd (List.mem_map.mpr ⟨_, h1, by rw [← h2]⟩) h.1
      · exact ih h.2 h1 h2

/-- **C185** (exclusive): if the server never gives a number twice, then at any time no connection is used by two requests, and none
is offered while it is used. -/
theorem C185_exclusive (max : Nat) (es : List Ev) (s : St) (hn : (given es).Nodup) (h : run max init es = some s) : Exclusive s := by
  obtain ⟨⟨hs, hp⟩, _⟩ := inv_run es inv_init (fun _ _ h => List.not_mem_nil h) hn h
  have hnd : (s.offers ++ s.inUse.map Prod.snd).Nodup := hp.nodup_iff.mpr (hs.sublist List.filter_sublist)
  obtain ⟨h1, h2, h3⟩ := List.nodup_append.mp hnd
  exact ⟨fun r r' p a b => snd_unique h2 a b, fun r p a b => h3 p b p (List.mem_map.mpr ⟨(r, p), a, rfl⟩) rfl, h1⟩

/-- **C185** (known): then a request holds a connection the server gave, and one that is in the table of connections, so that it is
not told that its connection is wrong; and a connection the server gave is in use or offered, none is lost. -/
theorem C185_known (max : Nat) (es : List Ev) (s : St) (hn : (given es).Nodup) (h : run max init es = some s) :
    (∀ p, p ∈ s.subs ↔ p ∈ given es) ∧
      (∀ p, p ∈ given es ∧ p ≠ 0 ↔ p ∈ s.offers ∨ ∃ r, (r, p) ∈ s.inUse) := by
  obtain ⟨⟨hs, hp⟩, hm⟩ := inv_run es inv_init (fun _ _ h => List.not_mem_nil h) hn h
  have hm' : ∀ p, p ∈ s.subs ↔ p ∈ given es := fun p => by
    rw [hm p]
    exact ⟨fun h => h.elim (fun h => (List.not_mem_nil h).elim) id, Or.inr⟩
  refine ⟨hm', fun p => ?_⟩
  rw [← hm' p]
  have := hp.mem_iff (a := p)
  rw [List.mem_append, List.mem_filter] at this
  constructor
  · intro hx
    rcases this.mpr ⟨hx.1, decide_eq_true hx.2⟩ with h1 | h1
    · exact Or.inl h1
    · obtain ⟨⟨r, q⟩, hq, rfl⟩ := List.mem_map.mp h1
      exact Or.inr ⟨r, hq⟩
  · intro hx
    have := this.mp (hx.elim Or.inl (fun ⟨r, hr⟩ => Or.inr (List.mem_map.mpr ⟨(r, p), hr, rfl⟩)))
    exact ⟨this.1, of_decide_eq_true this.2⟩

theorem length_insertKey (p : Nat) (l : List Nat) : (insertKey p l).length ≤ l.length + 1 := by
  unfold insertKey
  split
  · omega
  · exact Nat.le_refl _

theorem bound_step {max : Nat} {s s' : St} {e : Ev} (hb : s.subs.length ≤ max ∧ (s.lock ≠ none → s.subs.length < max))
    (h : step max s e = some s') : s'.subs.length ≤ max ∧ (s'.lock ≠ none → s'.subs.length < max) := by
  cases e with
  | bound r p =>
    simp only [step] at h
    split at h
    · rename_i hl
      cases h
      have := hb.2 (by rw [hl]; exact fun h => by cases h)
      refine ⟨?_, fun h => absurd rfl h⟩
      have := length_insertKey p s.subs
      change (insertKey p s.subs).length ≤ max
      omega
    · cases h
  | take r p => simp only [step] at h; split at h <;> cases h; exact hb
  | full r => simp only [step] at h; split at h <;> cases h; exact hb
  | start r =>
    simp only [step] at h
    split at h
    · rename_i hc; cases h; exact ⟨hb.1, fun _ => hc.2⟩
    · cases h
  | failed r => simp only [step] at h; split at h <;> cases h; exact ⟨hb.1, fun h => absurd rfl h⟩
  | done r p => simp only [step] at h; split at h <;> cases h; exact hb

theorem bound_run {max : Nat} (es : List Ev) : ∀ {s s' : St}, (s.subs.length ≤ max ∧ (s.lock ≠ none → s.subs.length < max)) →
    run max s es = some s' → s'.subs.length ≤ max := by
  induction es with
  | nil => intro s s' hb h; cases h; exact hb.1
  | cons e es ih =>
    intro s s' hb h
    simp only [run] at h
    cases hs : step max s e with
    | none => rw [hs] at h; cases h
    | some s1 => rw [hs] at h; exact ih (bound_step hb hs) h

/-- **C185** (at most): whatever the server does, there are never more connections than the session may have. -/
theorem C185_at_most (max : Nat) (es : List Ev) (s : St) (h : run max init es = some s) : s.subs.length ≤ max :=
  bound_run es ⟨Nat.zero_le _, fun h => absurd rfl h⟩ h

/-! ## Counterexample and examples -/

/-- The numbers of the server are not checked: if it gives one twice, two requests use one connection. -/
theorem C185_same_number_counterexample : ∃ es s, run 8 init es = some s ∧ ¬ Exclusive s := by
  refine ⟨[.start 1, .bound 1 5, .start 2, .bound 2 5], ⟨[5], [], [(2, 5), (1, 5)], none⟩, by decide, fun h => ?_⟩
  exact absurd (h.1 1 2 5 (by decide) (by decide)) (by decide)

example : run 2 init [.start 1, .bound 1 5, .start 2, .bound 2 7, .full 3, .done 1 5, .take 4 5]
    = some ⟨[7, 5], [], [(4, 5), (2, 7)], none⟩ := by decide

/-- The creation of connections is serialised. -/
example : run 2 init [.start 1, .start 2] = none := by decide

end Verif.Xrootd.Paths
