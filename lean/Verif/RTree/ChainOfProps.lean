import Verif.RTree.ChainOf

/-!
# The files of a chain are closed (C175)
-/

namespace Verif.RTree.ChainOf

/-! ## Specification -/

/-- How often a file is open after the events. -/
def balance (f : Nat) (evs : List Ev) : Int := (evs.count (.opened f) : Int) - evs.count (.closed f)

/-- A file that is as one expects. -/
def Good (w : W) (f : Nat) : Prop := w.opens f = true ∧ ∃ n, w.obj f = some (some n)

/-! ## Proofs -/

theorem balance_append (f : Nat) (a b : List Ev) : balance f (a ++ b) = balance f a + balance f b := by
  unfold balance
  rw [List.count_append, List.count_append]
  omega

theorem balance_closeAll (f : Nat) (fs : List Nat) : balance f (closeAll fs) = -(fs.count f : Int) := by
  unfold balance closeAll
  have h1 : (fs.map Ev.closed).count (.opened f) = 0 := by
    rw [List.count_eq_zero]
    intro h
    obtain ⟨x, _, hx⟩ := List.mem_map.1 h
    cases hx
  have h2 : (fs.map Ev.closed).count (.closed f) = fs.count f := by
    induction fs with
    | nil => rfl
    | cons a t ih =>
      rw [List.map_cons, List.count_cons, List.count_cons, ih (by
        rw [List.count_eq_zero]
        intro h
        obtain ⟨x, _, hx⟩ := List.mem_map.1 h
        cases hx)]
      by_cases e : a = f
      · simp [e]
      · simp [e]
  rw [h1, h2]
  omega

theorem balance_opened (f g : Nat) : balance f [.opened g] = ([g].count f : Int) := by
  unfold balance
  by_cases e : g = f
  · simp [e]
  · simp [e]

theorem loop_spec (w : W) (files : List Nat) : ∀ (ts : List (Nat × Nat)) (fs : List Nat) (evs : List Ev),
    (∀ f, balance f evs = fs.count f) →
    (∀ e evs', loop w files ts fs evs = (.error e, evs') → ∀ f, balance f evs' = 0) ∧
    (∀ ts' fs' evs', loop w files ts fs evs = (.ok (ts', fs'), evs') →
      fs' = fs ++ files ∧ (∀ f, balance f evs' = fs'.count f) ∧ (∀ f ∈ files, Good w f) ∧
        ∃ us, ts' = ts ++ us ∧ us.map Prod.fst = files ∧ ∀ u ∈ us, w.obj u.1 = some (some u.2)) := by
  induction files with
  | nil =>
    intro ts fs evs hb
    refine ⟨fun e evs' h => (by cases h), fun ts' fs' evs' h => ?_⟩
    simp only [loop, Prod.mk.injEq, Except.ok.injEq] at h
    obtain ⟨⟨rfl, rfl⟩, rfl⟩ := h
    exact ⟨(List.append_nil _).symm, hb, fun f h => (by cases h), [], (List.append_nil _).symm, rfl,
      fun u h => (by cases h)⟩
  | cons a rest ih =>
    intro ts fs evs hb
    have hb' : ∀ f, balance f (evs ++ [.opened a]) = ((fs ++ [a]).count f : Int) := by
      intro f
      rw [balance_append, hb, balance_opened, List.count_append]
      omega
    rw [loop]
    split
    · refine ⟨fun e evs' h f => ?_, fun ts' fs' evs' h => (by cases h)⟩
      cases h
      rw [balance_append, balance_closeAll, hb]
      omega
    · rename_i hopen
      split
      · refine ⟨fun e evs' h f => ?_, fun ts' fs' evs' h => (by cases h)⟩
        cases h
        rw [balance_append, balance_closeAll, hb']
        omega
      · refine ⟨fun e evs' h f => ?_, fun ts' fs' evs' h => (by cases h)⟩
        cases h
        rw [balance_append, balance_closeAll, hb']
        omega
      · rename_i n hn
        obtain ⟨h1, h2⟩ := ih (ts ++ [(a, n)]) (fs ++ [a]) (evs ++ [.opened a]) hb'
        refine ⟨h1, fun ts' fs' evs' h => ?_⟩
        obtain ⟨g1, g2, g3, us, g4, g5, g6⟩ := h2 ts' fs' evs' h
        refine ⟨by rw [g1, List.append_assoc]; rfl, g2, ?_, (a, n) :: us, by rw [g4, List.append_assoc]; rfl,
          by rw [List.map_cons, g5], ?_⟩
        · intro f hf
          rcases List.mem_cons.1 hf with rfl | hf
          · exact ⟨by simpa using hopen, n, hn⟩
          · exact g3 f hf
        · intro u hu
          rcases List.mem_cons.1 hu with rfl | hu
          · exact hn
          · exact g6 u hu

/-- **C175** (errors): if a chain cannot be made, every file that was opened has been closed, as often as it was
opened. -/
theorem C175_error (w : W) (files : List Nat) (e : Err) (evs : List Ev) (h : chainOf w files = (.error e, evs)) (f : Nat) :
    balance f evs = 0 :=
  (loop_spec w files [] [] [] (fun f => by simp [balance])).1 e evs h f

/-- **C175** (success): the chain has the trees of the files in order; nothing has been closed; and the function that is given
closes every file, once for each time it was opened. -/
theorem C175_ok (w : W) (files : List Nat) (ts : List (Nat × Nat)) (fs : List Nat) (evs : List Ev)
    (h : chainOf w files = (.ok (ts, fs), evs)) :
    ts.map Prod.fst = files ∧ (∀ u ∈ ts, w.obj u.1 = some (some u.2)) ∧ (∀ f, balance f evs = files.count f) ∧
      ∀ f, balance f (evs ++ (close w fs).2) = 0 := by
  obtain ⟨h1, h2, _, us, h4, h5, h6⟩ := (loop_spec w files [] [] [] (fun f => by simp [balance])).2 ts fs evs h
  rw [List.nil_append] at h1 h4
  subst h1; subst h4
  refine ⟨h5, h6, h2, fun f => ?_⟩
  rw [balance_append, h2]
  unfold close
  rw [balance_closeAll]
  omega

theorem loop_good (w : W) (files : List Nat) : ∀ (ts : List (Nat × Nat)) (fs : List Nat) (evs : List Ev),
    (∀ f ∈ files, Good w f) → ∃ r, (loop w files ts fs evs).1 = .ok r := by
  induction files with
  | nil => intro ts fs evs _; exact ⟨_, rfl⟩
  | cons a rest ih =>
    intro ts fs evs hg
    obtain ⟨ho, n, hn⟩ := hg a List.mem_cons_self
    rw [loop, ho, if_neg (by decide), hn]
    exact ih _ _ _ fun f hf => hg f (List.mem_cons_of_mem _ hf)

/-- **C175** (when): a chain is made if and only if every file can be opened and has a tree of the name. -/
theorem C175_iff (w : W) (files : List Nat) : (∃ r, (chainOf w files).1 = .ok r) ↔ ∀ f ∈ files, Good w f := by
  constructor
  · rintro ⟨⟨ts, fs⟩, h⟩
    have h' : chainOf w files = (.ok (ts, fs), (chainOf w files).2) := Prod.ext h rfl
    exact ((loop_spec w files [] [] [] (fun f => by simp [balance])).2 ts fs _ h').2.2.1
  · exact loop_good w files [] [] []

/-- The file an error is about. -/
def Err.file : Err → Nat
  | .open_ f => f
  | .get f => f
  | .notTree f => f
  | .close f => f

/-- **C175** (which error): the error is about the first file that is not as it should be. -/
theorem C175_first (w : W) (a : List Nat) (f : Nat) (b : List Nat) (ha : ∀ g ∈ a, Good w g) (hf : ¬ Good w f) :
    ∃ e evs, chainOf w (a ++ f :: b) = (.error e, evs) ∧ e.file = f := by
  have key : ∀ (a : List Nat) (ts : List (Nat × Nat)) (fs : List Nat) (evs : List Ev), (∀ g ∈ a, Good w g) →
      ∃ e evs', loop w (a ++ f :: b) ts fs evs = (.error e, evs') ∧ e.file = f := by
    intro a
    induction a with
    | nil =>
      intro ts fs evs _
      rw [List.nil_append, loop]
      split
      · exact ⟨_, _, rfl, rfl⟩
      · rename_i ho
        split
        · exact ⟨_, _, rfl, rfl⟩
        · exact ⟨_, _, rfl, rfl⟩
        · rename_i n hn
          exact absurd ⟨by simpa using ho, n, hn⟩ hf
    | cons x t ih =>
      intro ts fs evs hg
      obtain ⟨ho, n, hn⟩ := hg x List.mem_cons_self
      rw [List.cons_append, loop, ho, if_neg (by decide), hn]
      exact ih _ _ _ fun g h => hg g (List.mem_cons_of_mem _ h)
  exact key a [] [] [] ha

theorem firstErr_some (w : W) (fs : List Nat) (e : Err) : firstErr w fs (some e) = some e := by
  induction fs with
  | nil => rfl
  | cons f fs ih => rw [firstErr]; simpa using ih

/-- **C175** (closing): the error of closing is that of the first file that could not be closed; all are closed
nevertheless. -/
theorem C175_close (w : W) (fs : List Nat) :
    (close w fs).1 = (fs.find? w.closeFails).map .close ∧ (close w fs).2 = fs.map .closed := by
  refine ⟨?_, rfl⟩
  unfold close
  induction fs with
  | nil => rfl
  | cons f fs ih =>
    rw [firstErr]
    cases h : w.closeFails f
    · rw [List.find?_cons_of_neg (by simp [h])]
      simpa using ih
    · rw [List.find?_cons_of_pos h]
      simp [firstErr_some]

/-! ## Examples -/

/-- Three files; the third has no tree. -/
def exW : W := ⟨fun _ => true, fun f => if f = 3 then some none else some (some 10), fun f => decide (f = 2)⟩

example : chainOf exW [1, 2, 3] = (.error (.notTree 3), [.opened 1, .opened 2, .opened 3, .closed 1, .closed 2, .closed 3]) := rfl

example : chainOf exW [1, 2] = (.ok ([(1, 10), (2, 10)], [1, 2]), [.opened 1, .opened 2]) := rfl

example : close exW [1, 2] = (some (.close 2), [.closed 1, .closed 2]) := rfl

example : Good exW 1 ∧ ¬ Good exW 3 := by
  constructor
  · exact ⟨rfl, 10, rfl⟩
  · rintro ⟨_, n, h⟩
    cases h

end Verif.RTree.ChainOf
