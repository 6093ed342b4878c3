import Verif.Remote.XrdOpen

/-!
# Opening and closing remote files (C195)
-/

namespace Verif.Remote.XrdOpen

/-! ## Specification -/

/-- The same is open. -/
def Same (w w' : World) : Prop := w'.clients = w.clients ∧ w'.files = w.files

/-- New clients and handles are new. -/
def Fresh (w : World) : Prop := (∀ c ∈ w.clients, c < w.nextClient) ∧ ∀ f ∈ w.files, f.1 < w.nextClient ∧ f.2 < w.nextFile

/-! ## Proofs -/

theorem filter_clients {w : World} (h : Fresh w) : w.clients.filter (· ≠ w.nextClient) = w.clients :=
  List.filter_eq_self.mpr fun c hc => decide_eq_true (Nat.ne_of_lt (h.1 c hc))

theorem filter_files {w : World} (h : Fresh w) : w.files.filter (fun f => f.1 ≠ w.nextClient) = w.files :=
  List.filter_eq_self.mpr fun f hf => decide_eq_true (Nat.ne_of_lt (h.2 f hf).1)

theorem filter_handle {w : World} (h : Fresh w) (c : Nat) : w.files.filter (· ≠ (c, w.nextFile)) = w.files :=
  List.filter_eq_self.mpr fun f hf => decide_eq_true fun e => Nat.ne_of_lt (h.2 f hf).2 (congrArg Prod.snd e)

theorem same_closed {w : World} (h : Fresh w) : Same w (closeClient (openFile (connect w) w.nextClient) w.nextClient) := by
  constructor
  · show (w.nextClient :: w.clients).filter (· ≠ w.nextClient) = w.clients
    rw [List.filter_cons_of_neg (by simp), filter_clients h]
  · show ((w.nextClient, w.nextFile) :: w.files).filter (fun f => f.1 ≠ w.nextClient) = w.files
    rw [List.filter_cons_of_neg (by simp), filter_files h]

theorem same_unopened {w : World} (h : Fresh w) : Same w (closeClient (connect w) w.nextClient) := by
  constructor
  · show (w.nextClient :: w.clients).filter (· ≠ w.nextClient) = w.clients
    rw [List.filter_cons_of_neg (by simp), filter_clients h]
  · exact filter_files h

/-- **C195** (failing): an `Open` that fails leaves nothing open, whatever fails. -/
theorem C195_open_fails (w w' : World) (hw : Fresh w) (parse conn opn : Bool) (stat : Option Int) (e : Err)
    (h : openName w parse conn opn stat = (w', .error e)) : Same w w' := by
  unfold openName at h
  split at h
  · cases h; exact ⟨rfl, rfl⟩
  · split at h
    · cases h; exact ⟨rfl, rfl⟩
    · split at h
      · cases h; exact same_unopened hw
      · split at h
        · cases h; exact same_closed hw
        · cases h

/-- **C195** (opening): it succeeds if and only if every step does; the file then is open at its own client, with the size the server
gives. -/
theorem C195_open_ok (w w' : World) (parse conn opn : Bool) (stat : Option Int) (f : File) :
    openName w parse conn opn stat = (w', .ok f) → parse = true ∧ conn = true ∧ opn = true ∧ stat = some f.size ∧
      f.cli = some f.client ∧ (f.client, f.handle) ∈ w'.files ∧ f.client ∈ w'.clients ∧ (Fresh w → f.client ∉ w.clients) := by
  intro h
  unfold openName at h
  split at h
  · cases h
  · split at h
    · cases h
    · split at h
      · cases h
      · split at h
        · cases h
        · rename_i h1 h2 h3 _ n
          cases h
          exact ⟨by simpa using h1, by simpa using h2, by simpa using h3, rfl, rfl, List.mem_cons_self, List.mem_cons_self,
            fun hf hc => Nat.lt_irrefl _ (hf.1 _ hc)⟩

theorem C195_open_total (w : World) (n : Int) : ∃ w' f, openName w true true true (some n) = (w', .ok f) ∧ f.size = n := ⟨_, _, rfl, rfl⟩

/-- **C195** (closing): closing a file that was opened by its name leaves open what was before, even if the server fails to close it. -/
theorem C195_close (w w' : World) (hw : Fresh w) (parse conn opn : Bool) (stat : Option Int) (f : File)
    (h : openName w parse conn opn stat = (w', .ok f)) (okF okC : Bool) : Same w (close w' f okF okC).1 := by
  unfold openName at h
  split at h
  · cases h
  · split at h
    · cases h
    · split at h
      · cases h
      · split at h
        · cases h
        · cases h
          cases okF with
          | false => exact same_closed hw
          | true =>
            constructor
            · exact (same_closed hw).1
            · show (((w.nextClient, w.nextFile) :: w.files).filter (· ≠ (w.nextClient, w.nextFile))).filter (fun f => f.1 ≠ w.nextClient) = w.files
              rw [List.filter_cons_of_neg (by simp), filter_handle hw, filter_files hw]

/-- **C195** (shared client): of a file opened with a client that is given, only the file is closed; the client stays connected. -/
theorem C195_close_from (w w' : World) (hw : Fresh w) (c : Nat) (opn : Bool) (stat : Option Int) (f : File)
    (h : openFrom w c opn stat = (w', .ok f)) (okC : Bool) : (c, f.handle) ∈ w'.files ∧ Same w (close w' f true okC).1 := by
  unfold openFrom at h
  split at h
  · cases h
  · split at h
    · cases h
    · cases h
      refine ⟨List.mem_cons_self, rfl, ?_⟩
      show ((c, w.nextFile) :: w.files).filter (· ≠ (c, w.nextFile)) = w.files
      rw [List.filter_cons_of_neg (by simp), filter_handle hw]

/-- **C195** (failing with a shared client): nothing is left open if the file cannot be opened. Not so if only its size is not given. -/
theorem C195_openFrom_fails_partial (w w' : World) (c : Nat) (opn : Bool) (stat : Option Int) (e : Err) (he : e ≠ .stat)
    (h : openFrom w c opn stat = (w', .error e)) : Same w w' := by
  unfold openFrom at h
  split at h
  · cases h; exact ⟨rfl, rfl⟩
  · split at h
    · cases h; exact absurd rfl he
    · cases h

/-- **C195** (errors): closing gives no error only if nothing failed, and that of the file before that of the client. -/
theorem C195_close_error (w : World) (f : File) (okF okC : Bool) :
    ((close w f okF okC).2 = none ↔ okF = true ∧ (f.cli.isSome → okC = true)) ∧ (okF = false → (close w f okF okC).2 = some .closeFile) := by
  unfold close
  cases hc : f.cli <;> cases okF <;> cases okC <;> simp

/-! ## Counterexample and examples -/

/-- The file stays open at the server, and there is no value to close it by. -/
theorem C195_leak_counterexample : openFrom ⟨[0], [], 1, 0⟩ 0 true none = (⟨[0], [(0, 0)], 1, 1⟩, .error .stat) := rfl

example : Fresh ⟨[0, 3], [(0, 1), (3, 2)], 4, 3⟩ := by unfold Fresh; decide

example : openName ⟨[0], [(0, 0)], 1, 1⟩ true true true (some 42) = (⟨[1, 0], [(1, 1), (0, 0)], 2, 2⟩, .ok ⟨some 1, 1, 1, 42⟩) := rfl

example : close ⟨[1, 0], [(1, 1), (0, 0)], 2, 2⟩ ⟨some 1, 1, 1, 42⟩ false true = (⟨[0], [(0, 0)], 2, 2⟩, some .closeFile) := by decide

end Verif.Remote.XrdOpen
