import Verif.Rcmd.Lockstep

/-!
# C165: the goroutines of the comparison of trees stay in step
-/

namespace Verif.Rcmd.Lockstep

variable {V : Type}

/-! ## Specification -/

/-- Reading entry `i` of the reference fails. -/
def FailA (c : Cfg V) (i : Nat) : Prop := (i = 0 ∧ c.oa = true) ∨ ∃ j ≤ c.nv, c.fa i j = true

/-- Reading entry `i` of the other tree fails. -/
def FailB (c : Cfg V) (i : Nat) : Prop := (i = 0 ∧ c.ob = true) ∨ ∃ j ≤ c.nv, c.fb i j = true

/-- The entries before `i` can be read from both. -/
def Fine (c : Cfg V) (i : Nat) : Prop := ∀ i' < i, ¬ FailA c i' ∧ ¬ FailB c i'

/-- The entries before `i` have equal values. -/
def Equal (c : Cfg V) (i : Nat) : Prop := ∀ i' < i, ∀ k < c.nv, c.ceq (c.ra i' k) (c.rb i' k) = true

/-- The outcome that the two trees call for: an error reading the first entry that cannot be read,
otherwise whether all entries are equal. -/
def Right (c : Cfg V) : Verdict → Prop
  | .readRef => ∃ i < c.n, Fine c i ∧ FailA c i
  | .readChk => ∃ i < c.n, Fine c i ∧ ¬ FailA c i ∧ FailB c i
  | .sync => False
  | .same => Fine c c.n ∧ Equal c c.n
  | .differ => Fine c c.n ∧ ¬ Equal c c.n

/-! ## The invariant -/

/-- A goroutine that has not yet offered entry `i`. -/
def Pre (n nv : Nat) (vals : Nat → Nat → V) (f : Nat → Nat → Bool) (o : Bool) (i : Nat) (v : Nat → Option V) :
    Rd → Prop
  | .load i' j => i' = i ∧ j ≤ nv ∧ (i = 0 → o = false) ∧ (∀ k < j, f i k = false) ∧
      ∀ k < j, v k = some (vals i k)
  | .offer i' => i' = i ∧ i < n ∧ (i = 0 → o = false) ∧ (∀ k ≤ nv, f i k = false) ∧
      ∀ k < nv, v k = some (vals i k)
  | .wait _ => False
  | .err => (i = 0 ∧ o = true) ∨ i < n ∧ ∃ j ≤ nv, f i j = true
  | .done => i = n

/-- A goroutine that waits with entry `i` in the variables. -/
def Held (nv : Nat) (vals : Nat → Nat → V) (f : Nat → Nat → Bool) (o : Bool) (i : Nat) (v : Nat → Option V)
    (r : Rd) : Prop :=
  r = .wait i ∧ (i = 0 → o = false) ∧ (∀ k ≤ nv, f i k = false) ∧ ∀ k < nv, v k = some (vals i k)

/-- A goroutine from which `g` was received as entry `i`. -/
def Rcvd (nv : Nat) (vals : Nat → Nat → V) (f : Nat → Nat → Bool) (o : Bool) (i : Nat) (v : Nat → Option V)
    (r : Rd) : Got → Prop
  | .entry i' => i' = i ∧ Held nv vals f o i v r
  | .err => r = .done ∧ ((i = 0 ∧ o = true) ∨ ∃ j ≤ nv, f i j = true)
  | .closed => False

/-- At the end. -/
def End (n : Nat) (o : Bool) (r : Rd) : Prop := (∃ j, r = .load n j) ∨ r = .done ∨ n = 0 ∧ o = true ∧ r = .err

section
variable (c : Cfg V) (s : St V)

def PreA (i : Nat) : Prop := Pre c.n c.nv c.ra c.fa c.oa i s.va s.a
def PreB (i : Nat) : Prop := Pre c.n c.nv c.rb c.fb c.ob i s.vb s.b
def HeldA (i : Nat) : Prop := Held c.nv c.ra c.fa c.oa i s.va s.a
def HeldB (i : Nat) : Prop := Held c.nv c.rb c.fb c.ob i s.vb s.b
def RcvdA (i : Nat) (g : Got) : Prop := Rcvd c.nv c.ra c.fa c.oa i s.va s.a g
def RcvdB (i : Nat) (g : Got) : Prop := Rcvd c.nv c.rb c.fb c.ob i s.vb s.b g
def Good (i j : Nat) : Prop :=
  s.good = true ↔ Equal c i ∧ ∀ k < j, c.ceq (c.ra i k) (c.rb i k) = true

def Inv : Mn → Prop
  | .recvA i => i < c.n ∧ Fine c i ∧ Good c s i 0 ∧ PreA c s i ∧ PreB c s i
  | .recvB i a => i < c.n ∧ Fine c i ∧ Good c s i 0 ∧ RcvdA c s i a ∧ PreB c s i
  | .check i a b => i < c.n ∧ Fine c i ∧ Good c s i 0 ∧ RcvdA c s i a ∧ RcvdB c s i b
  | .cmp i j a b => i < c.n ∧ Fine c i ∧ j ≤ c.nv ∧ Good c s i j ∧ a = .entry i ∧ b = .entry i ∧
      HeldA c s i ∧ HeldB c s i
  | .okA i a b => i < c.n ∧ Fine c i ∧ Good c s i c.nv ∧ a = .entry i ∧ b = .entry i ∧
      HeldA c s i ∧ HeldB c s i
  | .okB i b => i < c.n ∧ Fine c i ∧ Good c s i c.nv ∧ b = .entry i ∧
      ¬ FailA c i ∧ PreA c s (i + 1) ∧ HeldB c s i
  | .ret v => Right c v ∧ ((v = .same ∨ v = .differ) → End c.n c.oa s.a ∧ End c.n c.ob s.b)

end

theorem held_fine {nv : Nat} {vals : Nat → Nat → V} {f : Nat → Nat → Bool} {o : Bool} {i : Nat}
    {v : Nat → Option V} {r : Rd} (h : Held nv vals f o i v r) :
    ¬ ((i = 0 ∧ o = true) ∨ ∃ j ≤ nv, f i j = true) := by
  obtain ⟨-, h1, h2, -⟩ := h
  rintro (⟨h0, h3⟩ | ⟨j, hj, h3⟩)
  · simp [h1 h0] at h3
  · simp [h2 j hj] at h3

theorem pre_recv {n nv : Nat} {vals : Nat → Nat → V} {f : Nat → Nat → Bool} {o : Bool} {i : Nat}
    {v : Nat → Option V} {r : Rd} (h : Pre n nv vals f o i v r) (hi : i < n) {p : Got × Rd}
    (hp : recv r = some p) : Rcvd nv vals f o i v p.2 p.1 := by
  cases r with
  | load i' j => simp [recv] at hp
  | wait i' => simp [recv] at hp
  | offer i' =>
    simp only [recv, Option.some.injEq] at hp
    subst hp
    obtain ⟨rfl, -, h⟩ := h
    exact ⟨rfl, rfl, h⟩
  | err =>
    simp only [recv, Option.some.injEq] at hp
    subst hp
    exact ⟨rfl, h.imp id And.right⟩
  | done => simp only [Pre] at h; omega

theorem held_ack {n nv : Nat} {vals : Nat → Nat → V} {f : Nat → Nat → Bool} {o : Bool} {i : Nat}
    {v : Nat → Option V} {r r' : Rd} (h : Held nv vals f o i v r) (hp : ack (.entry i) r = some r') :
    Pre n nv vals f o (i + 1) v r' := by
  obtain ⟨rfl, -⟩ := h
  simp only [ack, Option.some.injEq] at hp
  subst hp
  simp [Pre]

theorem pre_step {n nv : Nat} {vals : Nat → Nat → V} {f : Nat → Nat → Bool} {o : Bool} {i : Nat}
    {v : Nat → Option V} {r : Rd} (h : Pre n nv vals f o i v r) (hi : i ≤ n) {p : Rd × (Nat → Option V)}
    (hp : rstep n nv vals f false v r = some p) : Pre n nv vals f o i p.2 p.1 := by
  cases r with
  | wait i' => simp [rstep] at hp
  | offer i' => simp [rstep] at hp
  | err => simp [rstep] at hp
  | done => simp [rstep] at hp
  | load i' j =>
    obtain ⟨rfl, hj, ho, hf, hv⟩ := h
    simp only [rstep] at hp
    split at hp
    · simp only [Option.some.injEq] at hp; subst hp
      simp only [Pre]; omega
    · split at hp
      · rename_i hf'
        simp only [Option.some.injEq] at hp; subst hp
        exact .inr ⟨by omega, j, hj, hf'⟩
      · rename_i hn hf'
        have hle : ∀ k ≤ j, f i' k = false := fun k hk => by
          rcases Nat.lt_or_eq_of_le hk with h | rfl
          · exact hf k h
          · simpa using hf'
        split at hp
        · rename_i hlt
          simp only [Option.some.injEq] at hp; subst hp
          refine ⟨rfl, by omega, ho, fun k hk => hle k (by omega), fun k hk => ?_⟩
          simp only [put]
          split
          · rename_i e; rw [e]
          · exact hv k (by omega)
        · simp only [Option.some.injEq] at hp; subst hp
          have : j = nv := by omega
          subst this
          exact ⟨rfl, by omega, ho, hle, hv⟩

theorem held_step {n nv : Nat} {vals : Nat → Nat → V} {f : Nat → Nat → Bool} {o : Bool} {i : Nat}
    {v : Nat → Option V} {r : Rd} (h : Held nv vals f o i v r) {q : Bool} :
    rstep n nv vals f q v r = none := by
  obtain ⟨rfl, -⟩ := h; rfl

theorem rcvd_step {n nv : Nat} {vals : Nat → Nat → V} {f : Nat → Nat → Bool} {o : Bool} {i : Nat}
    {v : Nat → Option V} {r : Rd} {g : Got} (h : Rcvd nv vals f o i v r g) {q : Bool} :
    rstep n nv vals f q v r = none := by
  cases g with
  | entry i' => exact held_step h.2
  | err => obtain ⟨rfl, -⟩ := h; rfl
  | closed => exact absurd h (by simp [Rcvd])

theorem end_step {n nv : Nat} {vals : Nat → Nat → V} {f : Nat → Nat → Bool} {o q : Bool}
    {v : Nat → Option V} {r : Rd} (h : End n o r) {p : Rd × (Nat → Option V)}
    (hp : rstep n nv vals f q v r = some p) : End n o p.1 := by
  rcases h with ⟨j, rfl⟩ | rfl | ⟨-, -, rfl⟩
  · simp only [rstep, Nat.le_refl, if_true, Option.some.injEq] at hp
    subst hp
    exact .inr (.inl rfl)
  · simp [rstep] at hp
  · simp [rstep] at hp

theorem pre_end {n nv : Nat} {vals : Nat → Nat → V} {f : Nat → Nat → Bool} {o : Bool}
    {v : Nat → Option V} {i : Nat} (r : Rd) (h : Pre n nv vals f o (i + 1) v r) (hi : i + 1 = n) :
    End n o r := by
  cases r with
  | load i' j => obtain ⟨rfl, -⟩ := h; exact .inl ⟨j, by rw [hi]⟩
  | offer i' => obtain ⟨rfl, h, -⟩ := h; omega
  | wait i' => exact h.elim
  | err => rcases h with ⟨h, -⟩ | ⟨h, -⟩ <;> omega
  | done => exact .inr (.inl rfl)

/-! ## The invariant holds -/

theorem loop_inv (c : Cfg V) (s : St V) (i : Nat) (h1 : i ≤ c.n) (h2 : Fine c i) (h3 : Good c s i 0)
    (h4 : PreA c s i) (h5 : PreB c s i) (h6 : i = c.n → End c.n c.oa s.a ∧ End c.n c.ob s.b) :
    Inv c s (loop c.n i s.good) := by
  simp only [loop]
  split
  · rename_i h; exact ⟨h, h2, h3, h4, h5⟩
  · have e : i = c.n := by omega
    subst e
    simp only [Good, Nat.not_lt_zero, false_implies, implies_true, and_true] at h3
    refine ⟨?_, fun _ => h6 rfl⟩
    split
    · rename_i hg; exact ⟨h2, h3.1 hg⟩
    · rename_i hg; exact ⟨h2, fun he => hg (h3.2 he)⟩

theorem inv_init (c : Cfg V) : Inv c (init c) (init c).mn := by
  have hA : PreA c (init c) 0 := by
    simp only [PreA, init]
    cases h : c.oa <;> simp [Pre]
  have hB : PreB c (init c) 0 := by
    simp only [PreB, init]
    cases h : c.ob <;> simp [Pre]
  refine loop_inv c (init c) 0 (by omega) (fun _ h => by omega) ?_ hA hB ?_
  · simp [Good, init, Equal]
  · intro h
    have hn : c.n = 0 := h.symm
    simp only [init, hn]
    constructor
    · cases h : c.oa
      · exact .inl ⟨0, by simp⟩
      · exact .inr (.inr ⟨rfl, rfl, by simp⟩)
    · cases h : c.ob
      · exact .inl ⟨0, by simp⟩
      · exact .inr (.inr ⟨rfl, rfl, by simp⟩)

theorem fine_succ {c : Cfg V} {i : Nat} (h : Fine c i) (ha : ¬ FailA c i) (hb : ¬ FailB c i) :
    Fine c (i + 1) := by
  intro k hk
  rcases Nat.lt_or_eq_of_le (Nat.le_of_lt_succ hk) with h' | rfl
  · exact h k h'
  · exact ⟨ha, hb⟩

theorem inv_main {c : Cfg V} {s t : St V} (h : Inv c s s.mn) (hs : mstep c s s.mn = some t) :
    Inv c t t.mn := by
  cases hm : s.mn with
  | recvA i =>
    rw [hm] at h hs
    simp only [mstep, Option.map_eq_some_iff] at hs
    obtain ⟨p, hp, rfl⟩ := hs
    obtain ⟨h1, h2, h3, h4, h5⟩ := h
    exact ⟨h1, h2, h3, pre_recv h4 h1 hp, h5⟩
  | recvB i a =>
    rw [hm] at h hs
    simp only [mstep, Option.map_eq_some_iff] at hs
    obtain ⟨p, hp, rfl⟩ := hs
    obtain ⟨h1, h2, h3, h4, h5⟩ := h
    exact ⟨h1, h2, h3, h4, pre_recv h5 h1 hp⟩
  | check i a b =>
    rw [hm] at h hs
    simp only [mstep, Option.some.injEq] at hs
    subst hs
    obtain ⟨h1, h2, h3, h4, h5⟩ := h
    simp only [checked]
    cases a with
    | closed => exact h4.elim
    | err =>
      refine ⟨⟨i, h1, h2, h4.2⟩, ?_⟩
      rintro (h | h) <;> cases h
    | entry ia =>
      obtain ⟨rfl, ha⟩ := h4
      cases b with
      | closed => exact h5.elim
      | err =>
        refine ⟨⟨ia, h1, h2, held_fine ha, h5.2⟩, ?_⟩
        rintro (h | h) <;> cases h
      | entry ib =>
        obtain ⟨rfl, hb⟩ := h5
        simp only [reduceCtorEq, if_false, num, ne_eq, not_true_eq_false]
        exact ⟨h1, h2, by omega, h3, rfl, rfl, ha, hb⟩
  | cmp i j a b =>
    rw [hm] at h hs
    obtain ⟨h1, h2, h3, h4, h5, h6, h7, h8⟩ := h
    simp only [mstep] at hs
    split at hs
    · rename_i hj
      simp only [Option.some.injEq] at hs
      subst hs
      refine ⟨h1, h2, by omega, ?_, h5, h6, h7, h8⟩
      have ea := h7.2.2.2 j hj
      have eb := h8.2.2.2 j hj
      simp only [Good] at h4 ⊢
      simp only [ea, eb, eqv, Bool.and_eq_true, h4]
      constructor
      · rintro ⟨⟨he, hk⟩, hx⟩
        refine ⟨he, fun k hk' => ?_⟩
        rcases Nat.lt_or_eq_of_le (Nat.le_of_lt_succ hk') with h | rfl
        · exact hk k h
        · exact hx
      · rintro ⟨he, hk⟩
        exact ⟨⟨he, fun k hk' => hk k (by omega)⟩, hk j (by omega)⟩
    · rename_i hj
      simp only [Option.some.injEq] at hs
      subst hs
      have : j = c.nv := by omega
      subst this
      exact ⟨h1, h2, h4, h5, h6, h7, h8⟩
  | okA i a b =>
    rw [hm] at h hs
    obtain ⟨h1, h2, h3, rfl, rfl, h6, h7⟩ := h
    simp only [mstep, Option.map_eq_some_iff] at hs
    obtain ⟨r, hr, rfl⟩ := hs
    exact ⟨h1, h2, h3, rfl, held_fine h6, held_ack h6 hr, h7⟩
  | okB i b =>
    rw [hm] at h hs
    obtain ⟨h1, h2, h3, rfl, h5, h6, h7⟩ := h
    simp only [mstep, Option.map_eq_some_iff] at hs
    obtain ⟨r, hr, rfl⟩ := hs
    refine loop_inv c _ (i + 1) (by omega) (fine_succ h2 h5 (held_fine h7)) ?_ h6
      (held_ack h7 hr) ?_
    · simp only [Good] at h3 ⊢
      rw [h3]
      simp only [Nat.not_lt_zero, false_implies, implies_true, and_true]
      constructor
      · rintro ⟨he, hk⟩ i' hi'
        rcases Nat.lt_or_eq_of_le (Nat.le_of_lt_succ hi') with h | rfl
        · exact he i' h
        · exact hk
      · intro he
        exact ⟨fun i' hi' => he i' (by omega), he i (by omega)⟩
    · intro e
      exact ⟨pre_end _ h6 e, pre_end _ (held_ack (n := c.n) h7 hr) e⟩
  | ret v =>
    rw [hm] at hs
    simp [mstep] at hs

theorem inv_ref {c : Cfg V} {s t : St V} (h : Inv c s s.mn) (hs : step c s .ref = some t) :
    Inv c t t.mn := by
  simp only [step, Option.map_eq_some_iff] at hs
  obtain ⟨p, hp, rfl⟩ := hs
  show Inv c _ s.mn
  cases hm : s.mn with
  | recvA i =>
    rw [hm] at h hp
    obtain ⟨h1, h2, h3, h4, h5⟩ := h
    exact ⟨h1, h2, h3, pre_step h4 (by omega) hp, h5⟩
  | recvB i a =>
    rw [hm] at h hp
    obtain ⟨h1, h2, h3, h4, h5⟩ := h
    rw [rcvd_step h4] at hp; cases hp
  | check i a b =>
    rw [hm] at h hp
    obtain ⟨h1, h2, h3, h4, h5⟩ := h
    rw [rcvd_step h4] at hp; cases hp
  | cmp i j a b =>
    rw [hm] at h hp
    obtain ⟨h1, h2, h3, h4, h5, h6, h7, h8⟩ := h
    rw [held_step h7] at hp; cases hp
  | okA i a b =>
    rw [hm] at h hp
    obtain ⟨h1, h2, h3, h4, h5, h7, h8⟩ := h
    rw [held_step h7] at hp; cases hp
  | okB i b =>
    rw [hm] at h hp
    obtain ⟨h1, h2, h3, h4, h5, h6, h7⟩ := h
    exact ⟨h1, h2, h3, h4, h5, pre_step h6 (by omega) hp, h7⟩
  | ret v =>
    rw [hm] at h
    exact ⟨h.1, fun hv => ⟨end_step (h.2 hv).1 hp, (h.2 hv).2⟩⟩

theorem inv_chk {c : Cfg V} {s t : St V} (h : Inv c s s.mn) (hs : step c s .chk = some t) :
    Inv c t t.mn := by
  simp only [step, Option.map_eq_some_iff] at hs
  obtain ⟨p, hp, rfl⟩ := hs
  show Inv c _ s.mn
  cases hm : s.mn with
  | recvA i =>
    rw [hm] at h hp
    obtain ⟨h1, h2, h3, h4, h5⟩ := h
    exact ⟨h1, h2, h3, h4, pre_step h5 (by omega) hp⟩
  | recvB i a =>
    rw [hm] at h hp
    obtain ⟨h1, h2, h3, h4, h5⟩ := h
    exact ⟨h1, h2, h3, h4, pre_step h5 (by omega) hp⟩
  | check i a b =>
    rw [hm] at h hp
    obtain ⟨h1, h2, h3, h4, h5⟩ := h
    rw [rcvd_step h5] at hp; cases hp
  | cmp i j a b =>
    rw [hm] at h hp
    obtain ⟨h1, h2, h3, h4, h5, h6, h7, h8⟩ := h
    rw [held_step h8] at hp; cases hp
  | okA i a b =>
    rw [hm] at h hp
    obtain ⟨h1, h2, h3, h4, h5, h7, h8⟩ := h
    rw [held_step h8] at hp; cases hp
  | okB i b =>
    rw [hm] at h hp
    obtain ⟨h1, h2, h3, h4, h5, h6, h7⟩ := h
    rw [held_step h7] at hp; cases hp
  | ret v =>
    rw [hm] at h
    exact ⟨h.1, fun hv => ⟨(h.2 hv).1, end_step (h.2 hv).2 hp⟩⟩

theorem inv_step {c : Cfg V} {s t : St V} (h : Inv c s s.mn) {x : Act} (hs : step c s x = some t) :
    Inv c t t.mn := by
  cases x with
  | main => exact inv_main h hs
  | ref => exact inv_ref h hs
  | chk => exact inv_chk h hs

theorem inv_run {c : Cfg V} {xs : List Act} {s t : St V} (h : Inv c s s.mn) (hs : run c s xs = some t) :
    Inv c t t.mn := by
  induction xs generalizing s with
  | nil => simp only [run, Option.some.injEq] at hs; subst hs; exact h
  | cons x xs ih =>
    simp only [run, Option.bind_eq_some_iff] at hs
    obtain ⟨u, hu, hr⟩ := hs
    exact ih (inv_step h hu) hr

/-- **C165** (in step): whatever the order in which the goroutines run, while entry `i` of the two trees
is compared the variables of both hold entry `i`, all of them, and neither goroutine can change them. -/
theorem C165_step (c : Cfg V) {xs : List Act} {s : St V} (h : run c (init c) xs = some s)
    {i j : Nat} {a b : Got} (hm : s.mn = .cmp i j a b) :
    (∀ k < c.nv, s.va k = some (c.ra i k) ∧ s.vb k = some (c.rb i k)) ∧
    step c s .ref = none ∧ step c s .chk = none := by
  have hI := inv_run (inv_init c) h
  rw [hm] at hI
  obtain ⟨-, -, -, -, -, -, h7, h8⟩ := hI
  refine ⟨fun k hk => ⟨h7.2.2.2 k hk, h8.2.2.2 k hk⟩, ?_, ?_⟩
  · simp [step, held_step h7]
  · simp [step, held_step h8]

/-- **C165** (the outcome): whatever the order in which the goroutines run, the comparison gives the error
of the first entry that cannot be read from one of the trees, the reference first; otherwise no error if all
values of all entries are equal, and an error if not. -/
theorem C165_outcome (c : Cfg V) {xs : List Act} {s : St V} (h : run c (init c) xs = some s)
    {v : Verdict} (hm : s.mn = .ret v) : Right c v := by
  have hI := inv_run (inv_init c) h
  rw [hm] at hI
  exact hI.1

/-! ## Progress -/

theorem pre_go {n nv : Nat} {vals : Nat → Nat → V} {f : Nat → Nat → Bool} {o : Bool} {i : Nat}
    {v : Nat → Option V} {r : Rd} (h : Pre n nv vals f o i v r) :
    (rstep n nv vals f false v r).isSome ∨ (recv r).isSome := by
  cases r with
  | load i' j =>
    left
    simp only [rstep]
    split
    · rfl
    · split
      · rfl
      · split <;> rfl
  | offer i' => right; rfl
  | wait i' => exact h.elim
  | err => right; rfl
  | done => right; rfl

/-- **C165** (no deadlock): as long as the comparison has not returned, one of the three can go on. -/
theorem C165_progress (c : Cfg V) {xs : List Act} {s : St V} (h : run c (init c) xs = some s)
    (hm : ∀ v, s.mn ≠ .ret v) : ∃ x t, step c s x = some t := by
  have hI := inv_run (inv_init c) h
  have go : ∀ x, (step c s x).isSome → ∃ x t, step c s x = some t := fun x hx =>
    ⟨x, _, (Option.some_get hx).symm⟩
  cases hs : s.mn with
  | recvA i =>
    rw [hs] at hI
    rcases pre_go hI.2.2.2.1 with h | h
    · exact go .ref (by simpa [step, hs, quitting] using h)
    · exact go .main (by simpa [step, hs, mstep] using h)
  | recvB i a =>
    rw [hs] at hI
    rcases pre_go hI.2.2.2.2 with h | h
    · exact go .chk (by simpa [step, hs, quitting] using h)
    · exact go .main (by simpa [step, hs, mstep] using h)
  | check i a b => exact go .main (by simp [step, hs, mstep])
  | cmp i j a b => exact go .main (by simp only [step, hs, mstep]; split <;> rfl)
  | okA i a b =>
    rw [hs] at hI
    obtain ⟨-, -, -, rfl, -, h6, -⟩ := hI
    exact go .main (by simp [step, hs, mstep, h6.1, ack])
  | okB i b =>
    rw [hs] at hI
    obtain ⟨-, -, -, rfl, -, -, h7⟩ := hI
    exact go .main (by simp [step, hs, mstep, h7.1, ack])
  | ret v => exact absurd hs (hm v)

/-- How far a goroutine is from its end. -/
def rankR (n nv : Nat) : Rd → Nat
  | .load i j => (n - i) * (nv + 5) + (nv - j) + 4
  | .offer i => (n - i) * (nv + 5) + 3
  | .wait i => (n - i) * (nv + 5) + 2
  | .err => 1
  | .done => 0

/-- How far `diffTree` is from its end. -/
def rankM (n nv : Nat) : Mn → Nat
  | .recvA i => (n - i) * (nv + 7) + nv + 6
  | .recvB i _ => (n - i) * (nv + 7) + nv + 5
  | .check i _ _ => (n - i) * (nv + 7) + nv + 4
  | .cmp i j _ _ => (n - i) * (nv + 7) + (nv - j) + 3
  | .okA i _ _ => (n - i) * (nv + 7) + 2
  | .okB i _ => (n - i) * (nv + 7) + 1
  | .ret _ => 0

def rank (c : Cfg V) (s : St V) : Nat := rankM c.n c.nv s.mn + rankR c.n c.nv s.a + rankR c.n c.nv s.b

theorem rstep_rank {n nv : Nat} {vals : Nat → Nat → V} {f : Nat → Nat → Bool} {q : Bool}
    {v : Nat → Option V} {r : Rd} {p : Rd × (Nat → Option V)}
    (hp : rstep n nv vals f q v r = some p) : rankR n nv p.1 < rankR n nv r := by
  cases r with
  | load i j =>
    simp only [rstep] at hp
    split at hp
    · cases hp; simp [rankR]
    · split at hp
      · cases hp; simp [rankR]
      · split at hp
        · cases hp; simp only [rankR]; omega
        · cases hp; simp only [rankR]; omega
  | offer i =>
    simp only [rstep] at hp
    split at hp
    · cases hp; simp [rankR]
    · cases hp
  | wait i => simp [rstep] at hp
  | err => simp [rstep] at hp
  | done => simp [rstep] at hp

theorem recv_rank {n nv : Nat} {r : Rd} {p : Got × Rd} (hp : recv r = some p) :
    rankR n nv p.2 ≤ rankR n nv r := by
  cases r <;> simp only [recv, Option.some.injEq, reduceCtorEq] at hp <;> subst hp <;> simp [rankR]

theorem mul_drop {n i k : Nat} (h : i < n) : (n - i) * k = (n - (i + 1)) * k + k := by
  have : n - i = (n - (i + 1)) + 1 := by omega
  rw [this, Nat.add_mul, Nat.one_mul]

theorem ack_rank {n nv i : Nat} (hi : i < n) :
    rankR n nv (.load (i + 1) 0) < rankR n nv (.wait i) := by
  simp only [rankR]
  rw [mul_drop hi]
  omega

theorem step_rank {c : Cfg V} {s t : St V} (h : Inv c s s.mn) {x : Act} (hs : step c s x = some t) :
    rank c t < rank c s := by
  cases x with
  | ref =>
    simp only [step, Option.map_eq_some_iff] at hs
    obtain ⟨p, hp, rfl⟩ := hs
    have := rstep_rank hp
    simp only [rank]; omega
  | chk =>
    simp only [step, Option.map_eq_some_iff] at hs
    obtain ⟨p, hp, rfl⟩ := hs
    have := rstep_rank hp
    simp only [rank]; omega
  | main =>
    simp only [step] at hs
    cases hm : s.mn with
    | recvA i =>
      rw [hm] at hs
      simp only [mstep, Option.map_eq_some_iff] at hs
      obtain ⟨p, hp, rfl⟩ := hs
      have := recv_rank (n := c.n) (nv := c.nv) hp
      simp only [rank, hm, rankM]; omega
    | recvB i a =>
      rw [hm] at hs
      simp only [mstep, Option.map_eq_some_iff] at hs
      obtain ⟨p, hp, rfl⟩ := hs
      have := recv_rank (n := c.n) (nv := c.nv) hp
      simp only [rank, hm, rankM]; omega
    | check i a b =>
      rw [hm] at hs
      simp only [mstep, Option.some.injEq] at hs
      subst hs
      simp only [rank, hm, checked]
      split
      · simp only [rankM]; omega
      · split
        · simp only [rankM]; omega
        · split
          · simp only [rankM]; omega
          · simp only [rankM]; omega
    | cmp i j a b =>
      rw [hm] at hs
      simp only [mstep] at hs
      split at hs
      · cases hs; simp only [rank, hm, rankM]; omega
      · cases hs; simp only [rank, hm, rankM]; omega
    | okA i a b =>
      rw [hm] at h hs
      obtain ⟨h1, -, -, rfl, -, h6, -⟩ := h
      simp only [mstep, h6.1, ack, Option.map_some, Option.some.injEq] at hs
      subst hs
      have := ack_rank (nv := c.nv) h1
      simp only [rank, hm, rankM, h6.1]; omega
    | okB i b =>
      rw [hm] at h hs
      obtain ⟨h1, -, -, rfl, -, -, h7⟩ := h
      simp only [mstep, h7.1, ack, Option.map_some, Option.some.injEq] at hs
      subst hs
      have := ack_rank (nv := c.nv) h1
      have h8 : rankM c.n c.nv (loop c.n (i + 1) s.good) < rankM c.n c.nv (.okB i (.entry i)) := by
        simp only [loop]
        split
        · simp only [rankM]
          rw [mul_drop h1]
          omega
        · simp only [rankM]; omega
      simp only [rank, hm, h7.1]; omega
    | ret v =>
      rw [hm] at hs
      simp [mstep] at hs

/-- **C165** (it ends): all executions, in any order, have at most a number of steps that depends on the
trees only; with `C165_progress`, the comparison always returns. -/
theorem C165_ends (c : Cfg V) {xs : List Act} {s : St V} (h : run c (init c) xs = some s) :
    xs.length ≤ rank c (init c) := by
  have : ∀ (xs : List Act) (s t : St V), Inv c s s.mn → run c s xs = some t → xs.length ≤ rank c s := by
    intro xs
    induction xs with
    | nil => intros; simp
    | cons x xs ih =>
      intro s t hI hr
      simp only [run, Option.bind_eq_some_iff] at hr
      obtain ⟨u, hu, hr⟩ := hr
      have := ih u t (inv_step hI hu) hr
      have := step_rank hI hu
      simp only [List.length_cons]; omega
  exact this xs _ s (inv_init c) h

/-- **C165** (nothing is left): if all can be read and the comparison has returned, the goroutines can go on
until both are at their end. -/
theorem C165_clean (c : Cfg V) (ha : c.oa = false) (hb : c.ob = false) (hf : ∀ i < c.n, ¬ FailA c i ∧ ¬ FailB c i)
    {xs : List Act} {s : St V} (h : run c (init c) xs = some s) (hend : ∀ x, step c s x = none) :
    s.a = .done ∧ s.b = .done ∧ ∃ v, s.mn = .ret v := by
  have hI := inv_run (inv_init c) h
  obtain ⟨v, hv⟩ : ∃ v, s.mn = .ret v := by
    by_cases hv : ∃ v, s.mn = .ret v
    · exact hv
    · obtain ⟨x, t, ht⟩ := C165_progress c h fun v hv' => hv ⟨v, hv'⟩
      rw [hend x] at ht; cases ht
  rw [hv] at hI
  have hvv : v = .same ∨ v = .differ := by
    have := hI.1
    cases v with
    | readRef => obtain ⟨i, hi, -, hx⟩ := this; exact absurd hx (hf i hi).1
    | readChk => obtain ⟨i, hi, -, -, hx⟩ := this; exact absurd hx (hf i hi).2
    | sync => exact this.elim
    | same => exact .inl rfl
    | differ => exact .inr rfl
  obtain ⟨hA, hB⟩ := hI.2 hvv
  refine ⟨?_, ?_, v, hv⟩
  · rcases hA with ⟨j, e⟩ | e | ⟨-, e, -⟩
    · have := hend .ref
      simp [step, e, rstep] at this
    · exact e
    · rw [ha] at e; cases e
  · rcases hB with ⟨j, e⟩ | e | ⟨-, e, -⟩
    · have := hend .chk
      simp [step, e, rstep] at this
    · exact e
    · rw [hb] at e; cases e

/-! ## Counterexamples and examples -/

/-- Two trees of two entries and two variables, of which the second entry of the reference cannot be
read if `bad`. -/
def two (bad : Bool) : Cfg Nat :=
  { n := 2, nv := 2, ra := fun i j => i + j, rb := fun i j => i + j, fa := fun i j => bad && i == 1 && j == 1,
    fb := fun _ _ => false, oa := false, ob := false, ceq := fun x y => x == y }

def show_ (s : Option (St Nat)) : Option (Mn × Rd × Rd) := s.map fun s => (s.mn, s.a, s.b)

def stuck (c : Cfg Nat) (s : Option (St Nat)) : Bool :=
  match s with
  | none => false
  | some s => (step c s .main).isNone && (step c s .ref).isNone && (step c s .chk).isNone

/-- The schedule of one entry. -/
def entry1 : List Act :=
  [.ref, .ref, .ref, .chk, .chk, .chk, .main, .main, .main, .main, .main, .main, .main, .main]

example : show_ (run (two false) (init (two false)) (entry1 ++ entry1 ++ [.ref, .chk])) =
    some (.ret .same, .done, .done) := by decide +kernel

/-- After an error reading one of the trees, the goroutine of the other tree waits for ever. -/
theorem C165_leak_counterexample : ∃ xs,
    show_ (run (two true) (init (two true)) xs) = some (.ret .readRef, .done, .wait 1) ∧
    stuck (two true) (run (two true) (init (two true)) xs) = true :=
  ⟨entry1 ++ [.ref, .ref, .chk, .chk, .chk, .main, .main, .main], by decide +kernel, by decide +kernel⟩

/-- If a reader cannot be made for trees without entries, its goroutine waits for ever, and the trees are
found equal. -/
theorem C165_empty_counterexample :
    show_ (run { two false with n := 0, oa := true } (init { two false with n := 0, oa := true }) [.chk]) =
      some (.ret .same, .err, .done) ∧
    stuck { two false with n := 0, oa := true }
      (run { two false with n := 0, oa := true } (init { two false with n := 0, oa := true }) [.chk]) = true := by
  decide +kernel

end Verif.Rcmd.Lockstep
