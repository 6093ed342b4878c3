import Verif.Rcmd.SplitArg

/-!
# Files and selections of the arguments (C174)
-/

namespace Verif.Rcmd.SplitArg

/-! ## Specification -/

/-- A local name: it has no scheme and no colon, and is not empty. -/
def Local (f : List Char) : Prop := f ≠ [] ∧ ':' ∉ f

/-- A name at a server: one of the schemes and a name without colon. -/
def Remote (p f : List Char) : Prop := p ∈ schemes ∧ Local f

/-- The selection is matched with whole paths: it starts at the root. -/
def Rooted (s : List Char) : Prop := "/".toList <+: s ∨ "^/".toList <+: s

/-! ## Proofs -/

theorem lastColon_none {f : List Char} (h : ':' ∉ f) : lastColon f = none := by
  induction f with
  | nil => rfl
  | cons c cs ih =>
    have hc : c ≠ ':' := fun e => h (by rw [e]; exact List.mem_cons_self)
    rw [lastColon, ih fun h' => h (List.mem_cons_of_mem _ h')]
    exact if_neg hc

theorem lastColon_eq (f : List Char) {s : List Char} (hs : ':' ∉ s) : lastColon (f ++ ':' :: s) = some f.length := by
  induction f with
  | nil => rw [List.nil_append, lastColon, lastColon_none hs]; rfl
  | cons c cs ih => rw [List.cons_append, lastColon, ih]; rfl

theorem no_scheme {f : List Char} (hf : ':' ∉ f) : scheme f = [] := by
  unfold scheme
  have : schemes.find? (fun p => p.isPrefixOf f) = none := by
    rw [List.find?_eq_none]
    intro p hp h
    obtain ⟨t, rfl⟩ := List.isPrefixOf_iff_prefix.1 h
    apply hf
    exact List.mem_append_left _ ((by decide : ∀ p ∈ schemes, ':' ∈ p) p hp)
  rw [this]
  rfl

/-- A local name before a colon is not taken for a scheme, unless `//` follows. -/
theorem no_scheme_sel {f s : List Char} (hf : ':' ∉ f) (hs : ¬ "//".toList <+: s) : scheme (f ++ ':' :: s) = [] := by
  unfold scheme
  have key : ∀ (a : List Char), ':' ∉ a → ¬ (a ++ "://".toList) <+: (f ++ ':' :: s) := by
    intro a ha h
    obtain ⟨t, ht⟩ := h
    have h1 : a ++ ':' :: ("//".toList ++ t) = f ++ ':' :: s := by
      rw [← ht]; simp
    have h2 := congrArg (Verif.Text.cut [':']) h1
    rw [Verif.Text.cut_one ':' ha, Verif.Text.cut_one ':' hf] at h2
    simp only [Option.some.injEq, Prod.mk.injEq] at h2
    exact hs ⟨t, h2.2⟩
  have : schemes.find? (fun p => p.isPrefixOf (f ++ ':' :: s)) = none := by
    rw [List.find?_eq_none]
    intro p hp h
    have h := List.isPrefixOf_iff_prefix.1 h
    simp only [schemes, List.mem_cons, List.not_mem_nil, or_false] at hp
    rcases hp with rfl | rfl | rfl | rfl
    · exact key "https".toList (by decide) h
    · exact key "http".toList (by decide) h
    · exact key "root".toList (by decide) h
    · exact key "file".toList (by decide) h
  rw [this]
  rfl

theorem scheme_eq {p : List Char} (hp : p ∈ schemes) (f : List Char) : scheme (p ++ f) = p := by
  simp only [schemes, List.mem_cons, List.not_mem_nil, or_false] at hp
  rcases hp with rfl | rfl | rfl | rfl <;> rfl

theorem scheme_count : ∀ p ∈ schemes, p.count ':' = 1 := by decide

/-- **C174** (local files): the file and what is selected in it, made to start at the root; an empty selection is
everything. -/
theorem C174_local (f s : List Char) (hf : Local f) (hs : ':' ∉ s) (hs2 : ¬ "//".toList <+: s) :
    splitArg (f ++ ':' :: s) = some (f, rooted (if s = [] then ".*".toList else s)) ∧
      splitArg f = some (f, "/.*".toList) := by
  have hn : f.length ≠ 0 := fun h => hf.1 (List.length_eq_zero_iff.1 h)
  constructor
  · unfold splitArg
    rw [no_scheme_sel hf.2 hs2]
    have hc : (f ++ ':' :: s).count ':' = 1 := by
      rw [List.count_append, List.count_cons_self, List.count_eq_zero.2 hf.2, List.count_eq_zero.2 hs]
    simp only [List.length_nil, List.drop_zero, List.nil_append]
    rw [hc, if_neg (by decide)]
    unfold cutAt
    rw [lastColon_eq f hs]
    simp only
    rw [if_pos (Nat.pos_of_ne_zero hn), List.take_left' rfl, ← List.drop_drop, List.drop_left' rfl]
    rfl
  · unfold splitArg
    rw [no_scheme hf.2]
    simp only [List.length_nil, List.drop_zero, List.nil_append]
    rw [List.count_eq_zero.2 hf.2, if_neg (by decide)]
    unfold cutAt
    rw [lastColon_none hf.2]
    rfl

/-- **C174** (remote files): the same for a name with a scheme, which stays. Missing: names with a port, see the
counterexamples. -/
theorem C174_remote_partial (p f s : List Char) (h : Remote p f) (hs : ':' ∉ s) :
    splitArg (p ++ (f ++ ':' :: s)) = some (p ++ f, rooted (if s = [] then ".*".toList else s)) ∧
      splitArg (p ++ f) = some (p ++ f, "/.*".toList) := by
  obtain ⟨hp, hf⟩ := h
  have hn : f.length ≠ 0 := fun h => hf.1 (List.length_eq_zero_iff.1 h)
  constructor
  · unfold splitArg
    rw [scheme_eq hp, List.drop_left' rfl]
    have hc : (f ++ ':' :: s).count ':' = 1 := by
      rw [List.count_append, List.count_cons_self, List.count_eq_zero.2 hf.2, List.count_eq_zero.2 hs]
    rw [hc, if_neg (by decide)]
    unfold cutAt
    rw [lastColon_eq f hs]
    simp only
    rw [if_pos (Nat.pos_of_ne_zero hn), List.take_left' rfl, ← List.drop_drop, List.drop_left' rfl]
    rfl
  · unfold splitArg
    rw [scheme_eq hp, List.drop_left' rfl, List.count_eq_zero.2 hf.2, if_neg (by decide)]
    unfold cutAt
    rw [lastColon_none hf.2]
    rfl

theorem rooted_rooted (s : List Char) : Rooted (rooted s) := by
  unfold rooted Rooted
  split
  · exact Or.inl ⟨_, rfl⟩
  · exact Or.inr ⟨_, rfl⟩
  · exact Or.inr ⟨_, rfl⟩
  · exact Or.inl ⟨_, rfl⟩

/-- **C174** (root): the selection always starts at the root. -/
theorem C174_rooted (cmd f s : List Char) (h : splitArg cmd = some (f, s)) : Rooted s := by
  unfold splitArg at h
  split at h
  · cases h
  · cases h
    exact rooted_rooted _

/-- **C174** (anchors): a selection that starts at the root stays as it is, and an anchor stays an anchor. -/
theorem C174_anchor (s : List Char) : (Rooted s → rooted s = s) ∧
    (rooted ('^' :: s) = '^' :: s ∨ rooted ('^' :: s) = '^' :: '/' :: s) := by
  constructor
  · rintro (⟨t, rfl⟩ | ⟨t, rfl⟩) <;> rfl
  · cases s with
    | nil => exact Or.inr rfl
    | cons c t =>
      by_cases h : c = '/'
      · subst h; exact Or.inl rfl
      · right
        unfold rooted
        split
        · rename_i e; simp at e
        · rename_i e; simp only [List.cons.injEq, true_and] at e; exact absurd e.1 h
        · rename_i _ e; simp only [List.cons.injEq, true_and] at e; rw [e]
        · rename_i h3; exact absurd rfl (h3 _)

/-- **C174** (errors): an argument is refused if and only if it has two colons or more after its scheme. -/
theorem C174_errors (cmd : List Char) :
    ((∀ p ∈ schemes, ¬ p <+: cmd) → (splitArg cmd = none ↔ 2 ≤ cmd.count ':')) ∧
      ∀ p ∈ schemes, splitArg (p ++ cmd) = none ↔ 2 ≤ cmd.count ':' := by
  constructor
  · intro h
    have hs : scheme cmd = [] := by
      unfold scheme
      rw [List.find?_eq_none.2 fun p hp hh => h p hp (List.isPrefixOf_iff_prefix.1 hh)]
      rfl
    unfold splitArg
    rw [hs]
    simp only [List.length_nil, List.drop_zero]
    split
    · exact ⟨fun _ => by omega, fun _ => rfl⟩
    · exact ⟨fun h => (by cases h), fun _ => (by omega)⟩
  · intro p hp
    unfold splitArg
    rw [scheme_eq hp, List.drop_left' rfl]
    split
    · exact ⟨fun _ => by omega, fun _ => rfl⟩
    · exact ⟨fun h => (by cases h), fun _ => (by omega)⟩

/-- A file on a server with a port: the port is taken for a selection. -/
theorem C174_port_counterexample : splitArg "root://localhost:1094/f.root".toList =
    some ("root://localhost".toList, "/1094/f.root".toList) := by decide

/-- A file on a server with a port, and a selection: refused. -/
theorem C174_port_selection_counterexample : splitArg "http://localhost:8080/f.root:h1".toList = none := by decide

/-! ## Examples -/

example : Local "dir/f.root".toList ∧ splitArg "dir/f.root:h.*".toList = some ("dir/f.root".toList, "/h.*".toList) ∧
    splitArg "dir/f.root:^h1$".toList = some ("dir/f.root".toList, "^/h1$".toList) ∧
    splitArg "dir/f.root:".toList = some ("dir/f.root".toList, "/.*".toList) := by
  unfold Local
  decide

example : Remote "root://".toList "server/f.root".toList ∧
    splitArg "root://server/f.root:^/dir/h".toList = some ("root://server/f.root".toList, "^/dir/h".toList) := by
  unfold Remote Local
  decide

end Verif.Rcmd.SplitArg
