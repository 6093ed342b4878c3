import Verif.Hplot.Tiled
import Mathlib.Data.List.Nodup
import Mathlib.Tactic.Ring

/-!
# Tiled plots (C194)
-/

namespace Verif.Hplot.Tiled

section
variable {P : Type}

theorem idx_lt {rows cols i j : Nat} (hi : i < cols) (hj : j < rows) : j * cols + i < rows * cols :=
  calc j * cols + i < j * cols + cols := Nat.add_lt_add_left hi _
    _ = (j + 1) * cols := by ring
    _ ≤ rows * cols := Nat.mul_le_mul_right _ hj

theorem idx_inj {cols i i' j j' : Nat} (hi : i < cols) (hi' : i' < cols) (h : j * cols + i = j' * cols + i') : i = i' ∧ j = j' := by
  have hc : 0 < cols := Nat.lt_of_le_of_lt (Nat.zero_le _) hi
  have e1 : (j * cols + i) % cols = i := by rw [Nat.add_comm, Nat.add_mul_mod_self_right, Nat.mod_eq_of_lt hi]
  have e2 : (j' * cols + i') % cols = i' := by rw [Nat.add_comm, Nat.add_mul_mod_self_right, Nat.mod_eq_of_lt hi']
  have : i = i' := by rw [← e1, ← e2, h]
  subst this
  exact ⟨rfl, Nat.eq_of_mul_eq_mul_right hc (Nat.add_right_cancel h)⟩

/-- **C194** (tiles): a new set of tiles has a plot of its own at every column and row. -/
theorem C194_new (new : Nat → P) (hn : ∀ k k', new k = new k' → k = k') (rows cols i j i' j' : Nat) (hi : i < cols) (hj : j < rows)
    (hi' : i' < cols) (hj' : j' < rows) : ∃ p p', plot (newTiled new rows cols) i j = some (some p) ∧
      plot (newTiled new rows cols) i' j' = some (some p') ∧ (p = p' ↔ i = i' ∧ j = j') := by
  have get : ∀ a b, a < cols → b < rows → plot (newTiled new rows cols) a b = some (some (new (b * cols + a))) := by
    intro a b ha hb
    simp only [plot, newTiled]
    rw [List.getElem?_map, List.getElem?_range (idx_lt ha hb)]
    rfl
  refine ⟨_, _, get i j hi hj, get i' j' hi' hj', ?_⟩
  constructor
  · intro h
    exact idx_inj hi hi' (hn _ _ h)
  · rintro ⟨rfl, rfl⟩
    rfl

/-- **C194** (rows outside): asking for a row that is not there panics. -/
theorem C194_outside (t : TP P) (hl : t.plots.length = t.rows * t.cols) (i j : Nat) (hj : t.rows ≤ j) : plot t i j = none := by
  apply List.getElem?_eq_none
  rw [hl]
  exact Nat.le_trans (Nat.mul_le_mul_right _ hj) (Nat.le_add_right _ _)

theorem drawRow_spec (t : TP P) (row : Nat) (cs : List Nat) (hin : ∀ c ∈ cs, row * t.cols + c < t.plots.length) :
    ∃ l, drawRow t row cs = some l ∧ (∀ p i j, (p, i, j) ∈ l ↔ i ∈ cs ∧ j = row ∧ plot t i j = some (some p)) ∧
      (l.map Prod.snd).Sublist (cs.map fun c => (c, row)) := by
  induction cs with
  | nil => exact ⟨[], rfl, fun p i j => ⟨fun h => (List.not_mem_nil h).elim, fun h => (List.not_mem_nil h.1).elim⟩, List.Sublist.refl _⟩
  | cons c cs ih =>
    obtain ⟨l, h1, h2, h3⟩ := ih fun c' h => hin c' (List.mem_cons_of_mem _ h)
    have hc := hin c List.mem_cons_self
    cases hg : t.plots[row * t.cols + c]? with
    | none => rw [List.getElem?_eq_none_iff] at hg; omega
    | some o =>
      cases o with
      | none =>
        refine ⟨l, by simp only [drawRow, hg, h1], fun p i j => ?_, h3.cons _⟩
        rw [h2]
        constructor
        · exact fun h => ⟨List.mem_cons_of_mem _ h.1, h.2⟩
        · rintro ⟨hi, rfl, hp⟩
          rcases List.mem_cons.mp hi with rfl | hi
          · simp only [plot, hg] at hp; cases hp
          · exact ⟨hi, rfl, hp⟩
      | some q =>
        refine ⟨(q, c, row) :: l, by simp only [drawRow, hg, h1, Option.map_some], fun p i j => ?_, h3.cons_cons _⟩
        rw [List.mem_cons, h2]
        constructor
        · rintro (h | h)
          · simp only [Prod.mk.injEq] at h
            obtain ⟨rfl, rfl, rfl⟩ := h
            exact ⟨List.mem_cons_self, rfl, hg⟩
          · exact ⟨List.mem_cons_of_mem _ h.1, h.2⟩
        · rintro ⟨hi, rfl, hp⟩
          rcases List.mem_cons.mp hi with rfl | hi
          · left
            simp only [plot, hg, Option.some.injEq] at hp
            rw [hp]
          · exact Or.inr ⟨hi, rfl, hp⟩

theorem drawRows_spec (t : TP P) (rs : List Nat) (hin : ∀ r ∈ rs, ∀ c < t.cols, r * t.cols + c < t.plots.length) :
    ∃ l, drawRows t rs = some l ∧ (∀ p i j, (p, i, j) ∈ l ↔ i < t.cols ∧ j ∈ rs ∧ plot t i j = some (some p)) ∧
      (l.map Prod.snd).Sublist (rs.flatMap fun r => (List.range t.cols).map fun c => (c, r)) := by
  induction rs with
  | nil => exact ⟨[], rfl, fun p i j => ⟨fun h => (List.not_mem_nil h).elim, fun h => (List.not_mem_nil h.2.1).elim⟩, List.Sublist.refl _⟩
  | cons r rs ih =>
    obtain ⟨l, h1, h2, h3⟩ := ih fun r' h => hin r' (List.mem_cons_of_mem _ h)
    obtain ⟨a, a1, a2, a3⟩ := drawRow_spec t r (List.range t.cols) fun c h => hin r List.mem_cons_self c (List.mem_range.mp h)
    refine ⟨a ++ l, by simp only [drawRows, a1, h1, Option.bind_some, Option.map_some], fun p i j => ?_, ?_⟩
    · rw [List.mem_append, a2, h2, List.mem_range]
      constructor
      · rintro (⟨x, rfl, y⟩ | ⟨x, y, z⟩)
        · exact ⟨x, List.mem_cons_self, y⟩
        · exact ⟨x, List.mem_cons_of_mem _ y, z⟩
      · rintro ⟨x, y, z⟩
        rcases List.mem_cons.mp y with rfl | y
        · exact Or.inl ⟨x, rfl, z⟩
        · exact Or.inr ⟨x, y, z⟩
    · rw [List.map_append, List.flatMap_cons]
      exact a3.append h3

/-- **C194** (drawing): every plot is drawn in the tile of the column and the row it is asked for by, once, and nothing else is drawn. -/
theorem C194_draw (t : TP P) (hl : t.plots.length = t.rows * t.cols) :
    ∃ l, draw t = some l ∧ (∀ p i j, (p, i, j) ∈ l ↔ i < t.cols ∧ j < t.rows ∧ plot t i j = some (some p)) ∧ (l.map Prod.snd).Nodup := by
  obtain ⟨l, h1, h2, h3⟩ := drawRows_spec t (List.range t.rows) fun r hr c hc => by
    rw [hl]
    exact idx_lt hc (List.mem_range.mp hr)
  refine ⟨l, h1, fun p i j => by rw [h2, List.mem_range], List.Nodup.sublist h3 ?_⟩
  rw [List.nodup_flatMap]
  refine ⟨fun r _ => List.nodup_range.map fun a b h => (Prod.mk.inj h).1, ?_⟩
  refine List.Pairwise.imp ?_ (List.nodup_range (n := t.rows))
  intro a b hab x hx hy
  obtain ⟨c, _, rfl⟩ := List.mem_map.mp hx
  obtain ⟨c', _, e⟩ := List.mem_map.mp hy
  exact hab (Prod.mk.inj e).2.symm

end

/-- A column that is not there is not refused: it gives a plot of the next row. -/
theorem C194_column_counterexample : plot (newTiled id 2 3) 3 0 = plot (newTiled id 2 3) 0 1 ∧ plot (newTiled id 2 3) 3 0 = some (some 3) := by
  decide

example : (newTiled id 2 3).plots.length = (newTiled id 2 3).rows * (newTiled id 2 3).cols := by decide

example : draw (⟨2, 2, [some 'a', none, some 'b', some 'c']⟩ : TP Char) = some [('a', 0, 0), ('b', 0, 1), ('c', 1, 1)] := by decide

end Verif.Hplot.Tiled
