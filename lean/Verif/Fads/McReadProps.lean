import Verif.Fads.McRead
import Batteries.Data.List.Perm

/-!
# Generated particles become candidates (C178)
-/

namespace Verif.Fads.McRead

variable {K V : Type}

/-! ## Specification -/

/-- Sorting puts candidates with the greatest transverse momentum first, in whatever order those that have the same. -/
def Sorts (ge : V → V → Prop) (srt : List (Cand K V) → List (Cand K V)) : Prop :=
  ∀ l, (srt l).Perm l ∧ (srt l).Pairwise fun a b => ge a.mom b.mom

/-- A stable particle: in the table, with status 1 and without width. -/
def Stable (x : Ctx K V) (p : Gen V) : Prop := ∃ i, x.table p.pdg = some i ∧ p.status = 1 ∧ x.narrow i.width = true

/-- A parton: a known quark, gluon or tau that is not in the final state. -/
def Parton (x : Ctx K V) (p : Gen V) : Prop :=
  x.table p.pdg ≠ none ∧ p.status ≠ 1 ∧ (-5 ≤ p.pdg ∧ p.pdg ≤ 5 ∨ p.pdg = 21 ∨ p.pdg = -21 ∨ p.pdg = 15 ∨ p.pdg = -15)

/-- The candidates of the particles for which `P` holds, each once. -/
def Selected (x : Ctx K V) (P : Gen V → Prop) (ps : List (Gen V)) (out : List (Cand K V)) : Prop :=
  ∃ sel : List (Gen V), sel.Sublist ps ∧ (∀ p ∈ sel, P p) ∧ (∀ Q : Gen V → Bool, (∀ p, Q p = true → P p) →
    sel.countP Q = ps.countP Q) ∧ out.Perm (sel.map (cand x))

/-! ## Proofs -/

theorem fold_lists (x : Ctx K V) (ps : List (Gen V)) (l : Lists K V) :
    ∃ s q : List (Gen V), ps.foldl (step x) l = ⟨l.all ++ ps.map (cand x), l.stable ++ s.map (cand x), l.partons ++ q.map (cand x)⟩ ∧
      s.Sublist ps ∧ (∀ p ∈ s, Stable x p) ∧ (∀ Q : Gen V → Bool, (∀ p, Q p = true → Stable x p) → s.countP Q = ps.countP Q) ∧
      q.Sublist ps ∧ (∀ p ∈ q, Parton x p) ∧ (∀ Q : Gen V → Bool, (∀ p, Q p = true → Parton x p) → q.countP Q = ps.countP Q) := by
  induction ps generalizing l with
  | nil => exact ⟨[], [], by simp, .slnil, by simp, fun _ _ => rfl, .slnil, by simp, fun _ _ => rfl⟩
  | cons p ps ih =>
    have hnot : ∀ {P : Gen V → Prop} (Q : Gen V → Bool), (∀ p, Q p = true → P p) → ¬ P p → ∀ s : List (Gen V),
        s.countP Q = ps.countP Q → s.countP Q = (p :: ps).countP Q := by
      intro P Q hQ hp s hs
      rw [List.countP_cons_of_neg (fun h => hp (hQ p h)), hs]
    have hyes : ∀ (Q : Gen V → Bool) (s : List (Gen V)), s.countP Q = ps.countP Q → (p :: s).countP Q = (p :: ps).countP Q := by
      intro Q s hs
      rw [List.countP_cons, List.countP_cons, hs]
    rw [List.foldl_cons]
    have neither : step x l p = { l with all := l.all ++ [cand x p] } → ¬ Stable x p → ¬ Parton x p → ∃ s q : List (Gen V),
        ps.foldl (step x) (step x l p) = ⟨l.all ++ (p :: ps).map (cand x), l.stable ++ s.map (cand x), l.partons ++ q.map (cand x)⟩ ∧
        s.Sublist (p :: ps) ∧ (∀ p ∈ s, Stable x p) ∧
        (∀ Q : Gen V → Bool, (∀ p, Q p = true → Stable x p) → s.countP Q = (p :: ps).countP Q) ∧
        q.Sublist (p :: ps) ∧ (∀ p ∈ q, Parton x p) ∧
        (∀ Q : Gen V → Bool, (∀ p, Q p = true → Parton x p) → q.countP Q = (p :: ps).countP Q) := by
      intro hs h1 h2
      obtain ⟨s, q, h, a1, a2, a3, b1, b2, b3⟩ := ih (step x l p)
      rw [h, hs]
      exact ⟨s, q, by simp, a1.cons _, a2, fun Q hQ => hnot Q hQ h1 s (a3 Q hQ), b1.cons _, b2,
        fun Q hQ => hnot Q hQ h2 q (b3 Q hQ)⟩
    cases ht : x.table p.pdg with
    | none =>
      refine neither (by simp only [step, ht]) ?_ fun h => h.1 ht
      rintro ⟨i, hi, -⟩
      rw [ht] at hi
      cases hi
    | some i =>
      have hstep : step x l p = sortIn x { l with all := l.all ++ [cand x p] } p i := by simp only [step, ht]
      by_cases h1 : p.status = 1
      · have hP : ¬ Parton x p := fun h => h.2.1 h1
        by_cases h2 : x.narrow i.width = true
        · obtain ⟨s, q, h, a1, a2, a3, b1, b2, b3⟩ := ih (step x l p)
          refine ⟨p :: s, q, ?_, a1.cons_cons _, ?_, fun Q hQ => hyes Q s (a3 Q hQ), b1.cons _, b2,
            fun Q hQ => hnot Q hQ hP q (b3 Q hQ)⟩
          · rw [h, hstep, sortIn, if_pos h1, if_pos h2]
            simp
          · intro p' hp'
            rcases List.mem_cons.mp hp' with rfl | hp'
            · exact ⟨i, ht, h1, h2⟩
            · exact a2 p' hp'
        · refine neither (by rw [hstep, sortIn, if_pos h1, if_neg h2]) ?_ hP
          rintro ⟨j, hj, -, hw⟩
          rw [ht] at hj
          cases hj
          exact h2 hw
      · have hS : ¬ Stable x p := fun ⟨_, _, h, _⟩ => h1 h
        by_cases h2 : p.pdg.natAbs ≤ 5 ∨ p.pdg.natAbs = 21 ∨ p.pdg.natAbs = 15
        · obtain ⟨s, q, h, a1, a2, a3, b1, b2, b3⟩ := ih (step x l p)
          refine ⟨s, p :: q, ?_, a1.cons _, a2, fun Q hQ => hnot Q hQ hS s (a3 Q hQ), b1.cons_cons _, ?_,
            fun Q hQ => hyes Q q (b3 Q hQ)⟩
          · rw [h, hstep, sortIn, if_neg h1, if_pos h2]
            simp
          · intro p' hp'
            rcases List.mem_cons.mp hp' with rfl | hp'
            · exact ⟨by rw [ht]; exact Option.some_ne_none _, h1, by omega⟩
            · exact b2 p' hp'
        · refine neither (by rw [hstep, sortIn, if_neg h1, if_neg h2]) hS ?_
          rintro ⟨-, -, h⟩
          omega

/-- **C178** (all): every particle of the event becomes one candidate, and they come by falling transverse momentum. -/
theorem C178_all {ge : V → V → Prop} (x : Ctx K V) (srt : List (Cand K V) → List (Cand K V)) (hs : Sorts ge srt)
    (ps : List (Gen V)) :
    (process x srt ps).all.Perm (ps.map (cand x)) ∧ (process x srt ps).all.Pairwise fun a b => ge a.mom b.mom := by
  obtain ⟨s, q, h, -⟩ := fold_lists x ps ⟨[], [], []⟩
  unfold process
  simp only [h, List.nil_append]
  exact hs _

/-- **C178** (stable): so do the stable ones in their list, and no others. -/
theorem C178_stable {ge : V → V → Prop} (x : Ctx K V) (srt : List (Cand K V) → List (Cand K V)) (hs : Sorts ge srt)
    (ps : List (Gen V)) :
    Selected x (Stable x) ps (process x srt ps).stable ∧ (process x srt ps).stable.Pairwise fun a b => ge a.mom b.mom := by
  obtain ⟨s, q, h, a1, a2, a3, -⟩ := fold_lists x ps ⟨[], [], []⟩
  unfold process
  simp only [h, List.nil_append]
  exact ⟨⟨s, a1, a2, a3, (hs _).1⟩, (hs _).2⟩

/-- **C178** (partons): and the partons. -/
theorem C178_partons {ge : V → V → Prop} (x : Ctx K V) (srt : List (Cand K V) → List (Cand K V)) (hs : Sorts ge srt)
    (ps : List (Gen V)) :
    Selected x (Parton x) ps (process x srt ps).partons ∧ (process x srt ps).partons.Pairwise fun a b => ge a.mom b.mom := by
  obtain ⟨s, q, h, -, -, -, b1, b2, b3⟩ := fold_lists x ps ⟨[], [], []⟩
  unfold process
  simp only [h, List.nil_append]
  exact ⟨⟨q, b1, b2, b3, (hs _).1⟩, (hs _).2⟩

/-- **C178** (fields): the candidate has the code, status and momentum of the particle, the position of the vertex where it was
produced, and the mass of the table. -/
theorem C178_fields (x : Ctx K V) (p : Gen V) (h1 : -(2 ^ 31) ≤ p.pdg) (h2 : p.pdg < 2 ^ 31) (h3 : -(2 ^ 31) ≤ p.status)
    (h4 : p.status < 2 ^ 31) :
    (cand x p).pid = p.pdg ∧ (cand x p).status = p.status ∧ (cand x p).mom = p.mom ∧
      (∀ v, p.vtx = some v → (cand x p).pos = v ∧ (cand x p).m1 = 1) ∧ (p.vtx = none → (cand x p).pos = x.zero ∧ (cand x p).m1 = 0) ∧
      (∀ i, x.table p.pdg = some i → (cand x p).mass = i.mass) ∧
      (x.table p.pdg = none → (cand x p).mass = x.noMass ∧ (cand x p).charge = -999) := by
  have e1 : toI32 p.pdg = p.pdg := by unfold toI32; omega
  have e2 : toI32 p.status = p.status := by unfold toI32; omega
  obtain ⟨pdg, st, mom, vtx⟩ := p
  simp only at e1 e2
  unfold cand fresh
  simp only [e1, e2]
  cases vtx <;> cases x.table pdg <;> simp [withVertex, withInfo]

/-- **C178** (charge): a whole charge is kept. Missing: quarks. -/
theorem C178_charge_partial (x : Ctx K V) (p : Gen V) (i : Info K) (q : Int) (h : x.table p.pdg = some i) (hq : i.thirds = 3 * q) :
    (cand x p).charge = q := by
  have : (3 * q).tdiv 3 = q := Int.mul_tdiv_cancel_left q (by decide)
  unfold cand
  rw [h]
  cases p.vtx <;> simp only [withVertex, withInfo, hq, this]

/-- **C178** (order): the order of the map does not matter for which candidates there are. -/
theorem C178_order {ge : V → V → Prop} (x : Ctx K V) (srt : List (Cand K V) → List (Cand K V)) (hs : Sorts ge srt)
    (ps ps' : List (Gen V)) (h : ps.Perm ps') : (process x srt ps).all.Perm (process x srt ps').all :=
  (C178_all x srt hs ps).1.trans ((h.map _).trans (C178_all x srt hs ps').1.symm)

/-! ## Counterexamples and examples -/

/-- A table: u quark, electron, Z. -/
def exX : Ctx Nat Nat :=
  ⟨fun p => if p = 2 then some ⟨2, 330, 0⟩ else if p = 11 then some ⟨-3, 1, 0⟩ else if p = 23 then some ⟨0, 91187, 2495⟩ else none,
    0, 9999, fun w => w == 0⟩

/-- A u quark gets charge 0. -/
theorem C178_quark_counterexample : ∃ (p : Gen Nat) (i : Info Nat), exX.table p.pdg = some i ∧ i.thirds = 2 ∧ (cand exX p).charge = 0 :=
  ⟨⟨2, 3, 7, none⟩, _, rfl, rfl, rfl⟩

/-- A particle of the final state, not in the table, is not stable; nor is one with a width. -/
theorem C178_unknown_counterexample :
    (process exX id [⟨1000022, 1, 7, none⟩]).stable.length = 0 ∧ (process exX id [⟨23, 1, 7, none⟩]).stable.length = 0 :=
  ⟨rfl, rfl⟩

/-- Insertion by falling momentum. -/
def ins (c : Cand Nat Nat) : List (Cand Nat Nat) → List (Cand Nat Nat)
  | [] => [c]
  | d :: l => if d.mom ≤ c.mom then c :: d :: l else d :: ins c l

theorem ins_perm (c : Cand Nat Nat) (l : List (Cand Nat Nat)) : (ins c l).Perm (c :: l) := by
  induction l with
  | nil => exact .refl _
  | cons d l ih =>
    unfold ins
    split
    · exact .refl _
    · exact (ih.cons d).trans (.swap c d l)

theorem ins_sorted (c : Cand Nat Nat) (l : List (Cand Nat Nat)) (h : l.Pairwise fun a b => b.mom ≤ a.mom) :
    (ins c l).Pairwise fun a b => b.mom ≤ a.mom := by
  induction l with
  | nil => simp [ins]
  | cons d l ih =>
    have hd := List.pairwise_cons.mp h
    unfold ins
    split
    · rename_i hc
      refine List.pairwise_cons.mpr ⟨fun b hb => ?_, h⟩
      rcases List.mem_cons.mp hb with rfl | hb
      · exact hc
      · exact Nat.le_trans (hd.1 b hb) hc
    · rename_i hc
      refine List.pairwise_cons.mpr ⟨fun b hb => ?_, ih hd.2⟩
      rcases List.mem_cons.mp ((ins_perm c l).mem_iff.mp hb) with rfl | hb
      · omega
      · exact hd.1 b hb

/-- There are ways of sorting. -/
theorem exSorts : Sorts (fun a b : Nat => b ≤ a) (fun l : List (Cand Nat Nat) => l.foldr ins []) := by
  intro l
  induction l with
  | nil => exact ⟨.refl _, .nil⟩
  | cons c l ih => exact ⟨(ins_perm c _).trans (ih.1.cons c), ins_sorted c _ ih.2⟩

/-- An electron, a quark, an unknown particle. -/
example : (process exX (fun l => l.foldr ins []) [⟨11, 1, 3, some 4⟩, ⟨2, 3, 7, none⟩, ⟨99, 1, 5, none⟩]).all.map (fun c => (c.pid, c.charge)) =
    [(2, 0), (99, -999), (11, -1)] := by decide

example : (process exX (fun l => l.foldr ins []) [⟨11, 1, 3, some 4⟩, ⟨2, 3, 7, none⟩, ⟨99, 1, 5, none⟩]).stable.map (fun c => (c.pid, c.pos)) =
    [(11, 4)] := by decide

example : (process exX (fun l => l.foldr ins []) [⟨11, 1, 3, some 4⟩, ⟨2, 3, 7, none⟩, ⟨99, 1, 5, none⟩]).partons.map (fun c => c.pid) = [2] := by
  decide

end Verif.Fads.McRead
