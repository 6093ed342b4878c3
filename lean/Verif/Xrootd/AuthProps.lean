import Verif.Xrootd.Auth
import Mathlib.Data.List.Forall2

/-!
# The choice of a security method (C190)
-/

namespace Verif.Xrootd.Auth

/-! ## Specification -/

/-- A method as the server writes it: its name and its parameters with commas between. -/
def writeMethod (m : Str × List Str) : Str := ['&', 'P', '='] ++ m.1 ++ m.2.flatMap fun p => ',' :: p

/-- What the server sends. -/
def write (ms : List (Str × List Str)) : Str := ms.flatMap writeMethod

/-- Names and parameters without the characters that divide them, and a name that does not begin with the mark of one. -/
def Fine (m : Str × List Str) : Prop :=
  ('&' ∉ m.1 ∧ ',' ∉ m.1 ∧ m.1.head? ≠ some 'P' ∧ m.1.head? ≠ some '=' ∧ m.1 ≠ []) ∧ ∀ p ∈ m.2, '&' ∉ p ∧ ',' ∉ p

section
variable {R : Type}

/-- The request of a method the client knows. -/
def request (auths : Str → Option (List Str → Option R)) (m : Str × List Str) : Option R := (auths m.1).bind fun f => f m.2

/-- The method works. -/
def Works (auths : Str → Option (List Str → Option R)) (ok : R → Bool) (m : Str × List Str) : Prop :=
  ∃ r, request auths m = some r ∧ ok r = true

/-- Why it does not. -/
def Reason (auths : Str → Option (List Str → Option R)) (ok : R → Bool) (m : Str × List Str) (e : Str × Why) : Prop :=
  e.1 = m.1 ∧
    match e.2 with
    | .notFound => auths m.1 = none
    | .request => ∃ f, auths m.1 = some f ∧ f m.2 = none
    | .refused => ∃ r, request auths m = some r ∧ ok r = false

/-! ## Proofs: the methods tried -/

theorem tryAll_first (auths : Str → Option (List Str → Option R)) (ok : R → Bool) (m : Str × List Str) (post : List (Str × List Str))
    (r : R) (hr : request auths m = some r) (hok : ok r = true) : ∀ (pre : List (Str × List Str)) (errs : List (Str × Why)),
    (∀ x ∈ pre, ¬ Works auths ok x) →
    tryAll auths ok (pre ++ m :: post) errs = (pre.filterMap (request auths) ++ [r], none) := by
  intro pre
  induction pre with
  | nil =>
    intro errs _
    obtain ⟨n, ps⟩ := m
    simp only [List.nil_append, tryAll]
    unfold request at hr
    cases hf : auths n with
    | none => simp only [hf] at hr; cases hr
    | some f =>
      simp only [hf, Option.bind_some] at hr
      simp only [hr, hok, if_true]
      rfl
  | cons x pre ih =>
    intro errs hw
    obtain ⟨n, ps⟩ := x
    have hx := hw _ List.mem_cons_self
    have hp := fun y hy => hw y (List.mem_cons_of_mem _ hy)
    simp only [List.cons_append, tryAll]
    cases hf : auths n with
    | none =>
      have e : request auths (n, ps) = none := by simp only [request, hf]; rfl
      rw [List.filterMap_cons, e]
      exact ih _ hp
    | some f =>
      cases hq : f ps with
      | none =>
        have e : request auths (n, ps) = none := by simp only [request, hf, Option.bind_some, hq]
        rw [List.filterMap_cons, e]
        simp only [hq]
        exact ih _ hp
      | some q =>
        have e : request auths (n, ps) = some q := by simp only [request, hf, Option.bind_some, hq]
        have hn : ¬ ok q = true := fun h => hx ⟨q, e, h⟩
        simp only [hq, if_neg hn]
        rw [List.filterMap_cons, e, ih _ hp]
        rfl

theorem tryAll_none (auths : Str → Option (List Str → Option R)) (ok : R → Bool) : ∀ (ms : List (Str × List Str)) (errs : List (Str × Why)),
    (∀ x ∈ ms, ¬ Works auths ok x) →
    ∃ es, tryAll auths ok ms errs = (ms.filterMap (request auths), some (errs ++ es)) ∧ List.Forall₂ (Reason auths ok) ms es := by
  intro ms
  induction ms with
  | nil => intro errs _; exact ⟨[], by simp [tryAll], .nil⟩
  | cons x ms ih =>
    intro errs hw
    obtain ⟨n, ps⟩ := x
    have hx := hw _ List.mem_cons_self
    have hp := fun y hy => hw y (List.mem_cons_of_mem _ hy)
    simp only [tryAll]
    cases hf : auths n with
    | none =>
      have e : request auths (n, ps) = none := by simp only [request, hf]; rfl
      obtain ⟨es, h1, h2⟩ := ih (errs ++ [(n, .notFound)]) hp
      refine ⟨(n, .notFound) :: es, ?_, .cons ⟨rfl, hf⟩ h2⟩
      rw [List.filterMap_cons, e]
      simp only [h1, List.append_assoc, List.singleton_append]
    | some f =>
      cases hq : f ps with
      | none =>
        have e : request auths (n, ps) = none := by simp only [request, hf, Option.bind_some, hq]
        obtain ⟨es, h1, h2⟩ := ih (errs ++ [(n, .request)]) hp
        refine ⟨(n, .request) :: es, ?_, .cons ⟨rfl, f, hf, hq⟩ h2⟩
        rw [List.filterMap_cons, e]
        simp only [hq, h1, List.append_assoc, List.singleton_append]
      | some q =>
        have e : request auths (n, ps) = some q := by simp only [request, hf, Option.bind_some, hq]
        have hn : ¬ ok q = true := fun h => hx ⟨q, e, h⟩
        obtain ⟨es, h1, h2⟩ := ih (errs ++ [(n, .refused)]) hp
        refine ⟨(n, .refused) :: es, ?_, .cons ⟨rfl, q, e, by simpa using hn⟩ h2⟩
        simp only [hq, if_neg hn]
        rw [List.filterMap_cons, e]
        simp only [h1, List.append_assoc, List.singleton_append]

end

/-! ## Proofs: reading the methods -/

theorem split_none (c : Char) (s : Str) (h : c ∉ s) : split c s = [s] := by
  induction s with
  | nil => rfl
  | cons x s ih =>
    have hx : ¬ x = c := fun e => h (e ▸ List.mem_cons_self)
    simp only [split, if_neg hx, ih (fun h' => h (List.mem_cons_of_mem _ h'))]

theorem split_sep (c : Char) (s t : Str) (h : c ∉ s) : split c (s ++ c :: t) = s :: split c t := by
  induction s with
  | nil => simp only [List.nil_append, split, if_true]
  | cons x s ih =>
    have hx : ¬ x = c := fun e => h (e ▸ List.mem_cons_self)
    simp only [List.cons_append, split, if_neg hx, ih (fun h' => h (List.mem_cons_of_mem _ h'))]

/-- Pieces with a separator before each but the first. -/
theorem split_join (c : Char) (ps : List Str) : ∀ (s : Str), c ∉ s → (∀ p ∈ ps, c ∉ p) →
    split c (s ++ ps.flatMap fun p => c :: p) = s :: ps := by
  induction ps with
  | nil => intro s h _; simp only [List.flatMap_nil, List.append_nil]; exact split_none c s h
  | cons p ps ih =>
    intro s h hp
    rw [List.flatMap_cons, List.cons_append, split_sep c s _ h,
      ih p (hp p List.mem_cons_self) (fun q hq => hp q (List.mem_cons_of_mem _ hq))]

theorem method_write (m : Str × List Str) (h : Fine m) : method (['P', '='] ++ m.1 ++ m.2.flatMap fun p => ',' :: p) = m := by
  obtain ⟨n, ps⟩ := m
  obtain ⟨⟨_, h2, h3, h4, h5⟩, hp⟩ := h
  simp only at h2 h3 h4 h5 hp ⊢
  have e : trimLeft ['P', '='] (['P', '='] ++ n ++ ps.flatMap fun p => ',' :: p) = n ++ ps.flatMap fun p => ',' :: p := by
    cases n with
    | nil => exact absurd rfl h5
    | cons x n =>
      have hx : x ∉ ['P', '='] := by
        intro hm
        rcases List.mem_cons.mp hm with rfl | hm
        · exact h3 rfl
        · rcases List.mem_cons.mp hm with rfl | hm
          · exact h4 rfl
          · exact (List.not_mem_nil hm).elim
      have hP : ('P' : Char) ∈ ['P', '='] := by decide
      have hE : ('=' : Char) ∈ ['P', '='] := by decide
      simp only [List.cons_append, List.nil_append]
      rw [trimLeft, if_pos hP, trimLeft, if_pos hE, trimLeft, if_neg hx]
  unfold method
  rw [e, split_join ',' ps n h2 (fun p h => (hp p h).2)]

/-- **C190** (methods): the methods read are those the server wrote, with their parameters and in order. -/
theorem C190_methods_partial (ms : List (Str × List Str)) (hne : ms ≠ []) (h : ∀ m ∈ ms, Fine m) : methods (write ms) = ms := by
  let body : Str × List Str → Str := fun m => ['P', '='] ++ m.1 ++ m.2.flatMap fun p => ',' :: p
  have hb : ∀ m, Fine m → '&' ∉ body m := by
    intro m hm hin
    rcases List.mem_append.mp hin with hin | hin
    · rcases List.mem_append.mp hin with hin | hin
      · exact absurd hin (by decide)
      · exact hm.1.1 hin
    · obtain ⟨p, hp, hin⟩ := List.mem_flatMap.mp hin
      rcases List.mem_cons.mp hin with hin | hin
      · exact absurd hin (by decide)
      · exact (hm.2 p hp).1 hin
  cases ms with
  | nil => exact absurd rfl hne
  | cons m ms =>
    have e : trimLeft ['&'] (write (m :: ms)) = body m ++ (ms.map body).flatMap fun p => '&' :: p := by
      have e1 : write (m :: ms) = '&' :: 'P' :: ('=' :: (m.1 ++ m.2.flatMap fun p => ',' :: p) ++ write ms) := by
        simp [write, writeMethod, List.flatMap_cons]
      have e2 : write ms = (ms.map body).flatMap fun p => '&' :: p := by
        simp only [write, List.flatMap_map]
        rfl
      rw [e1, trimLeft, if_pos (by decide), trimLeft, if_neg (by decide), e2]
      simp [body]
    unfold methods
    rw [e, split_join '&' _ _ (hb m (h m List.mem_cons_self)) (by
      intro p hp
      obtain ⟨x, hx, rfl⟩ := List.mem_map.mp hp
      exact hb x (h x (List.mem_cons_of_mem _ hx))), List.map_cons, method_write m (h m List.mem_cons_self), List.map_map]
    congr 1
    have : ∀ x ∈ ms, (method ∘ body) x = x := fun x hx => method_write x (h x (List.mem_cons_of_mem _ hx))
    calc ms.map (method ∘ body) = ms.map id := List.map_congr_left this
      _ = ms := List.map_id _

/-- **C190** (first that works): the client is authorised by the first method that works, has sent the requests of the methods before it
that it could make, and sends nothing after it. -/
theorem C190_first_partial {R : Type} (auths : Str → Option (List Str → Option R)) (ok : R → Bool) (pre post : List (Str × List Str))
    (m : Str × List Str) (h : ∀ x ∈ pre ++ m :: post, Fine x) (hp : ∀ x ∈ pre, ¬ Works auths ok x) (r : R)
    (hr : request auths m = some r) (hok : ok r = true) :
    auth auths ok (write (pre ++ m :: post)) = (pre.filterMap (request auths) ++ [r], none) := by
  unfold auth
  rw [C190_methods_partial _ (by simp) h]
  exact tryAll_first auths ok m post r hr hok pre [] hp

/-- **C190** (none works): else there is an error, with the reason of every method in order. -/
theorem C190_none_partial {R : Type} (auths : Str → Option (List Str → Option R)) (ok : R → Bool) (ms : List (Str × List Str))
    (hne : ms ≠ []) (h : ∀ x ∈ ms, Fine x) (hp : ∀ x ∈ ms, ¬ Works auths ok x) :
    ∃ es, auth auths ok (write ms) = (ms.filterMap (request auths), some es) ∧ List.Forall₂ (Reason auths ok) ms es := by
  unfold auth
  rw [C190_methods_partial _ hne h]
  exact tryAll_none auths ok ms [] hp

/-! ## Counterexamples and examples -/

/-- A method whose name begins with `P` is looked for under another name. -/
theorem C190_name_counterexample : methods (write [("Pgp".toList, [])]) = [("gp".toList, [])] ∧
    auth (fun n => if n = "Pgp".toList then some fun _ => some 1 else none) (fun _ => true) (write [("Pgp".toList, [])])
      = ([], some [("gp".toList, .notFound)]) := by decide

example : write [("krb5".toList, ["a".toList, "b".toList]), ("unix".toList, [])] = "&P=krb5,a,b&P=unix".toList := by decide

example : Fine ("krb5".toList, ["a".toList, "b".toList]) := by
  refine ⟨by decide, ?_⟩
  decide

example : auth (fun n => if n = "gsi".toList then none else if n = "krb5".toList then some fun _ => none else
    some fun ps => some (n, ps.length)) (fun r => r.1 == "unix".toList) "&P=gsi&P=krb5,a&P=sss,x&P=unix&P=host".toList
    = ([("sss".toList, 1), ("unix".toList, 0)], none) := by decide

end Verif.Xrootd.Auth
