import Verif.HepMC.ParseLemmas

/-! # Lemmas: what reading the lines of an event does to the heap -/

namespace Verif.HepMC

variable {F G N : Type}

/-! ## Clean lines -/

theorem clean_cons {w : List UInt8} {l : List (List UInt8)} (h1 : CleanWord w) (h2 : ∀ x ∈ l, CleanWord x) :
    CleanLine (w :: l) :=
  ⟨by simp, fun x hx => by rcases List.mem_cons.mp hx with rfl | hx; (· exact h1); exact h2 x hx⟩

theorem all_clean_cons {w : List UInt8} {l : List (List UInt8)} (h1 : CleanWord w) (h2 : ∀ x ∈ l, CleanWord x) :
    ∀ x ∈ w :: l, CleanWord x := (clean_cons h1 h2).2

theorem all_clean_append {a b : List (List UInt8)} (h1 : ∀ x ∈ a, CleanWord x) (h2 : ∀ x ∈ b, CleanWord x) :
    ∀ x ∈ a ++ b, CleanWord x := fun x hx => (List.mem_append.mp hx).elim (h1 x) (h2 x)

theorem all_clean_nil : ∀ x ∈ ([] : List (List UInt8)), CleanWord x := by simp

theorem all_clean_map {α : Type} (f : α → List UInt8) (l : List α) (h : ∀ a, CleanWord (f a)) :
    ∀ x ∈ l.map f, CleanWord x := by
  intro x hx
  obtain ⟨a, _, rfl⟩ := List.mem_map.mp hx
  exact h a

theorem clean_str1 : CleanWord (str "P") ∧ CleanWord (str "V") ∧ CleanWord (str "E") ∧ CleanWord (str "N") ∧
    CleanWord (str "U") ∧ CleanWord (str "C") ∧ CleanWord (str "H") ∧ CleanWord (str "F") := by
  refine ⟨?_, ?_, ?_, ?_, ?_, ?_, ?_, ?_⟩ <;> (unfold CleanWord; decide +kernel)

theorem flowWords_clean (l : List (Int × Int)) : ∀ x ∈ flowWords l, CleanWord x := by
  apply all_clean_cons (clean_len _)
  intro x hx
  obtain ⟨q, _, hq⟩ := List.mem_flatMap.mp hx
  simp only [List.mem_cons, List.not_mem_nil, or_false] at hq
  rcases hq with rfl | rfl <;> exact clean_int _

theorem partWords_clean {c : Fmt F G N} (hc : c.Lawful) (h : Heap F G N) (p : Nat) : CleanLine (partWords c h p) := by
  refine ⟨by simp [partWords], ?_⟩
  apply all_clean_append _ (flowWords_clean _)
  repeat first
    | exact all_clean_nil
    | apply all_clean_cons (clean_int _)
    | apply all_clean_cons (clean_F hc _)
    | apply all_clean_cons clean_str1.1

theorem vtxWords_clean {c : Fmt F G N} (hc : c.Lawful) (h : Heap F G N) (v : Nat) : CleanLine (vtxWords c h v) := by
  refine ⟨by simp [vtxWords], ?_⟩
  apply all_clean_append _ (all_clean_map _ _ (clean_F hc))
  repeat first
    | exact all_clean_nil
    | apply all_clean_cons (clean_int _)
    | apply all_clean_cons (clean_len _)
    | apply all_clean_cons (clean_F hc _)
    | apply all_clean_cons clean_str1.2.1

/-! ## Particles -/

/-- Enter particles one after the other. -/
def addParts (a : Acc F G N) (e : Nat) (prod : Option Nat) (qs : List (PData F × Int)) : Acc F G N :=
  qs.foldl (fun a q => addPart a e prod q) a

/-- The decoder with other lines to come. -/
def Acc.withRest (a : Acc F G N) (ls : List (List UInt8)) : Acc F G N := { a with d := { a.d with rest := ls } }

theorem readline_cons {d : Dec} {l : List (List UInt8)} {ls : List (List UInt8)} (h : d.rest = joinSp l :: ls)
    (hl : CleanLine l) : readline d = .ok (l, { d with rest := ls }) := by
  unfold readline
  rw [h]
  simp only [hl.split]

theorem readParts_enc {c : Fmt F G N} (hc : c.Lawful) (h : Heap F G N) (e : Nat) (prod : Option Nat)
    (more : List (List UInt8)) (ps : List Nat) (hf : ∀ p ∈ ps, ((h.p p).data.flow.map Prod.fst).Nodup) (a : Acc F G N)
    (ht : a.d.ftype = .genEvent) (hr : a.d.rest = ps.map (fun p => joinSp (partWords c h p)) ++ more) :
    readParts c e prod ps.length a =
      .ok (List.range' a.h.np ps.length, addParts (a.withRest more) e prod (ps.map (readDat h))) := by
  induction ps generalizing a with
  | nil =>
    have : a.withRest more = a := by
      obtain ⟨d, hh, pe⟩ := a
      obtain ⟨r, _, _, _, _, _, _, _⟩ := d
      simp only [List.map_nil, List.nil_append] at hr
      subst hr; rfl
    rw [this]; rfl
  | cons p ps ih =>
    rw [List.map_cons, List.cons_append] at hr
    simp only [List.length_cons, readParts]
    rw [R.bind_ok (readline_cons hr (partWords_clean hc h p))]
    dsimp only
    rw [R.bind_ok (a := (partWords c h p).tail) (by rfl),
      R.bind_ok (pPart_enc hc h p (hf p (by simp)) (by exact ht))]
    dsimp only
    rw [R.bind_ok (ih (fun q hq => hf q (List.mem_cons_of_mem _ hq)) _ (by exact ht) (by rfl))]
    rfl

/-! ## Vertices -/

/-- A number for a new vertex. -/
def Acc.incV (a : Acc F G N) : Acc F G N := { a with h := { a.h with nv := a.h.nv + 1 } }

theorem incV_withRest (a : Acc F G N) (ls : List (List UInt8)) : (a.withRest ls).incV = a.incV.withRest ls := rfl

/-- Enter a vertex with its particles. -/
def addVtx (e : Nat) (h0 : Heap F G N) (a : Acc F G N) (v : Nat) : Acc F G N :=
  let a2 := addParts a.incV e none ((orphans h0 v).map (readDat h0))
  let a3 := addParts a2 e (some a.h.nv) ((h0.v v).pout.map (readDat h0))
  { a3 with h := { a3.h with
    v := put a3.h.v a.h.nv ⟨(h0.v v).data, [], sortBy (fun p => (a3.h.p p).data.barcode)
      (List.range' a2.h.np (h0.v v).pout.length), some e⟩
    e := put a3.h.e e { a3.h.e e with
      vertices := some (mset (mlist (a3.h.e e).vertices) (h0.v v).data.barcode a.h.nv) } } }

theorem addParts_d (qs : List (PData F × Int)) (a : Acc F G N) (e : Nat) (prod : Option Nat) :
    (addParts a e prod qs).d = a.d := by
  induction qs generalizing a with
  | nil => rfl
  | cons q qs ih => exact (ih (addPart a e prod q)).trans rfl

theorem addParts_withRest (qs : List (PData F × Int)) (a : Acc F G N) (e : Nat) (prod : Option Nat) (ls : List (List UInt8)) :
    addParts (a.withRest ls) e prod qs = (addParts a e prod qs).withRest ls := by
  induction qs generalizing a with
  | nil => rfl
  | cons q qs ih => exact (ih (addPart a e prod q)).trans rfl

theorem readVtx_enc {c : Fmt F G N} (hc : c.Lawful) (h0 : Heap F G N) (e : Nat) (more : List (List UInt8)) (v : Nat)
    (hf : ∀ p ∈ orphans h0 v ++ (h0.v v).pout, ((h0.p p).data.flow.map Prod.fst).Nodup) (a : Acc F G N)
    (ht : a.d.ftype = .genEvent)
    (hr : a.d.rest = (orphans h0 v).map (fun p => joinSp (partWords c h0 p)) ++
      ((h0.v v).pout.map (fun p => joinSp (partWords c h0 p)) ++ more)) :
    readVtx c e a (vtxWords c h0 v) = .ok ((addVtx e h0 a v).withRest more) := by
  unfold readVtx
  rw [R.bind_ok (a := (vtxWords c h0 v).tail) (by rfl), R.bind_ok (rVtx_enc hc h0 v)]
  dsimp only
  rw [Int.toNat_natCast, Int.toNat_natCast]
  rw [R.bind_ok (readParts_enc hc h0 e none _ _ (fun p hp => hf p (List.mem_append_left _ hp)) _ (by exact ht) (by exact hr))]
  dsimp only
  rw [if_neg (by omega), addParts_withRest]
  rw [R.bind_ok (readParts_enc hc h0 e (some a.h.nv) more _ (fun p hp => hf p (List.mem_append_right _ hp)) _
    (by simp only [Acc.withRest]; rw [addParts_d]; exact ht) (by rfl))]
  dsimp only
  simp only [addParts_withRest]
  rfl

theorem addVtx_d (e : Nat) (h0 : Heap F G N) (a : Acc F G N) (v : Nat) : (addVtx e h0 a v).d = a.d := by
  unfold addVtx
  dsimp only
  rw [addParts_d, addParts_d]
  rfl

theorem readVtxs_enc {c : Fmt F G N} (hc : c.Lawful) (h0 : Heap F G N) (e : Nat) (more : List (List UInt8)) (vs : List Nat)
    (hf : ∀ v ∈ vs, ∀ p ∈ orphans h0 v ++ (h0.v v).pout, ((h0.p p).data.flow.map Prod.fst).Nodup) (a : Acc F G N)
    (ht : a.d.ftype = .genEvent) (hr : a.d.rest = (vs.flatMap (vtxLines c h0)).map joinSp ++ more) :
    readVtxs c e vs.length a = .ok ((vs.foldl (addVtx e h0) a).withRest more) := by
  induction vs generalizing a with
  | nil =>
    have : a.withRest more = a := by
      obtain ⟨d, hh, pe⟩ := a
      obtain ⟨r, _, _, _, _, _, _, _⟩ := d
      simp only [List.flatMap_nil, List.map_nil, List.nil_append] at hr
      subst hr; rfl
    rw [List.foldl_nil, this]; rfl
  | cons v vs ih =>
    simp only [List.length_cons, readVtxs]
    have hr' : a.d.rest = joinSp (vtxWords c h0 v) :: ((orphans h0 v).map (fun p => joinSp (partWords c h0 p)) ++
      ((h0.v v).pout.map (fun p => joinSp (partWords c h0 p)) ++ ((vs.flatMap (vtxLines c h0)).map joinSp ++ more))) := by
      rw [hr, List.flatMap_cons, vtxLines]
      simp [List.map_append, Function.comp_def]
    rw [R.bind_ok (readline_cons hr' (vtxWords_clean hc h0 v))]
    dsimp only
    rw [R.bind_ok (readVtx_enc hc h0 e _ v (hf v (by simp)) _ (by exact ht) (by rfl))]
    rw [ih (fun w hw => hf w (List.mem_cons_of_mem _ hw))]
    · rw [List.foldl_cons]
      congr 1
      have key : ∀ (vs : List Nat) (a : Acc F G N) (l1 : List (List UInt8)),
          (vs.foldl (addVtx e h0) (a.withRest l1)).withRest more = (vs.foldl (addVtx e h0) a).withRest more := by
        intro vs
        induction vs with
        | nil => intro a l1; rfl
        | cons w vs ih =>
          intro a l1
          rw [List.foldl_cons, List.foldl_cons]
          have : addVtx e h0 (a.withRest l1) w = (addVtx e h0 a w).withRest l1 := by
            unfold addVtx
            simp only [incV_withRest, addParts_withRest]
            rfl
          rw [this, ih]
      rw [key]
      exact key (v :: vs) a _
    · show (addVtx e h0 _ v).d.ftype = _
      rw [addVtx_d]
      exact ht
    · rfl

end Verif.HepMC
