import Verif.HepMC.HeadLemmas

/-! # Lemmas: the vertices and particles that reading an event creates -/

namespace Verif.HepMC

variable {F G N : Type}

theorem nodup_map_of {α β : Type} {f : α → β} {l : List α} (h : l.Nodup)
    (inj : ∀ a ∈ l, ∀ b ∈ l, f a = f b → a = b) : (l.map f).Nodup := by
  induction l with
  | nil => simp
  | cons a l ih =>
    obtain ⟨h1, h2⟩ := List.nodup_cons.mp h
    rw [List.map_cons, List.nodup_cons]
    refine ⟨?_, ih h2 fun x hx y hy => inj x (List.mem_cons_of_mem _ hx) y (List.mem_cons_of_mem _ hy)⟩
    intro hm
    obtain ⟨b, hb, he⟩ := List.mem_map.mp hm
    have := inj b (List.mem_cons_of_mem _ hb) a (by simp) he
    exact h1 (this ▸ hb)

theorem inj_of_nodup_map {α β : Type} {f : α → β} {l : List α} (h : (l.map f).Nodup) {a b : α} (ha : a ∈ l) (hb : b ∈ l)
    (he : f a = f b) : a = b := by
  induction l with
  | nil => cases ha
  | cons c l ih =>
    rw [List.map_cons, List.nodup_cons] at h
    rcases List.mem_cons.mp ha with rfl | ha' <;> rcases List.mem_cons.mp hb with rfl | hb'
    · rfl
    · exact absurd (he ▸ List.mem_map_of_mem hb') h.1
    · exact absurd (he ▸ List.mem_map_of_mem ha') h.1
    · exact ih h.2 ha' hb'

theorem nodup_of_nodup_map {α β : Type} {f : α → β} {l : List α} (h : (l.map f).Nodup) : l.Nodup := by
  induction l with
  | nil => simp
  | cons c l ih =>
    rw [List.map_cons, List.nodup_cons] at h
    exact List.nodup_cons.mpr ⟨fun hm => h.1 (List.mem_map_of_mem hm), ih h.2⟩

theorem idxOf_inj {l : List Nat} {a b : Nat} (ha : a ∈ l) (hb : b ∈ l) (h : l.idxOf a = l.idxOf b) : a = b := by
  rw [← List.getElem_idxOf (List.idxOf_lt_length_iff.mpr ha), ← List.getElem_idxOf (List.idxOf_lt_length_iff.mpr hb)]
  congr 1

theorem idxOf_mid {A B : List Nat} {b : Nat} (h : (A ++ b :: B).Nodup) : (A ++ b :: B).idxOf b = A.length := by
  rw [List.idxOf_append, if_neg]
  · simp
  · intro hm
    rw [List.nodup_append] at h
    exact h.2.2 b hm b (by simp) rfl

theorem map_idxOf_mid (A B C : List Nat) (h : (A ++ (B ++ C)).Nodup) (k : Nat) :
    B.map (fun b => k + (A ++ (B ++ C)).idxOf b) = List.range' (k + A.length) B.length := by
  induction B generalizing A with
  | nil => rfl
  | cons b B ih =>
    have e1 : A ++ (b :: B ++ C) = (A ++ [b]) ++ (B ++ C) := by simp
    rw [List.map_cons, List.length_cons, List.range'_succ]
    congr 1
    · rw [List.cons_append] at h ⊢; rw [idxOf_mid h]
    · rw [e1] at h ⊢
      rw [ih _ h]
      simp; omega

theorem insertBy_map {α β : Type} (f : α → β) (key : β → Int) (key' : α → Int) (a : α) (l : List α)
    (ha : key (f a) = key' a) (h : ∀ b ∈ l, key (f b) = key' b) :
    insertBy key (f a) (l.map f) = (insertBy key' a l).map f := by
  induction l with
  | nil => rfl
  | cons b l ih =>
    simp only [List.map_cons, insertBy, ha, h b (by simp)]
    split
    · rfl
    · rw [List.map_cons, ih fun c hc => h c (List.mem_cons_of_mem _ hc)]

theorem sortBy_map {α β : Type} (f : α → β) (key : β → Int) (key' : α → Int) (l : List α)
    (h : ∀ a ∈ l, key (f a) = key' a) : sortBy key (l.map f) = (sortBy key' l).map f := by
  induction l with
  | nil => rfl
  | cons a l ih =>
    simp only [List.map_cons, sortBy]
    rw [ih fun c hc => h c (List.mem_cons_of_mem _ hc)]
    exact insertBy_map f key key' a _ (h a (by simp))
      fun b hb => h b (List.mem_cons_of_mem _ ((sortBy_perm _ _).mem_iff.mp hb))

/-! ## The written event -/

/-- The particles of some vertices in the order they are written. -/
def flat (h0 : Heap F G N) (vs : List Nat) : List Nat := vs.flatMap fun v => orphans h0 v ++ (h0.v v).pout

/-- The number a particle gets when read. -/
def phi (h0 : Heap F G N) (x : Evt F G N) (k p : Nat) : Nat := k + (flat h0 (vtxOrder h0 x)).idxOf p

/-- The number a vertex gets when read. -/
def psi (h0 : Heap F G N) (x : Evt F G N) (k v : Nat) : Nat := k + (vtxOrder h0 x).idxOf v

theorem vtxOrder_perm (h0 : Heap F G N) (x : Evt F G N) : (vtxOrder h0 x).Perm (evVerts x) := sortBy_perm _ _

theorem mem_vtxOrder {h0 : Heap F G N} {x : Evt F G N} {v : Nat} : v ∈ vtxOrder h0 x ↔ v ∈ evVerts x :=
  (vtxOrder_perm h0 x).mem_iff

/-- A map whose keys are given by its values. -/
theorem keyed {α : Type} (m : List (Int × α)) (key : α → Int) (h : ∀ b v, (b, v) ∈ m → key v = b) :
    m = (m.map Prod.snd).map fun v => (key v, v) := by
  conv => lhs; rw [← List.map_id m]
  rw [List.map_map]
  apply List.map_congr_left
  intro q hq
  have := h q.1 q.2 hq
  simp only [Function.comp_apply, this, id]

section
variable {h0 : Heap F G N} {x : Evt F G N}

theorem Sound.vmap (hs : Sound h0 x) : mlist x.vertices = (evVerts x).map fun v => ((h0.v v).data.barcode, v) :=
  keyed _ _ hs.vkey

theorem Sound.pmap (hs : Sound h0 x) : mlist x.particles = (evParts x).map fun p => ((h0.p p).data.barcode, p) :=
  keyed _ _ hs.pkey

theorem Sound.vbc_nodup (hs : Sound h0 x) : ((evVerts x).map fun v => (h0.v v).data.barcode).Nodup := by
  have := hs.vnodup
  rw [hs.vmap, List.map_map] at this
  exact this

theorem Sound.pbc_nodup (hs : Sound h0 x) : ((evParts x).map fun p => (h0.p p).data.barcode).Nodup := by
  have := hs.pnodup
  rw [hs.pmap, List.map_map] at this
  exact this

theorem Sound.vbc_inj (hs : Sound h0 x) {v w : Nat} (hv : v ∈ evVerts x) (hw : w ∈ evVerts x)
    (h : (h0.v v).data.barcode = (h0.v w).data.barcode) : v = w := inj_of_nodup_map hs.vbc_nodup hv hw h

theorem Sound.pbc_inj (hs : Sound h0 x) {p q : Nat} (hp : p ∈ evParts x) (hq : q ∈ evParts x)
    (h : (h0.p p).data.barcode = (h0.p q).data.barcode) : p = q := inj_of_nodup_map hs.pbc_nodup hp hq h

theorem Sound.vl_nodup (hs : Sound h0 x) : (vtxOrder h0 x).Nodup :=
  (vtxOrder_perm h0 x).nodup_iff.mpr (nodup_of_nodup_map hs.vbc_nodup)

theorem Sound.parts_nodup (hs : Sound h0 x) : (evParts x).Nodup := nodup_of_nodup_map hs.pbc_nodup

theorem Sound.mem_orphans (hs : Sound h0 x) {v p : Nat} (hv : v ∈ evVerts x) :
    p ∈ orphans h0 v ↔ p ∈ evParts x ∧ (h0.p p).fin = some v ∧ (h0.p p).prod = none := by
  unfold orphans
  rw [List.mem_filter, hs.in_iff v hv, Option.isNone_iff_eq_none, and_assoc]

/-- A particle of a vertex's lines belongs to that vertex only. -/
theorem Sound.block (hs : Sound h0 x) {v p : Nat} (hv : v ∈ evVerts x) (hp : p ∈ orphans h0 v ++ (h0.v v).pout) :
    p ∈ evParts x ∧ (h0.p p).prod.or (h0.p p).fin = some v := by
  rcases List.mem_append.mp hp with hp | hp
  · obtain ⟨h1, h2, h3⟩ := (hs.mem_orphans hv).mp hp
    exact ⟨h1, by rw [h3, h2]; rfl⟩
  · obtain ⟨h1, h2⟩ := (hs.out_iff v hv p).mp hp
    exact ⟨h1, by rw [h2]; rfl⟩

theorem Sound.flat_nodup (hs : Sound h0 x) (vs : List Nat) (hn : vs.Nodup) (hv : ∀ v ∈ vs, v ∈ evVerts x) :
    (flat h0 vs).Nodup := by
  induction vs with
  | nil => simp [flat]
  | cons v vs ih =>
    obtain ⟨h1, h2⟩ := List.nodup_cons.mp hn
    unfold flat
    rw [List.flatMap_cons, List.nodup_append]
    refine ⟨?_, ih h2 fun w hw => hv w (List.mem_cons_of_mem _ hw), ?_⟩
    · rw [List.nodup_append]
      refine ⟨(hs.in_nodup v (hv v (by simp))).filter _, hs.out_nodup v (hv v (by simp)), ?_⟩
      rintro p hp q hq rfl
      have := ((hs.mem_orphans (hv v (by simp))).mp hp).2.2
      rw [((hs.out_iff v (hv v (by simp)) p).mp hq).2] at this
      cases this
    · rintro p hp q hq rfl
      obtain ⟨w, hw, hpw⟩ := List.mem_flatMap.mp hq
      have a1 := (hs.block (hv v (by simp)) hp).2
      have a2 := (hs.block (hv w (List.mem_cons_of_mem _ hw)) hpw).2
      rw [a1] at a2
      cases a2
      exact h1 hw

theorem mem_flat (hs : Sound h0 x) (ha : ∀ p ∈ evParts x, (h0.p p).prod ≠ none ∨ (h0.p p).fin ≠ none) (p : Nat) :
    p ∈ flat h0 (vtxOrder h0 x) ↔ p ∈ evParts x := by
  constructor
  · intro hp
    obtain ⟨v, hv, hpv⟩ := List.mem_flatMap.mp hp
    exact (hs.block (mem_vtxOrder.mp hv) hpv).1
  · intro hp
    cases hpr : (h0.p p).prod with
    | some v =>
      have hv := hs.prod_reg p hp v hpr
      exact List.mem_flatMap.mpr ⟨v, mem_vtxOrder.mpr hv, List.mem_append_right _ ((hs.out_iff v hv p).mpr ⟨hp, hpr⟩)⟩
    | none =>
      cases hf : (h0.p p).fin with
      | none => rcases ha p hp with h | h <;> contradiction
      | some v =>
        have hv := hs.fin_reg p hp v hf
        exact List.mem_flatMap.mpr ⟨v, mem_vtxOrder.mpr hv,
          List.mem_append_left _ ((hs.mem_orphans hv).mpr ⟨hp, hf, hpr⟩)⟩

theorem Sound.fin_bc (hs : Sound h0 x) {p : Nat} (hp : p ∈ evParts x) :
    vBc h0 (h0.p p).fin ≠ 0 ↔ (h0.p p).fin.isSome = true := by
  cases hf : (h0.p p).fin with
  | none => simp [vBc]
  | some v => simpa [vBc] using hs.vne0 v (hs.fin_reg p hp v hf)

end

/-! ## What has been read so far -/

section
variable (h0 : Heap F G N) (x : Evt F G N) (hb : Heap F G N) (e : Nat) (xb : Evt F G N)

/-- The state while vertices are read: `S` and `T` are the particles and vertices read so far,
`hb` the heap before, `xb` the event after the first lines. -/
structure Inv (a : Acc F G N) (S T : List Nat) : Prop where
  np : a.h.np = hb.np + S.length
  part : ∀ p ∈ S, a.h.p (phi h0 x hb.np p) = ⟨(readDat h0 p).1, (h0.p p).prod.map (psi h0 x hb.nv), none⟩
  pend : a.pend = ((S.filter fun p => (h0.p p).fin.isSome).map fun p =>
    ((h0.p p).data.barcode, vBc h0 (h0.p p).fin)).reverse
  pframe : ∀ i < hb.np, a.h.p i = hb.p i
  vtx : ∀ v ∈ T, (a.h.v (psi h0 x hb.nv v)).data = (h0.v v).data ∧ (a.h.v (psi h0 x hb.nv v)).pin = [] ∧
    (a.h.v (psi h0 x hb.nv v)).pout = (sortBy (fun p => (h0.p p).data.barcode) (h0.v v).pout).map (phi h0 x hb.np) ∧
    (a.h.v (psi h0 x hb.nv v)).event = some e
  vframe : ∀ i < hb.nv, a.h.v i = hb.v i
  evt : a.h.e = put hb.e e { xb with
    vertices := some ((T.map fun v => ((h0.v v).data.barcode, psi h0 x hb.nv v)).reverse)
    particles := some ((S.map fun p => ((h0.p p).data.barcode, phi h0 x hb.np p)).reverse) }

variable {h0 x hb e xb}

theorem put_put {α : Type} (f : Nat → α) (i : Nat) (a b : α) : put (put f i a) i b = put f i b := by
  funext j; unfold put; split <;> rfl

theorem Inv.addPart (hs : Sound h0 x) {a : Acc F G N} {S T R : List Nat} {p : Nat} (hi : Inv h0 x hb e xb a S T)
    (hfl : flat h0 (vtxOrder h0 x) = S ++ p :: R) (hS : ∀ q ∈ S ++ [p], q ∈ evParts x) {prod : Option Nat}
    (hpr : prod = (h0.p p).prod.map (psi h0 x hb.nv)) :
    Inv h0 x hb e xb (addPart a e prod (readDat h0 p)) (S ++ [p]) T := by
  have hnd := hs.flat_nodup _ hs.vl_nodup fun v hv => mem_vtxOrder.mp hv
  rw [hfl] at hnd
  have hphi : phi h0 x hb.np p = a.h.np := by rw [phi, hfl, idxOf_mid hnd, hi.np]
  have hpS : p ∉ S := by
    intro hm
    rw [List.nodup_append] at hnd
    exact hnd.2.2 p hm p (by simp) rfl
  have hp := hS p (by simp)
  have hbc : ∀ q ∈ S, (h0.p q).data.barcode ≠ (h0.p p).data.barcode := by
    intro q hq he
    exact hpS (hs.pbc_inj (hS q (by simp [hq])) hp he ▸ hq)
  constructor
  · show a.h.np + 1 = _
    rw [hi.np]; simp; omega
  · intro q hq
    show put a.h.p a.h.np _ _ = _
    rcases List.mem_append.mp hq with hq | hq
    · rw [put_ne _ _ ?_]
      · exact hi.part q hq
      · rw [← hphi]
        unfold phi
        intro he
        have := idxOf_inj (l := flat h0 (vtxOrder h0 x)) (a := q) (b := p) (by rw [hfl]; simp [hq]) (by rw [hfl]; simp) (by omega)
        exact hpS (this ▸ hq)
    · rw [List.mem_singleton] at hq
      subst hq
      rw [hphi, put_same, hpr]
  · show (if (readDat h0 p).2 ≠ 0 then mset a.pend _ _ else a.pend) = _
    have hq : (readDat h0 p).2 = vBc h0 (h0.p p).fin := rfl
    rw [hq, List.filter_append, List.map_append, List.reverse_append]
    by_cases hz : vBc h0 (h0.p p).fin = 0
    · have : (h0.p p).fin.isSome = false := by
        rw [Bool.eq_false_iff]; intro hh; exact (hs.fin_bc hp).mpr hh hz
      rw [if_neg (by simpa using hz), hi.pend]
      simp [this]
    · rw [if_pos hz, mset_new, hi.pend]
      · simp [(hs.fin_bc hp).mp hz, readDat]
      · rw [hi.pend]
        intro hm
        rw [List.map_reverse, List.mem_reverse, List.map_map] at hm
        obtain ⟨q, hq, he⟩ := List.mem_map.mp hm
        exact hbc q (List.mem_filter.mp hq).1 he
  · intro i hlt
    show put a.h.p a.h.np _ i = _
    rw [put_ne _ _ (by have := hi.np; omega)]
    exact hi.pframe i hlt
  · exact hi.vtx
  · exact hi.vframe
  · show put a.h.e e _ = _
    rw [hi.evt, put_same, put_put]
    congr 1
    simp only [mlist, Option.getD_some, List.map_append, List.map_cons, List.map_nil, List.reverse_append, List.reverse_cons,
      List.reverse_nil, List.nil_append, List.cons_append]
    congr 2
    rw [mset_new]
    · rw [hphi]; rfl
    · intro hm
      rw [List.map_reverse, List.mem_reverse, List.map_map] at hm
      obtain ⟨q, hq, he⟩ := List.mem_map.mp hm
      exact hbc q hq he

theorem Inv.addParts (hs : Sound h0 x) {T : List Nat} {prod : Option Nat} (ps : List Nat) {a : Acc F G N} {S R : List Nat}
    (hi : Inv h0 x hb e xb a S T)
    (hfl : flat h0 (vtxOrder h0 x) = S ++ (ps ++ R)) (hS : ∀ q ∈ S ++ ps, q ∈ evParts x)
    (hpr : ∀ p ∈ ps, prod = (h0.p p).prod.map (psi h0 x hb.nv)) :
    Inv h0 x hb e xb (addParts a e prod (ps.map (readDat h0))) (S ++ ps) T := by
  induction ps generalizing a S with
  | nil => rw [List.append_nil]; exact hi
  | cons p ps ih =>
    have h1 := hi.addPart hs (p := p) (R := ps ++ R) hfl
      (fun q hq => hS q (by simp only [List.mem_append, List.mem_cons] at hq ⊢; rcases hq with h | h | h <;> simp_all))
      (hpr p (by simp))
    have h2 := ih h1 (by rw [hfl]; simp) (fun q hq => hS q (by simpa using hq)) fun q hq => hpr q (List.mem_cons_of_mem _ hq)
    rw [List.append_assoc] at h2
    exact h2

theorem addParts_nv (qs : List (PData F × Int)) (a : Acc F G N) (e : Nat) (prod : Option Nat) :
    (Verif.HepMC.addParts a e prod qs).h.nv = a.h.nv := by
  induction qs generalizing a with
  | nil => rfl
  | cons q qs ih => exact (ih (Verif.HepMC.addPart a e prod q)).trans rfl

theorem Inv.addVtx (hs : Sound h0 x) {a : Acc F G N} {T R : List Nat} {v : Nat}
    (hi : Inv h0 x hb e xb a (flat h0 T) T) (hnv : a.h.nv = hb.nv + T.length) (hvl : vtxOrder h0 x = T ++ v :: R) :
    Inv h0 x hb e xb (addVtx e h0 a v) (flat h0 (T ++ [v])) (T ++ [v]) ∧
      (addVtx e h0 a v).h.nv = hb.nv + (T ++ [v]).length := by
  have hvm : ∀ w ∈ T ++ [v], w ∈ evVerts x := fun w hw => mem_vtxOrder.mp (by
    rw [hvl]; simp only [List.mem_append, List.mem_cons, List.not_mem_nil, or_false] at hw ⊢
    exact hw.imp id Or.inl)
  have hv := hvm v (by simp)
  have hvnd := hs.vl_nodup
  have hpsi : psi h0 x hb.nv v = a.h.nv := by rw [psi, hvl, idxOf_mid (hvl ▸ hvnd), hnv]
  have hvT : v ∉ T := by
    intro hm
    rw [hvl, List.nodup_append] at hvnd
    exact hvnd.2.2 v hm v (by simp) rfl
  have hflat : flat h0 (vtxOrder h0 x) = flat h0 T ++ (orphans h0 v ++ ((h0.v v).pout ++ flat h0 R)) := by
    rw [hvl]; simp [flat, List.flatMap_append, List.flatMap_cons]
  have hfT : flat h0 (T ++ [v]) = flat h0 T ++ (orphans h0 v ++ (h0.v v).pout) := by
    simp [flat, List.flatMap_append, List.flatMap_cons]
  have hmem : ∀ q ∈ flat h0 (T ++ [v]), q ∈ evParts x := by
    intro q hq
    obtain ⟨w, hw, hqw⟩ := List.mem_flatMap.mp hq
    exact (hs.block (hvm w hw) hqw).1
  have i1 : Inv h0 x hb e xb a.incV (flat h0 T) T :=
    ⟨hi.np, hi.part, hi.pend, hi.pframe, hi.vtx, hi.vframe, hi.evt⟩
  have i2 := Inv.addParts (prod := none) hs (orphans h0 v) i1 hflat (fun q hq => hmem q (by
    rw [hfT, ← List.append_assoc]; exact List.mem_append_left _ hq))
    (fun p hp => by rw [((hs.mem_orphans hv).mp hp).2.2]; rfl)
  have i3 := Inv.addParts (prod := some a.h.nv) hs (h0.v v).pout i2 (R := flat h0 R) (by rw [hflat]; simp)
    (fun q hq => hmem q (by rw [hfT, ← List.append_assoc]; exact hq)) (fun p hp => by rw [((hs.out_iff v hv p).mp hp).2, ← hpsi]; rfl)
  have hrange : List.range' (Verif.HepMC.addParts a.incV e none ((orphans h0 v).map (readDat h0))).h.np (h0.v v).pout.length =
      (h0.v v).pout.map (phi h0 x hb.np) := by
    rw [i2.np]
    have hnd := hs.flat_nodup _ hs.vl_nodup fun w hw => mem_vtxOrder.mp hw
    rw [hflat, ← List.append_assoc] at hnd
    rw [← map_idxOf_mid (flat h0 T ++ orphans h0 v) (h0.v v).pout (flat h0 R) hnd hb.np]
    apply List.map_congr_left
    intro p _
    rw [phi, hflat, List.append_assoc]
  have hne : ∀ w ∈ T, psi h0 x hb.nv w ≠ a.h.nv := by
    intro w hw he
    rw [← hpsi] at he
    unfold psi at he
    have := idxOf_inj (l := vtxOrder h0 x) (a := w) (b := v) (by rw [hvl]; simp [hw]) (by rw [hvl]; simp) (by omega)
    exact hvT (this ▸ hw)
  refine ⟨?_, ?_⟩
  · rw [hfT, ← List.append_assoc]
    unfold HepMC.addVtx
    constructor
    · exact i3.np
    · exact i3.part
    · exact i3.pend
    · exact i3.pframe
    · intro w hw
      dsimp only
      rcases List.mem_append.mp hw with hw | hw
      · rw [put_ne _ _ (hne w hw)]
        exact i3.vtx w hw
      · rw [List.mem_singleton] at hw
        subst hw
        rw [hpsi, put_same]
        refine ⟨rfl, rfl, ?_, rfl⟩
        rw [hrange]
        apply sortBy_map
        intro p hp
        rw [i3.part p (List.mem_append_right _ hp)]
        rfl
    · intro i hlt
      dsimp only
      rw [put_ne _ _ (by omega)]
      exact i3.vframe i hlt
    · dsimp only
      rw [i3.evt, put_same, put_put]
      congr 1
      simp only [mlist, Option.getD_some, List.map_append, List.map_cons, List.map_nil, List.reverse_append, List.reverse_cons,
        List.reverse_nil, List.nil_append, List.cons_append]
      congr 2
      rw [mset_new]
      · rw [hpsi]
      · intro hm
        rw [List.map_reverse, List.mem_reverse, List.map_map] at hm
        obtain ⟨w, hw, he⟩ := List.mem_map.mp hm
        exact hvT (hs.vbc_inj (hvm w (by simp [hw])) hv he ▸ hw)
  · unfold HepMC.addVtx
    dsimp only
    rw [addParts_nv, addParts_nv]
    show a.h.nv + 1 = _
    rw [hnv]; simp; omega

theorem Inv.addVtxs (hs : Sound h0 x) (vs : List Nat) {a : Acc F G N} {T : List Nat}
    (hi : Inv h0 x hb e xb a (flat h0 T) T) (hnv : a.h.nv = hb.nv + T.length) (hvl : vtxOrder h0 x = T ++ vs) :
    Inv h0 x hb e xb (vs.foldl (HepMC.addVtx e h0) a) (flat h0 (vtxOrder h0 x)) (vtxOrder h0 x) ∧
      (vs.foldl (HepMC.addVtx e h0) a).h.nv = hb.nv + (vtxOrder h0 x).length := by
  induction vs generalizing a T with
  | nil =>
    rw [List.append_nil] at hvl
    rw [hvl]
    exact ⟨hi, hnv⟩
  | cons v vs ih =>
    obtain ⟨h1, h2⟩ := hi.addVtx hs hnv hvl
    rw [List.foldl_cons]
    exact ih h1 h2 (by rw [hvl]; simp)

end

end Verif.HepMC
