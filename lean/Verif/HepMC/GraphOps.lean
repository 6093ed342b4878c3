import Verif.HepMC.Graph
import Verif.HepMC.GraphLemmas

/-!
# Building HepMC events keeps the graph consistent (C84)

Full statement: whatever a program does with `AddVertex`, `AddParticleIn` and
`AddParticleOut`, the maps of the event and the lists and pointers of vertices and particles
agree.  It is false as it stands, see the counterexamples; proved are the single operations
when the barcode they enter is not in use, and whole programs that leave all barcodes to the
event.
-/

namespace Verif.HepMC

variable {F G N : Type}

/-! ## Maps -/

theorem mem_mset {κ ν : Type} [DecidableEq κ] (m : List (κ × ν)) (k : κ) (v : ν) (q : κ × ν) :
    q ∈ mset m k v ↔ q = (k, v) ∨ (q ∈ m ∧ q.1 ≠ k) := by
  unfold mset
  simp [List.mem_filter]

theorem mset_nodup {κ ν : Type} [DecidableEq κ] (m : List (κ × ν)) (k : κ) (v : ν) (h : (m.map Prod.fst).Nodup) :
    ((mset m k v).map Prod.fst).Nodup := by
  unfold mset
  rw [List.map_cons, List.nodup_cons]
  constructor
  · simp
  · exact List.Nodup.sublist (List.Sublist.map Prod.fst List.filter_sublist) h

/-- Entering what is there already changes nothing but the order. -/
theorem mem_mset_same {κ ν : Type} [DecidableEq κ] (m : List (κ × ν)) (k : κ) (v : ν) (h : (m.map Prod.fst).Nodup)
    (hm : (k, v) ∈ m) (q : κ × ν) : q ∈ mset m k v ↔ q ∈ m := by
  rw [mem_mset]
  constructor
  · rintro (rfl | ⟨h1, _⟩)
    · exact hm
    · exact h1
  · intro hq
    by_cases hk : q.1 = k
    · left
      have h1 := mget_mem m h (k := q.1) (v := q.2) hq
      have h2 := mget_mem m h hm
      rw [hk, h2] at h1
      exact Prod.ext hk (Option.some.inj h1).symm
    · exact Or.inr ⟨hq, hk⟩

theorem mem_mset_new {κ ν : Type} [DecidableEq κ] (m : List (κ × ν)) (k : κ) (v : ν) (h : k ∉ m.map Prod.fst) (q : κ × ν) :
    q ∈ mset m k v ↔ q = (k, v) ∨ q ∈ m := by
  rw [mset_new m k v h, List.mem_cons]

theorem mem_verts (x : Evt F G N) (v : Nat) : v ∈ evVerts x ↔ ∃ b, (b, v) ∈ mlist x.vertices := by
  unfold evVerts
  rw [List.mem_map]
  constructor
  · rintro ⟨q, hq, rfl⟩; exact ⟨q.1, hq⟩
  · rintro ⟨b, hb⟩; exact ⟨_, hb, rfl⟩

theorem mem_parts (x : Evt F G N) (p : Nat) : p ∈ evParts x ↔ ∃ b, (b, p) ∈ mlist x.particles := by
  unfold evParts
  rw [List.mem_map]
  constructor
  · rintro ⟨q, hq, rfl⟩; exact ⟨q.1, hq⟩
  · rintro ⟨b, hb⟩; exact ⟨_, hb, rfl⟩

/-- Consistency is a matter of the entries of the maps, not of their order. -/
theorem Sound.congr {h : Heap F G N} {x x' : Evt F G N} (hs : Sound h x)
    (hv : ∀ q, q ∈ mlist x'.vertices ↔ q ∈ mlist x.vertices) (hp : ∀ q, q ∈ mlist x'.particles ↔ q ∈ mlist x.particles)
    (hvn : ((mlist x'.vertices).map Prod.fst).Nodup) (hpn : ((mlist x'.particles).map Prod.fst).Nodup) : Sound h x' := by
  have mv : ∀ v, v ∈ evVerts x' ↔ v ∈ evVerts x := fun v => by simp only [mem_verts, hv]
  have mp : ∀ v, v ∈ evParts x' ↔ v ∈ evParts x := fun v => by simp only [mem_parts, hp]
  constructor
  · intro b v hm; exact hs.vkey b v ((hv _).mp hm)
  · exact hvn
  · intro v hm; exact hs.vne0 v ((mv v).mp hm)
  · intro b v hm; exact hs.pkey b v ((hp _).mp hm)
  · exact hpn
  · intro v hm; exact hs.pne0 v ((mp v).mp hm)
  · intro v hm p; rw [mp]; exact hs.in_iff v ((mv v).mp hm) p
  · intro v hm p; rw [mp]; exact hs.out_iff v ((mv v).mp hm) p
  · intro v hm; exact hs.in_nodup v ((mv v).mp hm)
  · intro v hm; exact hs.out_nodup v ((mv v).mp hm)
  · intro p hm v hf; rw [mv]; exact hs.fin_reg p ((mp p).mp hm) v hf
  · intro p hm v hf; rw [mv]; exact hs.prod_reg p ((mp p).mp hm) v hf

/-- The event `e` can be built on: its maps are not nil, its graph is consistent, and the
vertices that point to it are those it contains. -/
structure Buildable (h : Heap F G N) (e : Nat) : Prop where
  vmap : (h.e e).vertices ≠ none
  pmap : (h.e e).particles ≠ none
  sound : Sound h (h.e e)
  owned : ∀ v, (h.v v).event = some e ↔ v ∈ evVerts (h.e e)

/-- The barcode under which a particle will be entered. -/
def nextPBc (h : Heap F G N) (e p : Nat) : Int :=
  if (h.p p).data.barcode = 0 then ((h.e e).bcparts : Int) + 1 else (h.p p).data.barcode

/-- The barcode under which a vertex will be entered. -/
def nextVBc (h : Heap F G N) (e v : Nat) : Int :=
  if (h.v v).data.barcode = 0 then -(((h.e e).bcverts : Int) + 1) else (h.v v).data.barcode

/-- The event after a particle was entered. -/
def partEvt (h : Heap F G N) (e p : Nat) : Evt F G N :=
  { h.e e with
    particles := some (mset (mlist (h.e e).particles) (nextPBc h e p) p)
    bcparts := if (h.p p).data.barcode = 0 then (h.e e).bcparts + 1 else (h.e e).bcparts }

/-! ## Adding an incoming particle -/

/-- The list of incoming particles of a vertex after `p` was added to `v`. -/
def inList (h : Heap F G N) (v p w : Nat) : List Nat :=
  if w = v then (h.v w).pin.erase p ++ [p] else if (h.p p).fin = some w then (h.v w).pin.erase p else (h.v w).pin

theorem addIn_eq (h : Heap F G N) (e v p : Nat) (hv : (h.v v).event = some e) (hpm : (h.e e).particles ≠ none)
    (hnd : (h.v v).pin.Nodup) :
    addIn h v p = some { h with
      v := fun w => { h.v w with pin := inList h v p w }
      p := put h.p p { h.p p with data := { (h.p p).data with barcode := nextPBc h e p }, fin := some v }
      e := put h.e e (partEvt h e p) } := by
  obtain ⟨m, hm⟩ := Option.ne_none_iff_exists'.mp hpm
  have hee : ∀ (l : List Nat), l.Nodup → (l.erase p).erase p = l.erase p := fun l hl =>
    List.erase_of_not_mem (fun hh => (hl.mem_erase_iff.mp hh).1 rfl)
  unfold addIn
  dsimp only
  have hev : ∀ h2 : Heap F G N, ((removeIn h2 v p).v v).event = (h2.v v).event := by
    intro h2; simp [removeIn, put_same]
  have hevu : ∀ u, ((removeIn h u p).v v).event = some e := by
    intro w
    by_cases hw : v = w
    · subst hw; rw [hev]; exact hv
    · simp only [removeIn, put_ne _ _ hw]; exact hv
  cases hf : (h.p p).fin with
  | none =>
    dsimp only
    rw [hev, hv, Option.bind_some]
    unfold givePBc regPart removeIn partEvt nextPBc
    dsimp only
    split
    · next hb =>
      simp only [put_same, hm, mlist, Option.map_some, put_put, Option.getD_some]
      congr 2
      · funext w
        by_cases hw : w = v
        · subst hw; simp [put, inList]
        · simp [put, hw, inList, hf]
    · next hb =>
      simp only [put_same, hm, mlist, Option.map_some, put_put, Option.getD_some]
      congr 2
      funext w
      by_cases hw : w = v
      · subst hw; simp [put, inList]
      · simp [put, hw, inList, hf]
  | some u =>
    dsimp only
    rw [hev, hevu, Option.bind_some]
    unfold givePBc regPart removeIn partEvt nextPBc
    dsimp only
    have hlist : (put (put (put h.v u { h.v u with pin := (h.v u).pin.erase p }) v
        { put h.v u { h.v u with pin := (h.v u).pin.erase p } v with
          pin := (put h.v u { h.v u with pin := (h.v u).pin.erase p } v).pin.erase p }) v
        { put h.v u { h.v u with pin := (h.v u).pin.erase p } v with
          pin := (put h.v u { h.v u with pin := (h.v u).pin.erase p } v).pin.erase p ++ [p] }) =
        fun w => { h.v w with pin := inList h v p w } := by
      funext w
      by_cases hw : w = v
      · subst hw
        rw [put_same]
        by_cases hu : w = u
        · subst hu; simp [put_same, hee _ hnd, inList]
        · simp [put_ne _ _ hu, inList]
      · rw [put_ne _ _ hw, put_ne _ _ hw]
        by_cases hu : w = u
        · subst hu; simp [put_same, inList, hw, hf]
        · rw [put_ne _ _ hu]
          simp [inList, hw, hf, Ne.symm hu]
    split
    · next hb =>
      simp only [put_same, hm, mlist, Option.map_some, put_put, Option.getD_some]
      simp only [put_put] at hlist
      congr 2
    · next hb =>
      simp only [put_same, hm, mlist, Option.map_some, put_put, Option.getD_some]
      simp only [put_put] at hlist
      congr 2

/-- Adding an incoming particle to a vertex of the event: the call succeeds, the particle points
to the vertex and is the last of its list, it is in no other list of incoming particles of the
event, and the graph stays consistent.  The particle is one of the event or belongs to no
vertex; in the second case the barcode it gets must not be in use. -/
theorem C84_addIn {h : Heap F G N} {e v p : Nat} (hb : Buildable h e) (hv : v ∈ evVerts (h.e e))
    (hp : p ∈ evParts (h.e e) ∨ (h.p p).prod = none ∧ (h.p p).fin = none ∧
      nextPBc h e p ∉ (mlist (h.e e).particles).map Prod.fst) :
    ∃ h', addIn h v p = some h' ∧ Buildable h' e ∧ (h'.p p).fin = some v ∧ (h'.p p).prod = (h.p p).prod ∧
      (∃ l, (h'.v v).pin = l ++ [p]) ∧ (∀ w ∈ evVerts (h'.e e), w ≠ v → p ∉ (h'.v w).pin) ∧
      (∀ q, q ≠ p → h'.p q = h.p q) ∧ (∀ q, q ∈ evParts (h'.e e) ↔ q = p ∨ q ∈ evParts (h.e e)) ∧
      (h'.e e).vertices = (h.e e).vertices ∧ h'.np = h.np ∧ h'.nv = h.nv ∧
      (∀ w, (h'.v w).data = (h.v w).data ∧ (h'.v w).event = (h.v w).event ∧ (h'.v w).pout = (h.v w).pout) ∧
      ∀ i, i ≠ e → h'.e i = h.e i := by
  obtain ⟨hvm, hpm, hs, hown⟩ := hb
  have hve := (hown v).mpr hv
  refine ⟨_, addIn_eq h e v p hve hpm (hs.in_nodup v hv), ?_⟩
  generalize hh' : ({ h with
      v := fun w => { h.v w with pin := inList h v p w }
      p := put h.p p { h.p p with data := { (h.p p).data with barcode := nextPBc h e p }, fin := some v }
      e := put h.e e (partEvt h e p) } : Heap F G N) = h'
  have hv' : ∀ w, h'.v w = { h.v w with pin := inList h v p w } := fun w => by rw [← hh']
  have hpp : h'.p p = { h.p p with data := { (h.p p).data with barcode := nextPBc h e p }, fin := some v } := by
    rw [← hh']; exact put_same _ _ _
  have hpq : ∀ q, q ≠ p → h'.p q = h.p q := fun q hq => by rw [← hh']; exact put_ne _ _ hq
  have hee : h'.e e = partEvt h e p := by rw [← hh']; exact put_same _ _ _
  have hei : ∀ i, i ≠ e → h'.e i = h.e i := fun i hi => by rw [← hh']; exact put_ne _ _ hi
  have hmap : ∀ q, q ∈ mlist (partEvt h e p).particles ↔ q = (nextPBc h e p, p) ∨ q ∈ mlist (h.e e).particles := by
    intro q
    show q ∈ mset _ _ _ ↔ _
    rcases hp with hp | ⟨_, _, hk⟩
    · obtain ⟨b, hb⟩ := (mem_parts _ _).mp hp
      have hbc := hs.pkey b p hb
      have hne := hs.pne0 p hp
      have hnx : nextPBc h e p = b := by unfold nextPBc; rw [if_neg hne, hbc]
      rw [hnx, mem_mset_same _ _ _ hs.pnodup hb]
      constructor
      · exact Or.inr
      · rintro (rfl | h)
        · exact hb
        · exact h
    · exact mem_mset_new _ _ _ hk q
  have mpart : ∀ q, q ∈ evParts (h'.e e) ↔ q = p ∨ q ∈ evParts (h.e e) := by
    intro q
    rw [hee, mem_parts, mem_parts]
    constructor
    · rintro ⟨b, hb⟩
      rcases (hmap _).mp hb with h1 | h1
      · exact Or.inl (congrArg Prod.snd h1)
      · exact Or.inr ⟨b, h1⟩
    · rintro (rfl | ⟨b, hb⟩)
      · exact ⟨_, (hmap _).mpr (Or.inl rfl)⟩
      · exact ⟨b, (hmap _).mpr (Or.inr hb)⟩
  have mvert : ∀ w, w ∈ evVerts (h'.e e) ↔ w ∈ evVerts (h.e e) := by
    intro w; rw [hee]; exact Iff.rfl
  have hin : ∀ w ∈ evVerts (h.e e), ∀ q, q ∈ inList h v p w ↔ (q ≠ p ∧ q ∈ (h.v w).pin) ∨ (w = v ∧ q = p) := by
    intro w hw q
    unfold inList
    have hnd := hs.in_nodup w hw
    split
    · next hwv => subst hwv; simp [hnd.mem_erase_iff]
    · next hwv =>
      split
      · simp [hnd.mem_erase_iff, hwv]
      · next hf =>
        have hnp : p ∉ (h.v w).pin := fun hh => hf ((hs.in_iff w hw p).mp hh).2
        constructor
        · intro hq
          exact Or.inl ⟨fun h => hnp (h ▸ hq), hq⟩
        · rintro (⟨_, hq⟩ | ⟨h1, _⟩)
          · exact hq
          · exact absurd h1 hwv
  have hbcp : nextPBc h e p ≠ 0 := by
    unfold nextPBc
    split
    · omega
    · assumption
  refine ⟨⟨?_, ?_, ?_, ?_⟩, ?_, ?_, ?_, ?_, hpq, mpart, ?_, ?_, ?_, ?_, hei⟩
  · rw [hee]; exact hvm
  · rw [hee]; simp [partEvt]
  · constructor
    · intro b w hm
      rw [hee] at hm
      rw [hv']
      exact hs.vkey b w hm
    · rw [hee]; exact hs.vnodup
    · intro w hw
      rw [hv']
      exact hs.vne0 w ((mvert w).mp hw)
    · intro b q hm
      rw [hee] at hm
      rcases (hmap _).mp hm with h1 | h1
      · cases h1
        rw [hpp]
      · by_cases hq : q = p
        · subst hq
          rw [hpp]
          have hbc := hs.pkey b q h1
          have hne := hs.pne0 q ((mem_parts _ _).mpr ⟨b, h1⟩)
          show nextPBc h e q = b
          unfold nextPBc
          rw [if_neg hne, hbc]
        · rw [hpq q hq]; exact hs.pkey b q h1
    · rw [hee]
      exact mset_nodup _ _ _ hs.pnodup
    · intro q hq
      by_cases hqp : q = p
      · subst hqp; rw [hpp]; exact hbcp
      · rw [hpq q hqp]
        exact hs.pne0 q (((mpart q).mp hq).resolve_left hqp)
    · intro w hw q
      rw [hv', mpart]
      show q ∈ inList h v p w ↔ _
      rw [hin w ((mvert w).mp hw)]
      by_cases hq : q = p
      · subst hq
        rw [hpp]
        simp [eq_comm]
      · rw [hpq q hq, hs.in_iff w ((mvert w).mp hw) q]
        simp [hq]
    · intro w hw q
      rw [hv', mpart]
      show q ∈ (h.v w).pout ↔ _
      rw [hs.out_iff w ((mvert w).mp hw) q]
      by_cases hq : q = p
      · subst hq
        rw [hpp]
        constructor
        · rintro ⟨_, h2⟩; exact ⟨Or.inl rfl, h2⟩
        · rintro ⟨_, h2⟩
          rcases hp with hp | ⟨hp1, hp2, _⟩
          · exact ⟨hp, h2⟩
          · replace h2 : (h.p q).prod = some w := h2
            simp [hp1] at h2
      · rw [hpq q hq]
        simp [hq]
    · intro w hw
      rw [hv']
      show (inList h v p w).Nodup
      have hnd := hs.in_nodup w ((mvert w).mp hw)
      unfold inList
      split
      · rw [List.nodup_append]
        refine ⟨hnd.erase p, by simp, ?_⟩
        intro a ha b hb
        simp only [List.mem_cons, List.not_mem_nil, or_false] at hb
        subst hb
        exact (hnd.mem_erase_iff.mp ha).1
      · split
        · exact hnd.erase p
        · exact hnd
    · intro w hw
      rw [hv']
      exact hs.out_nodup w ((mvert w).mp hw)
    · intro q hq w hw
      rw [mvert]
      by_cases hqp : q = p
      · subst hqp
        rw [hpp] at hw
        cases hw
        exact hv
      · rw [hpq q hqp] at hw
        exact hs.fin_reg q (((mpart q).mp hq).resolve_left hqp) w hw
    · intro q hq w hw
      rw [mvert]
      by_cases hqp : q = p
      · subst hqp
        rw [hpp] at hw
        rcases hp with hp | ⟨hp1, hp2, _⟩
        · exact hs.prod_reg q hp w hw
        · replace hw : (h.p q).prod = some w := hw
          simp [hp1] at hw
      · rw [hpq q hqp] at hw
        exact hs.prod_reg q (((mpart q).mp hq).resolve_left hqp) w hw
  · intro w
    rw [hv', mvert]
    exact hown w
  · rw [hpp]
  · rw [hpp]
  · rw [hv']; exact ⟨_, by simp only [inList, if_true]; rfl⟩
  · intro w hw hwv hm
    rw [hv'] at hm
    rcases (hin w ((mvert w).mp hw) p).mp hm with ⟨h1, _⟩ | ⟨h1, _⟩
    · exact h1 rfl
    · exact hwv h1
  · rw [hee]; rfl
  · rw [← hh']
  · rw [← hh']
  · intro w; rw [hv']; exact ⟨rfl, rfl, rfl⟩

/-! ## Adding an outgoing particle -/

/-- The list of outgoing particles of a vertex after `p` was added to `v`. -/
def outList (h : Heap F G N) (v p w : Nat) : List Nat :=
  if w = v then (h.v w).pout.erase p ++ [p] else if (h.p p).prod = some w then (h.v w).pout.erase p else (h.v w).pout

theorem addOut_eq (h : Heap F G N) (e v p : Nat) (hv : (h.v v).event = some e) (hpm : (h.e e).particles ≠ none)
    (hnd : (h.v v).pout.Nodup) :
    addOut h v p = some { h with
      v := fun w => { h.v w with pout := outList h v p w }
      p := put h.p p { h.p p with data := { (h.p p).data with barcode := nextPBc h e p }, prod := some v }
      e := put h.e e (partEvt h e p) } := by
  obtain ⟨m, hm⟩ := Option.ne_none_iff_exists'.mp hpm
  have hee : ∀ (l : List Nat), l.Nodup → (l.erase p).erase p = l.erase p := fun l hl =>
    List.erase_of_not_mem (fun hh => (hl.mem_erase_iff.mp hh).1 rfl)
  unfold addOut
  dsimp only
  have hev : ∀ h2 : Heap F G N, ((removeOut h2 v p).v v).event = (h2.v v).event := by
    intro h2; simp [removeOut, put_same]
  have hevu : ∀ u, ((removeOut h u p).v v).event = some e := by
    intro w
    by_cases hw : v = w
    · subst hw; rw [hev]; exact hv
    · simp only [removeOut, put_ne _ _ hw]; exact hv
  cases hf : (h.p p).prod with
  | none =>
    dsimp only
    rw [hev, hv, Option.bind_some]
    unfold givePBc regPart removeOut partEvt nextPBc
    dsimp only
    split
    · next hb =>
      simp only [put_same, hm, mlist, Option.map_some, put_put, Option.getD_some]
      congr 2
      · funext w
        by_cases hw : w = v
        · subst hw; simp [put, outList]
        · simp [put, hw, outList, hf]
    · next hb =>
      simp only [put_same, hm, mlist, Option.map_some, put_put, Option.getD_some]
      congr 2
      funext w
      by_cases hw : w = v
      · subst hw; simp [put, outList]
      · simp [put, hw, outList, hf]
  | some u =>
    dsimp only
    rw [hev, hevu, Option.bind_some]
    unfold givePBc regPart removeOut partEvt nextPBc
    dsimp only
    have hlist : (put (put (put h.v u { h.v u with pout := (h.v u).pout.erase p }) v
        { put h.v u { h.v u with pout := (h.v u).pout.erase p } v with
          pout := (put h.v u { h.v u with pout := (h.v u).pout.erase p } v).pout.erase p }) v
        { put h.v u { h.v u with pout := (h.v u).pout.erase p } v with
          pout := (put h.v u { h.v u with pout := (h.v u).pout.erase p } v).pout.erase p ++ [p] }) =
        fun w => { h.v w with pout := outList h v p w } := by
      funext w
      by_cases hw : w = v
      · subst hw
        rw [put_same]
        by_cases hu : w = u
        · subst hu; simp [put_same, hee _ hnd, outList]
        · simp [put_ne _ _ hu, outList]
      · rw [put_ne _ _ hw, put_ne _ _ hw]
        by_cases hu : w = u
        · subst hu; simp [put_same, outList, hw, hf]
        · rw [put_ne _ _ hu]
          simp [outList, hw, hf, Ne.symm hu]
    split
    · next hb =>
      simp only [put_same, hm, mlist, Option.map_some, put_put, Option.getD_some]
      simp only [put_put] at hlist
      congr 2
    · next hb =>
      simp only [put_same, hm, mlist, Option.map_some, put_put, Option.getD_some]
      simp only [put_put] at hlist
      congr 2

/-- Adding an outgoing particle to a vertex of the event: the call succeeds, the particle points
to the vertex and is the last of its list, it is in no other list of outgoing particles of the
event, and the graph stays consistent.  The particle is one of the event or belongs to no
vertex; in the second case the barcode it gets must not be in use. -/
theorem C84_addOut {h : Heap F G N} {e v p : Nat} (hb : Buildable h e) (hv : v ∈ evVerts (h.e e))
    (hp : p ∈ evParts (h.e e) ∨ (h.p p).prod = none ∧ (h.p p).fin = none ∧
      nextPBc h e p ∉ (mlist (h.e e).particles).map Prod.fst) :
    ∃ h', addOut h v p = some h' ∧ Buildable h' e ∧ (h'.p p).prod = some v ∧ (h'.p p).fin = (h.p p).fin ∧
      (∃ l, (h'.v v).pout = l ++ [p]) ∧ (∀ w ∈ evVerts (h'.e e), w ≠ v → p ∉ (h'.v w).pout) ∧
      (∀ q, q ≠ p → h'.p q = h.p q) ∧ (∀ q, q ∈ evParts (h'.e e) ↔ q = p ∨ q ∈ evParts (h.e e)) ∧
      (h'.e e).vertices = (h.e e).vertices ∧ h'.np = h.np ∧ h'.nv = h.nv ∧
      (∀ w, (h'.v w).data = (h.v w).data ∧ (h'.v w).event = (h.v w).event ∧ (h'.v w).pin = (h.v w).pin) ∧
      ∀ i, i ≠ e → h'.e i = h.e i := by
  obtain ⟨hvm, hpm, hs, hown⟩ := hb
  have hve := (hown v).mpr hv
  refine ⟨_, addOut_eq h e v p hve hpm (hs.out_nodup v hv), ?_⟩
  generalize hh' : ({ h with
      v := fun w => { h.v w with pout := outList h v p w }
      p := put h.p p { h.p p with data := { (h.p p).data with barcode := nextPBc h e p }, prod := some v }
      e := put h.e e (partEvt h e p) } : Heap F G N) = h'
  have hv' : ∀ w, h'.v w = { h.v w with pout := outList h v p w } := fun w => by rw [← hh']
  have hpp : h'.p p = { h.p p with data := { (h.p p).data with barcode := nextPBc h e p }, prod := some v } := by
    rw [← hh']; exact put_same _ _ _
  have hpq : ∀ q, q ≠ p → h'.p q = h.p q := fun q hq => by rw [← hh']; exact put_ne _ _ hq
  have hee : h'.e e = partEvt h e p := by rw [← hh']; exact put_same _ _ _
  have hei : ∀ i, i ≠ e → h'.e i = h.e i := fun i hi => by rw [← hh']; exact put_ne _ _ hi
  have hmap : ∀ q, q ∈ mlist (partEvt h e p).particles ↔ q = (nextPBc h e p, p) ∨ q ∈ mlist (h.e e).particles := by
    intro q
    show q ∈ mset _ _ _ ↔ _
    rcases hp with hp | ⟨_, _, hk⟩
    · obtain ⟨b, hb⟩ := (mem_parts _ _).mp hp
      have hbc := hs.pkey b p hb
      have hne := hs.pne0 p hp
      have hnx : nextPBc h e p = b := by unfold nextPBc; rw [if_neg hne, hbc]
      rw [hnx, mem_mset_same _ _ _ hs.pnodup hb]
      constructor
      · exact Or.inr
      · rintro (rfl | h)
        · exact hb
        · exact h
    · exact mem_mset_new _ _ _ hk q
  have mpart : ∀ q, q ∈ evParts (h'.e e) ↔ q = p ∨ q ∈ evParts (h.e e) := by
    intro q
    rw [hee, mem_parts, mem_parts]
    constructor
    · rintro ⟨b, hb⟩
      rcases (hmap _).mp hb with h1 | h1
      · exact Or.inl (congrArg Prod.snd h1)
      · exact Or.inr ⟨b, h1⟩
    · rintro (rfl | ⟨b, hb⟩)
      · exact ⟨_, (hmap _).mpr (Or.inl rfl)⟩
      · exact ⟨b, (hmap _).mpr (Or.inr hb)⟩
  have mvert : ∀ w, w ∈ evVerts (h'.e e) ↔ w ∈ evVerts (h.e e) := by
    intro w; rw [hee]; exact Iff.rfl
  have hin : ∀ w ∈ evVerts (h.e e), ∀ q, q ∈ outList h v p w ↔ (q ≠ p ∧ q ∈ (h.v w).pout) ∨ (w = v ∧ q = p) := by
    intro w hw q
    unfold outList
    have hnd := hs.out_nodup w hw
    split
    · next hwv => subst hwv; simp [hnd.mem_erase_iff]
    · next hwv =>
      split
      · simp [hnd.mem_erase_iff, hwv]
      · next hf =>
        have hnp : p ∉ (h.v w).pout := fun hh => hf ((hs.out_iff w hw p).mp hh).2
        constructor
        · intro hq
          exact Or.inl ⟨fun h => hnp (h ▸ hq), hq⟩
        · rintro (⟨_, hq⟩ | ⟨h1, _⟩)
          · exact hq
          · exact absurd h1 hwv
  have hbcp : nextPBc h e p ≠ 0 := by
    unfold nextPBc
    split
    · omega
    · assumption
  refine ⟨⟨?_, ?_, ?_, ?_⟩, ?_, ?_, ?_, ?_, hpq, mpart, ?_, ?_, ?_, ?_, hei⟩
  · rw [hee]; exact hvm
  · rw [hee]; simp [partEvt]
  · constructor
    · intro b w hm
      rw [hee] at hm
      rw [hv']
      exact hs.vkey b w hm
    · rw [hee]; exact hs.vnodup
    · intro w hw
      rw [hv']
      exact hs.vne0 w ((mvert w).mp hw)
    · intro b q hm
      rw [hee] at hm
      rcases (hmap _).mp hm with h1 | h1
      · cases h1
        rw [hpp]
      · by_cases hq : q = p
        · subst hq
          rw [hpp]
          have hbc := hs.pkey b q h1
          have hne := hs.pne0 q ((mem_parts _ _).mpr ⟨b, h1⟩)
          show nextPBc h e q = b
          unfold nextPBc
          rw [if_neg hne, hbc]
        · rw [hpq q hq]; exact hs.pkey b q h1
    · rw [hee]
      exact mset_nodup _ _ _ hs.pnodup
    · intro q hq
      by_cases hqp : q = p
      · subst hqp; rw [hpp]; exact hbcp
      · rw [hpq q hqp]
        exact hs.pne0 q (((mpart q).mp hq).resolve_left hqp)
    · intro w hw q
      rw [hv', mpart]
      show q ∈ (h.v w).pin ↔ _
      rw [hs.in_iff w ((mvert w).mp hw) q]
      by_cases hq : q = p
      · subst hq
        rw [hpp]
        constructor
        · rintro ⟨_, h2⟩; exact ⟨Or.inl rfl, h2⟩
        · rintro ⟨_, h2⟩
          rcases hp with hp | ⟨hp1, hp2, _⟩
          · exact ⟨hp, h2⟩
          · replace h2 : (h.p q).fin = some w := h2
            simp [hp2] at h2
      · rw [hpq q hq]
        simp [hq]
    · intro w hw q
      rw [hv', mpart]
      show q ∈ outList h v p w ↔ _
      rw [hin w ((mvert w).mp hw)]
      by_cases hq : q = p
      · subst hq
        rw [hpp]
        simp [eq_comm]
      · rw [hpq q hq, hs.out_iff w ((mvert w).mp hw) q]
        simp [hq]
    · intro w hw
      rw [hv']
      exact hs.in_nodup w ((mvert w).mp hw)
    · intro w hw
      rw [hv']
      show (outList h v p w).Nodup
      have hnd := hs.out_nodup w ((mvert w).mp hw)
      unfold outList
      split
      · rw [List.nodup_append]
        refine ⟨hnd.erase p, by simp, ?_⟩
        intro a ha b hb
        simp only [List.mem_cons, List.not_mem_nil, or_false] at hb
        subst hb
        exact (hnd.mem_erase_iff.mp ha).1
      · split
        · exact hnd.erase p
        · exact hnd
    · intro q hq w hw
      rw [mvert]
      by_cases hqp : q = p
      · subst hqp
        rw [hpp] at hw
        rcases hp with hp | ⟨hp1, hp2, _⟩
        · exact hs.fin_reg q hp w hw
        · replace hw : (h.p q).fin = some w := hw
          simp [hp2] at hw
      · rw [hpq q hqp] at hw
        exact hs.fin_reg q (((mpart q).mp hq).resolve_left hqp) w hw
    · intro q hq w hw
      rw [mvert]
      by_cases hqp : q = p
      · subst hqp
        rw [hpp] at hw
        cases hw
        exact hv
      · rw [hpq q hqp] at hw
        exact hs.prod_reg q (((mpart q).mp hq).resolve_left hqp) w hw
  · intro w
    rw [hv', mvert]
    exact hown w
  · rw [hpp]
  · rw [hpp]
  · rw [hv']; exact ⟨_, by simp only [outList, if_true]; rfl⟩
  · intro w hw hwv hm
    rw [hv'] at hm
    rcases (hin w ((mvert w).mp hw) p).mp hm with ⟨h1, _⟩ | ⟨h1, _⟩
    · exact h1 rfl
    · exact hwv h1
  · rw [hee]; rfl
  · rw [← hh']
  · rw [← hh']
  · intro w; rw [hv']; exact ⟨rfl, rfl, rfl⟩

/-! ## Adding a vertex -/

/-- The same heap but for the order of the entries of the map of particles of `e`. -/
def Reordered (h h2 : Heap F G N) (e : Nat) : Prop :=
  ∃ m, h2 = { h with e := put h.e e { h.e e with particles := some m } } ∧ (∀ q, q ∈ m ↔ q ∈ mlist (h.e e).particles) ∧
    (m.map Prod.fst).Nodup

theorem regPart_reordered {h h2 : Heap F G N} {e p : Nat} (hr : Reordered h h2 e) (hs : Sound h (h.e e)) (hp : p ∈ evParts (h.e e)) :
    ∃ h3, regPart h2 e p = some h3 ∧ Reordered h h3 e := by
  obtain ⟨m, rfl, hm, hn⟩ := hr
  obtain ⟨b, hb⟩ := (mem_parts _ _).mp hp
  have hbc := hs.pkey b p hb
  refine ⟨_, ?_, mset m b p, rfl, ?_, mset_nodup _ _ _ hn⟩
  · unfold regPart
    simp only [put_same, Option.map_some, put_put, hbc]
  · intro q
    rw [mem_mset_same m b p hn ((hm _).mpr hb), hm]

theorem unregPart_same (h : Heap F G N) {orig : Option Nat} {e : Nat} (p : Nat) (ho : orig = none ∨ orig = some e) :
    unregPart h orig e p = h := by
  rcases ho with rfl | rfl <;> simp [unregPart]

theorem regIn_reordered {h : Heap F G N} {e : Nat} {orig : Option Nat} (ho : orig = none ∨ orig = some e) (hs : Sound h (h.e e))
    (ps : List Nat) (hp : ∀ p ∈ ps, p ∈ evParts (h.e e)) (h2 : Heap F G N) (hr : Reordered h h2 e) :
    ∃ h3, regIn orig e ps h2 = some h3 ∧ Reordered h h3 e := by
  induction ps generalizing h2 with
  | nil => exact ⟨h2, rfl, hr⟩
  | cons p ps ih =>
    unfold regIn
    split
    · obtain ⟨h3, e3, r3⟩ := regPart_reordered hr hs (hp p (by simp))
      rw [e3, Option.bind_some, unregPart_same _ _ ho]
      exact ih (fun q hq => hp q (List.mem_cons_of_mem _ hq)) h3 r3
    · exact ih (fun q hq => hp q (List.mem_cons_of_mem _ hq)) h2 hr

theorem regOut_reordered {h : Heap F G N} {e : Nat} {orig : Option Nat} (ho : orig = none ∨ orig = some e) (hs : Sound h (h.e e))
    (ps : List Nat) (hp : ∀ p ∈ ps, p ∈ evParts (h.e e)) (h2 : Heap F G N) (hr : Reordered h h2 e) :
    ∃ h3, regOut orig e ps h2 = some h3 ∧ Reordered h h3 e := by
  induction ps generalizing h2 with
  | nil => exact ⟨h2, rfl, hr⟩
  | cons p ps ih =>
    unfold regOut
    obtain ⟨h3, e3, r3⟩ := regPart_reordered hr hs (hp p (by simp))
    rw [e3, Option.bind_some, unregPart_same _ _ ho]
    exact ih (fun q hq => hp q (List.mem_cons_of_mem _ hq)) h3 r3

/-- The event after a new vertex was entered. -/
def vtxEvt (h : Heap F G N) (e v : Nat) : Evt F G N :=
  { h.e e with
    vertices := some (mset (mlist (h.e e).vertices) (nextVBc h e v) v)
    bcverts := if (h.v v).data.barcode = 0 then (h.e e).bcverts + 1 else (h.e e).bcverts }

theorem addVertex_new (h : Heap F G N) (e v : Nat) (hvm : (h.e e).vertices ≠ none) (hv : (h.v v).event = none)
    (h1 : (h.v v).pin = []) (h2 : (h.v v).pout = []) :
    addVertex h e v = some { h with
      v := put h.v v { h.v v with data := { (h.v v).data with barcode := nextVBc h e v }, event := some e }
      e := put h.e e (vtxEvt h e v) } := by
  obtain ⟨m, hm⟩ := Option.ne_none_iff_exists'.mp hvm
  unfold addVertex giveVBc vtxEvt nextVBc
  dsimp only
  simp only [put_same]
  split
  · next hb =>
    simp only [put_same, hm, Option.bind_some, put_put, hv, h1, h2, regIn, regOut, mlist, Option.getD_some]
  · next hb =>
    simp only [put_same, hm, Option.bind_some, hv, h1, h2, regIn, regOut, mlist, Option.getD_some]

/-- Adding a new vertex to the event, or one of its vertices again: the call succeeds, the
vertex is one of the event and points to it, and the graph stays consistent.  A new vertex has
no particles and gets a barcode that is not in use. -/
theorem C84_addVertex {h : Heap F G N} {e v : Nat} (hb : Buildable h e)
    (hv : v ∈ evVerts (h.e e) ∨ (h.v v).event = none ∧ (h.v v).pin = [] ∧ (h.v v).pout = [] ∧
      nextVBc h e v ∉ (mlist (h.e e).vertices).map Prod.fst) :
    ∃ h', addVertex h e v = some h' ∧ Buildable h' e ∧ (h'.v v).event = some e ∧ h'.p = h.p ∧
      (∀ w, w ∈ evVerts (h'.e e) ↔ w = v ∨ w ∈ evVerts (h.e e)) ∧ (∀ w, w ≠ v → h'.v w = h.v w) ∧
      (h'.v v).pin = (h.v v).pin ∧ (h'.v v).pout = (h.v v).pout ∧
      (∀ q, q ∈ mlist (h'.e e).particles ↔ q ∈ mlist (h.e e).particles) ∧ h'.np = h.np ∧ h'.nv = h.nv ∧
      (∀ i, i ≠ e → h'.e i = h.e i) ∧ (h'.e e).bcparts = (h.e e).bcparts ∧
      (v ∈ evVerts (h.e e) → h'.v = h.v ∧ (h'.e e).bcverts = (h.e e).bcverts ∧
        ∀ q, q ∈ mlist (h'.e e).vertices ↔ q ∈ mlist (h.e e).vertices) := by
  obtain ⟨hvm, hpm, hs, hown⟩ := hb
  by_cases hmem : v ∈ evVerts (h.e e)
  · -- a vertex of the event
    obtain ⟨m, hm⟩ := Option.ne_none_iff_exists'.mp hvm
    obtain ⟨b, hbm⟩ := (mem_verts _ _).mp hmem
    have hbc := hs.vkey b v hbm
    have hne := hs.vne0 v hmem
    have hve := (hown v).mpr hmem
    have hput : put h.v v { h.v v with event := some e } = h.v := by
      funext w
      by_cases hw : w = v
      · subst hw; rw [put_same, ← hve]
      · rw [put_ne _ _ hw]
    generalize hx1 : ({ h.e e with vertices := some (mset m b v) } : Evt F G N) = x1
    have hs1 : Sound { h with e := put h.e e x1 } x1 := by
      have : Sound h x1 := hs.congr
        (by intro q; rw [← hx1]; simp only [mlist, Option.getD_some, hm]
            exact mem_mset_same m b v (by simpa [mlist, hm] using hs.vnodup) (by simpa [mlist, hm] using hbm) q)
        (by intro q; rw [← hx1])
        (by rw [← hx1]; exact mset_nodup _ _ _ (by simpa [mlist, hm] using hs.vnodup))
        (by rw [← hx1]; exact hs.pnodup)
      exact ⟨this.vkey, this.vnodup, this.vne0, this.pkey, this.pnodup, this.pne0, this.in_iff, this.out_iff, this.in_nodup,
        this.out_nodup, this.fin_reg, this.prod_reg⟩
    generalize hh1 : ({ h with e := put h.e e x1 } : Heap F G N) = h1 at hs1
    have he1 : h1.e e = x1 := by rw [← hh1]; exact put_same _ _ _
    have hparts1 : evParts (h1.e e) = evParts (h.e e) := by rw [he1, ← hx1]; rfl
    have hr1 : Reordered h1 h1 e := by
      obtain ⟨pm, hpm'⟩ := Option.ne_none_iff_exists'.mp hpm
      refine ⟨pm, ?_, ?_, ?_⟩
      · rw [he1]
        have : ({ x1 with particles := some pm } : Evt F G N) = x1 := by rw [← hx1, ← hpm']
        rw [this, ← hh1, put_put]
      · intro q; rw [he1, ← hx1]; simp [mlist, hpm']
      · simpa [mlist, hpm'] using hs.pnodup
    obtain ⟨h2, e2, r2⟩ := regIn_reordered (orig := some e) (Or.inr rfl) (he1 ▸ hs1) (h.v v).pin
      (fun p hp => by rw [hparts1]; exact ((hs.in_iff v hmem p).mp hp).1) h1 hr1
    obtain ⟨h3, e3, r3⟩ := regOut_reordered (orig := some e) (Or.inr rfl) (he1 ▸ hs1) (h.v v).pout
      (fun p hp => by rw [hparts1]; exact ((hs.out_iff v hmem p).mp hp).1) h2 r2
    have hv2 : h2.v = h.v := by
      obtain ⟨m2, rfl, _⟩ := r2
      rw [← hh1]
    have hcall : addVertex h e v = some h3 := by
      unfold addVertex giveVBc
      dsimp only
      rw [hve, hput]
      rw [if_neg hne]
      simp only [hm, Option.bind_some, hbc, if_true]
      rw [hx1, hh1]

      rw [e2, Option.bind_some, hv2]
      exact e3
    obtain ⟨m3, rfl, hm3, hn3⟩ := r3
    have hee : (({ h1 with e := put h1.e e { h1.e e with particles := some m3 } } : Heap F G N).e e) =
        { x1 with particles := some m3 } := by
      show put _ _ _ _ = _
      rw [put_same, he1]
    have hverts : ∀ q, q ∈ mlist x1.vertices ↔ q ∈ mlist (h.e e).vertices := by
      intro q
      rw [← hx1]
      simp only [mlist, Option.getD_some, hm]
      exact mem_mset_same m b v (by simpa [mlist, hm] using hs.vnodup) (by simpa [mlist, hm] using hbm) q
    have hparts : ∀ q, q ∈ m3 ↔ q ∈ mlist (h.e e).particles := by
      intro q; rw [hm3, he1, ← hx1]
    have mv : ∀ w, w ∈ evVerts x1 ↔ w ∈ evVerts (h.e e) := fun w => by simp only [mem_verts, hverts]
    refine ⟨_, hcall, ⟨?_, ?_, ?_, ?_⟩, ?_, ?_, ?_, ?_, ?_, ?_, ?_, ?_, ?_, ?_, ?_, fun _ => ⟨?_, ?_, ?_⟩⟩
    · rw [hee, ← hx1]; simp
    · rw [hee]; simp
    · rw [hee]
      have hs1' : Sound h x1 := by
        rw [← hh1] at hs1
        exact ⟨hs1.vkey, hs1.vnodup, hs1.vne0, hs1.pkey, hs1.pnodup, hs1.pne0, hs1.in_iff, hs1.out_iff, hs1.in_nodup,
          hs1.out_nodup, hs1.fin_reg, hs1.prod_reg⟩
      have this : Sound h { x1 with particles := some m3 } := hs1'.congr (fun q => Iff.rfl)
        (fun q => by rw [show mlist x1.particles = mlist (h.e e).particles by rw [← hx1]]; exact hparts q) hs1'.vnodup hn3
      rw [← hh1]
      exact ⟨this.vkey, this.vnodup, this.vne0, this.pkey, this.pnodup, this.pne0, this.in_iff, this.out_iff, this.in_nodup,
        this.out_nodup, this.fin_reg, this.prod_reg⟩
    · intro w
      rw [hee]
      show (h1.v w).event = some e ↔ w ∈ evVerts x1
      rw [mv, ← hh1]
      exact hown w
    · show (h1.v v).event = _
      rw [← hh1]; exact hve
    · show h1.p = h.p
      rw [← hh1]
    · intro w
      rw [hee]
      show w ∈ evVerts x1 ↔ _
      rw [mv]
      constructor
      · exact Or.inr
      · rintro (rfl | h)
        · exact hmem
        · exact h
    · intro w _
      show h1.v w = _
      rw [← hh1]
    · show (h1.v v).pin = _
      rw [← hh1]
    · show (h1.v v).pout = _
      rw [← hh1]
    · intro q
      rw [hee]
      exact hparts q
    · show h1.np = _
      rw [← hh1]
    · show h1.nv = _
      rw [← hh1]
    · intro i hi
      show put _ _ _ _ = _
      rw [put_ne _ _ hi, ← hh1]
      exact put_ne _ _ hi
    · rw [hee, ← hx1]
    · rw [← hh1]
    · rw [hee, ← hx1]
    · intro q; rw [hee]; exact hverts q
  · -- a new vertex
    obtain ⟨hv1, hv2, hv3, hk⟩ := hv.resolve_left hmem
    refine ⟨_, addVertex_new h e v hvm hv1 hv2 hv3, ?_⟩
    generalize hh' : ({ h with
      v := put h.v v { h.v v with data := { (h.v v).data with barcode := nextVBc h e v }, event := some e }
      e := put h.e e (vtxEvt h e v) } : Heap F G N) = h'
    have hvv : h'.v v = { h.v v with data := { (h.v v).data with barcode := nextVBc h e v }, event := some e } := by
      rw [← hh']; exact put_same _ _ _
    have hvw : ∀ w, w ≠ v → h'.v w = h.v w := fun w hw => by rw [← hh']; exact put_ne _ _ hw
    have hpp : h'.p = h.p := by rw [← hh']
    have hee : h'.e e = vtxEvt h e v := by rw [← hh']; exact put_same _ _ _
    have hmap : ∀ q, q ∈ mlist (vtxEvt h e v).vertices ↔ q = (nextVBc h e v, v) ∨ q ∈ mlist (h.e e).vertices :=
      mem_mset_new _ _ _ hk
    have mvert : ∀ w, w ∈ evVerts (h'.e e) ↔ w = v ∨ w ∈ evVerts (h.e e) := by
      intro q
      rw [hee, mem_verts, mem_verts]
      constructor
      · rintro ⟨b, hb⟩
        rcases (hmap _).mp hb with h1 | h1
        · exact Or.inl (congrArg Prod.snd h1)
        · exact Or.inr ⟨b, h1⟩
      · rintro (rfl | ⟨b, hb⟩)
        · exact ⟨_, (hmap _).mpr (Or.inl rfl)⟩
        · exact ⟨b, (hmap _).mpr (Or.inr hb)⟩
    have mpart : evParts (h'.e e) = evParts (h.e e) := by rw [hee]; rfl
    have hbc : nextVBc h e v ≠ 0 := by
      unfold nextVBc
      split
      · omega
      · assumption
    have hne : ∀ w ∈ evVerts (h.e e), w ≠ v := fun w hw he => hmem (he ▸ hw)
    refine ⟨⟨?_, ?_, ?_, ?_⟩, ?_, hpp, mvert, hvw, ?_, ?_, ?_, ?_, ?_, ?_, ?_, fun hc => absurd hc hmem⟩
    · rw [hee]; simp [vtxEvt]
    · rw [hee]; exact hpm
    · constructor
      · intro b w hm
        rw [hee] at hm
        rcases (hmap _).mp hm with h1 | h1
        · cases h1
          rw [hvv]
        · rw [hvw w (hne w ((mem_verts _ _).mpr ⟨b, h1⟩))]
          exact hs.vkey b w h1
      · rw [hee]; exact mset_nodup _ _ _ hs.vnodup
      · intro w hw
        rcases (mvert w).mp hw with rfl | hw
        · rw [hvv]; exact hbc
        · rw [hvw w (hne w hw)]; exact hs.vne0 w hw
      · intro b p hm
        rw [hee] at hm
        rw [hpp]
        exact hs.pkey b p hm
      · rw [hee]; exact hs.pnodup
      · rw [mpart, hpp]; exact hs.pne0
      · intro w hw p
        rw [mpart, hpp]
        rcases (mvert w).mp hw with rfl | hw
        · rw [hvv]
          show p ∈ (h.v w).pin ↔ _
          rw [hv2]
          simp only [List.not_mem_nil, false_iff, not_and]
          intro h1 h2
          exact hmem (hs.fin_reg p h1 w h2)
        · rw [hvw w (hne w hw)]; exact hs.in_iff w hw p
      · intro w hw p
        rw [mpart, hpp]
        rcases (mvert w).mp hw with rfl | hw
        · rw [hvv]
          show p ∈ (h.v w).pout ↔ _
          rw [hv3]
          simp only [List.not_mem_nil, false_iff, not_and]
          intro h1 h2
          exact hmem (hs.prod_reg p h1 w h2)
        · rw [hvw w (hne w hw)]; exact hs.out_iff w hw p
      · intro w hw
        rcases (mvert w).mp hw with rfl | hw
        · rw [hvv]; show (h.v w).pin.Nodup; rw [hv2]; exact List.nodup_nil
        · rw [hvw w (hne w hw)]; exact hs.in_nodup w hw
      · intro w hw
        rcases (mvert w).mp hw with rfl | hw
        · rw [hvv]; show (h.v w).pout.Nodup; rw [hv3]; exact List.nodup_nil
        · rw [hvw w (hne w hw)]; exact hs.out_nodup w hw
      · rw [mpart, hpp]
        intro p hp w hw
        exact (mvert w).mpr (Or.inr (hs.fin_reg p hp w hw))
      · rw [mpart, hpp]
        intro p hp w hw
        exact (mvert w).mpr (Or.inr (hs.prod_reg p hp w hw))
    · intro w
      rw [mvert]
      by_cases hw : w = v
      · subst hw; rw [hvv]; simp
      · rw [hvw w hw, hown]; simp [hw]
    · rw [hvv]
    · rw [hvv]
    · rw [hvv]
    · intro q; rw [hee]; exact Iff.rfl
    · rw [← hh']
    · rw [← hh']
    · intro i hi; rw [← hh']; exact put_ne _ _ hi
    · rw [hee]; rfl

end Verif.HepMC
