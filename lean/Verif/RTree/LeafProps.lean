import Verif.RTree.LeafRead
import Verif.RTree.Props
import Verif.RTree.Chain

/-!
# C145: the values written to a tree are the values read from it
-/

namespace Verif.RTree.Leaf

/-! ## One entry -/

/-- The leaf number `p` holds what a reader must see of its variable. -/
def Good (vars : List Var) (row : List Value) (lvs : List RLeaf) (st : List Value) (p : Nat) :
    Prop :=
  ∃ l v x, lvs[p]? = some l ∧ (v, x) ∈ vars.zip row ∧ v.name = l.name ∧
    st[p]? = some (seen vars row v x)

/-- The memory of a reader has the shape of its variables. -/
def Shaped (lvs : List RLeaf) (st : List Value) : Prop :=
  st.length = lvs.length ∧ ∀ (p : Nat) (l : RLeaf) (y : Value), lvs[p]? = some l →
    st[p]? = some y →
    match l.form with
    | .arr n => y.elems.length = n
    | .one => y.elems.length = 1
    | _ => True

theorem signed_of_signed {t : Ty} (h : IntTy t) {n : Nat} (hn : n < 2 ^ (8 * t.width - 1))
    {u : Ty} (hu : u = t ∨ u = t.signed) :
    (if u.hasSign then signed u.width n else (n : Int)) = (n : Int) := by
  have hw : u.width = t.width := by
    rcases hu with rfl | rfl
    · rfl
    · exact width_signed t
  split
  · rw [hw]; exact signed_small hn
  · rfl

/-- One leaf. -/
theorem readLeaf_ok {vars : List Var} {row : List Value} (hok : VarsOK vars)
    (hrow : RowOK vars row) {lvs : List RLeaf} (hr : RdInv vars lvs) {st : List Value}
    (hsh : Shaped lvs st) {p : Nat} {l : RLeaf} {old : Value} {v : Var} {x : Value}
    (hl : lvs[p]? = some l) (ho : st[p]? = some old) (hvx : (v, x) ∈ vars.zip row)
    (hvn : v.name = l.name) (hc : ∀ q, l.count = some q → Good vars row lvs st q) {buf : Bytes}
    (hb : writeElems v.ty (seen vars row v x).elems <+: buf) :
    readLeaf lvs st l old buf = some (seen vars row v x) := by
  obtain ⟨w, w1, w2, w3, w4⟩ := hr p l hl
  have hvm := (List.of_mem_zip hvx).1
  have hwv : w = v := var_unique hok.nodup w1 hvm (by rw [← w2, hvn])
  subst hwv
  have hfit := hrow.2 (w, x) hvx
  unfold FitsVar at hfit
  simp only at hfit
  have hso := hsh.2 p l old hl ho
  cases hf : w.form with
  | val =>
    rw [hf] at hfit w4
    cases x with
    | list es => exact absurd hfit (by simp)
    | val e =>
      simp only at hfit w4
      simp only [seen, hf, Value.elems] at hb ⊢
      rcases w4.2 with hfm | ⟨hstr, hfm⟩
      · have hre : readElem l.ty buf = readElem w.ty buf := by
          rcases w3 with h | ⟨_, _, h⟩
          · rw [h]
          · rw [h, readElem_signed]
        obtain ⟨rest, rfl⟩ := hb
        simp only [readLeaf, hfm, hre]
        rw [show writeElems w.ty [e] = writeElem w.ty e by simp [writeElems],
          readElem_write w.ty e hfit]
        rfl
      · have hty : l.ty = w.ty := by
          rcases w3 with h | ⟨_, h, _⟩
          · exact h
          · exact absurd hstr (int_not_str h)
        rw [hfm] at hso
        simp only at hso
        simp only [readLeaf, hfm, hty]
        rw [readArray_write w.ty old.elems [e] buf (by simpa using hso)
          (fun y hy => by simp at hy; subst hy; exact hfit) hb]
        rfl
  | arr dims =>
    rw [hf] at hfit w4
    cases x with
    | val e => exact absurd hfit (by simp)
    | list es =>
      simp only at hfit w4
      simp only [seen, hf, Value.elems] at hb ⊢
      have hty : l.ty = w.ty := by
        rcases w3 with h | ⟨h, _, _⟩
        · exact h
        · rw [hf] at h; exact absurd h (by simp)
      rw [w4.2] at hso
      simp only at hso
      simp only [readLeaf, w4.2, hty]
      rw [readArray_write w.ty old.elems es buf (by rw [hso, hfit.1]) hfit.2 hb]
      rfl
  | sli c =>
    rw [hf] at hfit w4
    cases x with
    | val e => exact absurd hfit (by simp)
    | list es =>
      simp only at hfit w4
      obtain ⟨a1, a2, q, a3, a4, a5⟩ := w4
      have hty : l.ty = w.ty := by
        rcases w3 with h | ⟨h, _, _⟩
        · exact h
        · rw [hf] at h; exact absurd h (by simp)
      -- the count
      obtain ⟨lc, vc, xc, b1, b2, b3, b4⟩ := hc q a4
      rw [List.findIdx?_eq_some_iff_getElem] at a5
      obtain ⟨hql, hqn, _⟩ := a5
      have hlcn : lc.name = c := by
        have : lvs[q]? = some lvs[q] := List.getElem?_eq_getElem hql
        rw [b1] at this; cases this; simpa using hqn
      have hvcm := (List.of_mem_zip b2).1
      obtain ⟨i, hi, hwi⟩ := List.getElem_of_mem hvm
      obtain ⟨j, vc', c1, c2, c3, c4, c5, c6⟩ := hok.sli i w c
        (by rw [← hwi]; exact List.getElem?_eq_getElem hi) hf
      have hvv : vc' = vc := var_unique hok.nodup (List.mem_of_getElem? c2) hvcm
        (by rw [c3, b3, hlcn])
      subst hvv
      have hfc := hrow.2 (vc', xc) b2
      unfold FitsVar at hfc
      simp only [c4] at hfc
      cases xc with
      | list es' => exact absurd hfc (by simp)
      | val e =>
        simp only at hfc
        cases e with
        | bool b => exact absurd hfc (int_not_bool c5)
        | str s => exact absurd hfc.1 (int_not_str c5)
        | word n =>
          have hn : countVal vars row c = n := by
            rw [← c3]; exact countVal_mem hok.nodup b2
          have hsm : n < 2 ^ (8 * vc'.ty.width - 1) := by
            rw [← hn]; exact hfit.2.2 vc' hvcm c3
          have hst : st[q]? = some (.val (.word n)) := by
            rw [b4]; simp [seen, c4]
          obtain ⟨w', w1', w2', w3', _⟩ := hr q lc b1
          have hww : w' = vc' := var_unique hok.nodup w1' hvcm (by rw [← w2', b3])
          subst hww
          have hrc : rcount lvs st q = some (n : Int) := by
            simp only [rcount, b1, hst]
            rw [signed_of_signed c5 hsm (by
              rcases w3' with h | ⟨_, _, h⟩
              · exact Or.inl h
              · exact Or.inr h)]
          simp only [seen, hf, Value.elems, hn] at hb ⊢
          have hle := hfit.2.1
          rw [hn] at hle
          simp only [readLeaf, a1, a4, Option.bind_some, hrc, a2, hty]
          rw [if_pos (by simp)]
          have htn : ((1 : Nat) : Int) * (n : Int) = (n : Int) := by simp
          rw [htn, Int.toNat_natCast, readArray_write w.ty _ (es.take n) buf ?_ ?_ hb]
          · rfl
          · simp only [resize, List.length_take, List.length_append, List.length_replicate]; omega
          · exact fun y hy => hfit.1 y (List.mem_of_mem_take hy)

theorem elems_seen_length {vars : List Var} {row : List Value} (hrow : RowOK vars row)
    {lvs : List RLeaf} {p : Nat} {v : Var} {l : RLeaf} {x : Value}
    (hr : RFor lvs p v l) (hvx : (v, x) ∈ vars.zip row) :
    match l.form with
    | .arr n => (seen vars row v x).elems.length = n
    | .one => (seen vars row v x).elems.length = 1
    | _ => True := by
  obtain ⟨w2, w3, w4⟩ := hr
  have hfit := hrow.2 (v, x) hvx
  unfold FitsVar at hfit
  simp only at hfit
  cases hf : v.form with
  | val =>
    rw [hf] at hfit w4
    cases x with
    | list es => exact absurd hfit (by simp)
    | val e =>
      rcases w4.2 with h | ⟨_, h⟩
      · rw [h]; trivial
      · rw [h]; simp [seen, hf, Value.elems]
  | arr dims =>
    rw [hf] at hfit w4
    cases x with
    | val e => exact absurd hfit (by simp)
    | list es => rw [w4.2]; simp only [seen, hf, Value.elems]; exact hfit.1
  | sli c =>
    rw [hf] at w4
    rw [w4.1]; trivial

theorem shaped_set {vars : List Var} {row : List Value} (hok : VarsOK vars)
    (hrow : RowOK vars row) {lvs : List RLeaf} (hr : RdInv vars lvs) {st : List Value}
    (hsh : Shaped lvs st) {p : Nat} {l : RLeaf} {v : Var} {x : Value}
    (hl : lvs[p]? = some l) (hvx : (v, x) ∈ vars.zip row) (hvn : v.name = l.name) :
    Shaped lvs (st.set p (seen vars row v x)) := by
  refine ⟨by simp [hsh.1], ?_⟩
  intro q m y hm hy
  by_cases hpq : p = q
  · subst hpq
    have hlt : p < st.length := by rw [hsh.1]; exact (List.getElem?_eq_some_iff.mp hl).1
    rw [List.getElem?_set_self hlt] at hy
    rw [hl] at hm
    cases hm; cases hy
    obtain ⟨w, w1, w2⟩ := hr p l hl
    have : w = v := var_unique hok.nodup w1 (List.of_mem_zip hvx).1 (by rw [← w2.1, hvn])
    subst this
    exact elems_seen_length hrow w2 hvx
  · rw [List.getElem?_set_ne hpq] at hy
    exact hsh.2 q m y hm hy

theorem good_set {vars : List Var} {row : List Value} {lvs : List RLeaf} {st : List Value}
    (hlen : st.length = lvs.length) {p q : Nat} {l : RLeaf} {v : Var} {x : Value}
    (hl : lvs[p]? = some l) (hvx : (v, x) ∈ vars.zip row) (hvn : v.name = l.name)
    (hq : q = p ∨ Good vars row lvs st q) :
    Good vars row lvs (st.set p (seen vars row v x)) q := by
  by_cases hpq : p = q
  · subst hpq
    have hlt : p < st.length := by rw [hlen]; exact (List.getElem?_eq_some_iff.mp hl).1
    exact ⟨l, v, x, hl, hvx, hvn, List.getElem?_set_self hlt⟩
  · rcases hq with h | ⟨l', v', x', h1, h2, h3, h4⟩
    · exact absurd h.symm hpq
    · exact ⟨l', v', x', h1, h2, h3, by rw [List.getElem?_set_ne hpq]; exact h4⟩

/-- The buffer of a branch holds the value of the variable of that name. -/
def Holds (vars : List Var) (row : List Value) (b : Name) (buf : Bytes) : Prop :=
  ∃ v x, (v, x) ∈ vars.zip row ∧ v.name = b ∧
    writeElems v.ty (seen vars row v x).elems <+: buf

theorem readGroup_ok {vars : List Var} {row : List Value} (hok : VarsOK vars)
    (hrow : RowOK vars row) {lvs : List RLeaf} (hr : RdInv vars lvs) {b : Name} {buf : Bytes}
    (hb : Holds vars row b buf) (ps : List Nat)
    (hps : ∀ p ∈ ps, ∃ l, lvs[p]? = some l ∧ l.name = b) (done rest : List Nat)
    (st : List Value) (hsh : Shaped lvs st) (hord : Ord lvs done (ps ++ rest))
    (hg : ∀ q ∈ done, Good vars row lvs st q) :
    ∃ st' done', readGroup lvs buf ps st = some st' ∧ Shaped lvs st' ∧ Ord lvs done' rest ∧
      (∀ q ∈ done', Good vars row lvs st' q) ∧ (∀ q ∈ ps, q ∈ done') ∧ ∀ q ∈ done, q ∈ done' := by
  induction ps generalizing done st with
  | nil =>
    exact ⟨st, done, rfl, hsh, hord, hg, fun q hq => absurd hq (by simp), fun q hq => hq⟩
  | cons p ps ih =>
    obtain ⟨l, hl, hlb⟩ := hps p (by simp)
    obtain ⟨v, x, hvx, hvb, hpre⟩ := hb
    have hvn : v.name = l.name := by rw [hvb, hlb]
    have hlt : p < st.length := by rw [hsh.1]; exact (List.getElem?_eq_some_iff.mp hl).1
    have ho : st[p]? = some st[p] := List.getElem?_eq_getElem hlt
    have h1 := readLeaf_ok hok hrow hr hsh hl ho hvx hvn
      (fun q hq => hg q (hord.1 l q hl hq)) hpre
    obtain ⟨st', done', e1, e2, e3, e4, e5, e6⟩ := ih (fun p' hp' => hps p' (by simp [hp']))
      (p :: done) (st.set p (seen vars row v x))
      (shaped_set hok hrow hr hsh hl hvx hvn) hord.2
      (fun q hq => good_set hsh.1 hl hvx hvn (by
        rcases List.mem_cons.mp hq with h | h
        · exact Or.inl h
        · exact Or.inr (hg q h)))
    refine ⟨st', done', ?_, e2, e3, e4, ?_, fun q hq => e6 q (by simp [hq])⟩
    · simp only [readGroup, hl, ho, h1]; exact e1
    · intro q hq
      rcases List.mem_cons.mp hq with rfl | hq
      · exact e6 q (by simp)
      · exact e5 q hq

theorem readEntry_ok {vars : List Var} {row : List Value} (hok : VarsOK vars)
    (hrow : RowOK vars row) {lvs : List RLeaf} (hr : RdInv vars lvs)
    (gs : List (Name × List Nat)) (bufs : List Bytes)
    (hgs : ∀ g ∈ gs, ∀ p ∈ g.2, ∃ l, lvs[p]? = some l ∧ l.name = g.1)
    (hb : All2 (fun g b => Holds vars row g.1 b) gs bufs) (done : List Nat)
    (st : List Value) (hsh : Shaped lvs st) (hord : Ord lvs done (seqOf gs))
    (hg : ∀ q ∈ done, Good vars row lvs st q) :
    ∃ st', readEntry lvs gs bufs st = some st' ∧ Shaped lvs st' ∧
      (∀ q ∈ seqOf gs, Good vars row lvs st' q) ∧ ∀ q ∈ done, Good vars row lvs st' q := by
  induction gs generalizing bufs done st with
  | nil =>
    cases bufs with
    | nil => exact ⟨st, rfl, hsh, fun q hq => absurd hq (by simp [seqOf]), hg⟩
    | cons => exact absurd hb (by simp [All2])
  | cons g gs ih =>
    cases bufs with
    | nil => exact absurd hb (by simp [All2])
    | cons b bufs =>
      obtain ⟨st1, done1, e1, e2, e3, e4, e5, e6⟩ := readGroup_ok hok hrow hr hb.1 g.2
        (hgs g (by simp)) done (seqOf gs) st hsh hord hg
      obtain ⟨st2, f1, f2, f3, f4⟩ := ih bufs (fun g' hg' => hgs g' (by simp [hg'])) hb.2 done1 st1
        e2 e3 e4
      refine ⟨st2, ?_, f2, ?_, fun q hq => f4 q (e6 q hq)⟩
      · simp only [readEntry, e1]; exact f1
      · intro q hq
        rw [show seqOf (g :: gs) = g.2 ++ seqOf gs from rfl] at hq
        rcases List.mem_append.mp hq with hq | hq
        · exact f4 q (e5 q hq)
        · exact f3 q hq

/-! ## Entries -/

theorem zero_shaped (lvs : List RLeaf) : Shaped lvs (lvs.map RLeaf.zero) := by
  refine ⟨by simp, ?_⟩
  intro p l y hl hy
  rw [List.getElem?_map, hl] at hy
  simp only [Option.map_some, Option.some.injEq] at hy
  subst hy
  cases hf : l.form <;> simp [RLeaf.zero, hf, Value.elems]

theorem readEntries_ok {vars : List Var} (hok : VarsOK vars) {lvs : List RLeaf}
    (hr : RdInv vars lvs) (hid sel : List Name) (hnm : lvs.map (·.name) = hid ++ sel)
    (rows : List (List Value)) (hrows : ∀ row ∈ rows, RowOK vars row)
    (out : List (Nat × List Bytes))
    (hout : All2 (fun row (o : Nat × List Bytes) =>
      All2 (fun g b => Holds vars row g.1 b) (groupsFrom [] 0 lvs) o.2) rows out)
    (st : List Value) (hsh : Shaped lvs st) :
    readEntries lvs (groupsFrom [] 0 lvs) hid.length out st =
      some (List.zipWith (fun o row => (o.1, sel.map (lookup vars row))) out rows) := by
  have hgi := groups_inv hok hr
  induction rows generalizing out st with
  | nil =>
    cases out with
    | nil => rfl
    | cons => exact absurd hout (by simp [All2])
  | cons row rows ih =>
    cases out with
    | nil => exact absurd hout (by simp [All2])
    | cons o out =>
      obtain ⟨st', e1, e2, e3, _⟩ := readEntry_ok hok (hrows row (by simp)) hr _ o.2
        (fun g hg p hp => (hgi.named g hg p hp).2) hout.1 [] st hsh hgi.ord
        (fun q hq => absurd hq (by simp))
      have hval : st'.drop hid.length = sel.map (lookup vars row) := by
        apply List.ext_getElem?
        intro k
        rw [List.getElem?_drop, List.getElem?_map]
        by_cases hk : k < sel.length
        · have hlv : hid.length + k < lvs.length := by
            have := congrArg List.length hnm
            simp only [List.length_map, List.length_append] at this; omega
          obtain ⟨l, v, x, g1, g2, g3, g4⟩ := e3 _ (hgi.all _ hlv)
          have hl : (lvs.map (·.name))[hid.length + k]? = some l.name := by
            rw [List.getElem?_map, g1]; rfl
          rw [hnm, List.getElem?_append_right (by omega), Nat.add_sub_cancel_left] at hl
          rw [g4, hl, Option.map_some, ← g3, lookup_mem hok.nodup g2]
        · rw [List.getElem?_eq_none (by
            have := congrArg List.length hnm
            simp only [List.length_map, List.length_append] at this
            rw [e2.1]; omega), List.getElem?_eq_none (by omega)]
          rfl
      simp only [readEntries, e1, List.zipWith_cons_cons]
      rw [ih (fun r hr => hrows r (by simp [hr])) out hout.2 st' e2, hval]
      rfl

/-! ## The branches of the variables asked for -/

theorem All2.at {α β : Type} {R : α → β → Prop} {l : List α} {m : List β} (h : All2 R l m)
    {i : Nat} {b : β} (hb : m[i]? = some b) : ∃ a, l[i]? = some a ∧ R a b := by
  induction l generalizing m i with
  | nil =>
    cases m with
    | nil => simp at hb
    | cons => exact absurd h (by simp [All2])
  | cons x l ih =>
    cases m with
    | nil => simp at hb
    | cons y m =>
      cases i with
      | zero => simp only [List.getElem?_cons_zero, Option.some.injEq] at hb; subst hb
                exact ⟨x, rfl, h.1⟩
      | succ i => exact ih h.2 (by simpa using hb)

theorem All2.map_right {α β γ : Type} {R : α → γ → Prop} {g : β → γ} {l : List α} {m : List β}
    (h : All2 (fun a b => R a (g b)) l m) : All2 R l (m.map g) := by
  induction l generalizing m with
  | nil =>
    cases m with
    | nil => trivial
    | cons => exact absurd h (by simp [All2])
  | cons x l ih =>
    cases m with
    | nil => exact absurd h (by simp [All2])
    | cons y m => exact ⟨h.1, ih h.2⟩

theorem All2.trans {α β γ : Type} {R : α → β → Prop} {S : β → γ → Prop} {T : α → γ → Prop}
    (hT : ∀ a b c, R a b → S b c → T a c) {l : List α} {m : List β} {n : List γ}
    (h1 : All2 R l m) (h2 : All2 S m n) : All2 T l n := by
  induction l generalizing m n with
  | nil =>
    cases m with
    | nil => cases n with
      | nil => trivial
      | cons => exact absurd h2 (by simp [All2])
    | cons => exact absurd h1 (by simp [All2])
  | cons x l ih =>
    cases m with
    | nil => exact absurd h1 (by simp [All2])
    | cons y m =>
      cases n with
      | nil => exact absurd h2 (by simp [All2])
      | cons z n => exact ⟨hT _ _ _ h1.1 h2.1, ih h1.2 h2.2⟩

theorem select_tables {vars : List Var} (hok : VarsOK vars) {ls : List WLeaf} (hw : WInv vars ls)
    {f : File} {ts : List Tables} {cols : List (List Bytes)} (hlen : cols.length = vars.length)
    (ht : All2 (fun t es => ∃ k, TabInv f k t es) ts cols) (gs : List (Name × List Nat))
    (hg : ∀ g ∈ gs, ∃ v ∈ vars, v.name = g.1) :
    ∃ rts cs, gs.mapM (fun g => tableOf (descs ls) ts g.1) = some rts ∧
      All2 (fun t es => ∃ k, TabInv f k t es) rts cs ∧
      All2 (fun g c => ∃ (i : Nat) (v : Var), vars[i]? = some v ∧ v.name = g.1 ∧
        cols[i]? = some c) gs cs := by
  induction gs with
  | nil => exact ⟨[], [], rfl, trivial, trivial⟩
  | cons g gs ih =>
    obtain ⟨rts, cs, e1, e2, e3⟩ := ih fun g' hg' => hg g' (by simp [hg'])
    obtain ⟨v, v1, v2⟩ := hg g (by simp)
    obtain ⟨i, hi, hv⟩ := List.getElem_of_mem v1
    have hv' : vars[i]? = some v := by rw [← hv]; exact List.getElem?_eq_getElem hi
    have hc : cols[i]? = some cols[i] := List.getElem?_eq_getElem (by omega)
    obtain ⟨t, t1, t2⟩ := All2.at ht hc
    refine ⟨t :: rts, cols[i] :: cs, ?_, ⟨t2, e2⟩, ⟨i, v, hv', v2, hc⟩, e3⟩
    have : tableOf (descs ls) ts g.1 = some t := by
      unfold tableOf
      rw [← v2, findIdx_desc hok hw hv']
      exact t1
    rw [List.mapM_cons, this, e1]
    rfl

/-- The rows of some columns. -/
theorem cols_of (cs : List (List Bytes)) (n : Nat) (hn : ∀ c ∈ cs, c.length = n) :
    Cols ((List.range n).map fun k => cs.map fun c => c.getD k []) cs := by
  refine ⟨fun c hc => by simp [hn c hc], ?_⟩
  intro k row hrow
  have hlt : k < n := by
    have := (List.getElem?_eq_some_iff.mp hrow).1; simpa using this
  rw [List.getElem?_map, List.getElem?_range hlt, Option.map_some, Option.some.injEq] at hrow
  subst hrow
  rw [List.map_map]
  apply List.map_congr_left
  intro c hc
  have : k < c.length := by rw [hn c hc]; exact hlt
  simp [List.getElem?_eq_getElem this]

theorem rowBytes_get {vars : List Var} {row : List Value} (hrow : row.length = vars.length)
    {i : Nat} {v : Var} (hv : vars[i]? = some v) :
    ∃ x, (v, x) ∈ vars.zip row ∧
      (rowBytes vars row)[i]? = some (writeElems v.ty (seen vars row v x).elems) := by
  have hi := (List.getElem?_eq_some_iff.mp hv).1
  have hx : row[i]? = some row[i] := List.getElem?_eq_getElem (by omega)
  have hz : (vars.zip row)[i]? = some (v, row[i]) := by
    rw [List.getElem?_zip_eq_some]; exact ⟨hv, hx⟩
  refine ⟨row[i], List.mem_of_getElem? hz, ?_⟩
  simp only [rowBytes, List.getElem?_map, hz, Option.map_some]

theorem rowBytes_length {vars : List Var} {row : List Value} (hrow : row.length = vars.length) :
    (rowBytes vars row).length = vars.length := by
  simp [rowBytes, hrow]

/-- What a branch holds fits its configuration. -/
theorem colFits_row {vars : List Var} (hok : VarsOK vars) {row : List Value}
    (hrow : RowOK vars row) {conf : List Conf} (hk : conf.map (·.1) = vars.map Var.kind)
    (hs : All2 (fun (c : Conf) (e : Bytes) => c.2.1 + 8 + c.2.2.toNat + e.length < 2 ^ 31) conf
      (rowBytes vars row)) : All2 ColFits conf (rowBytes vars row) := by
  refine All2.of_get (All2.length hs) ?_
  intro i c e hc he
  refine ⟨?_, All2.get hs hc he⟩
  intro n hn
  have hcl : conf.length = vars.length := by simpa using congrArg List.length hk
  have hi : i < vars.length := by rw [← hcl]; exact (List.getElem?_eq_some_iff.mp hc).1
  have hv : vars[i]? = some vars[i] := List.getElem?_eq_getElem hi
  obtain ⟨x, x1, x2⟩ := rowBytes_get hrow.1 hv
  rw [x2] at he
  cases he
  have hkk := congrArg (fun l => l[i]?) hk
  simp only [List.getElem?_map, hc, hv, Option.map_some, Option.some.injEq] at hkk
  exact C145_size vars hok row hrow _ x x1 n (by rw [← hkk, hn])

theorem Delivered.all {rows : List (List Bytes)} {R : Nat → List Bytes → Prop} {i : Nat}
    {out : List (Nat × List Bytes)} (h : Delivered rows 0 i out)
    (hR : ∀ (k : Nat) row bufs, rows[k]? = some row → All2 (fun e v => e <+: v) row bufs →
      R k bufs) :
    ∀ (n : Nat) o, out[n]? = some o → o.1 = i + n ∧ R (i + n) o.2 := by
  intro n o ho
  obtain ⟨h1, row, h2, h3⟩ := delivered_get h n o ho
  exact ⟨by omega, hR _ _ _ h2 h3⟩

/-- **C145.**  Write rows of values to the variables of a tree, numbers, booleans, strings, arrays
and slices with a count, whatever the sizes of the baskets, whatever else is written to the file in
between, and however well the baskets compress.  Close the writer, open the tree again and read
any of the variables over the entries `[beg, fin)`.  Then reading succeeds, the callback is called
once for every entry, in order, with its number, and the variables hold the values written for
that entry: all of them, or as many elements of a slice as its count says. -/
theorem C145_values_partial (vars : List Var) (hok : VarsOK vars) (rows : List (List Value))
    (hrows : ∀ row ∈ rows, RowOK vars row) (ls0 ls : List WLeaf) (bytes : List (List Bytes))
    (hl0 : newLeaves [] vars = some ls0) (hwr : writeRows ls0 rows = some (bytes, ls))
    (z : Bytes → Bytes) (conf : List Conf) (f0 : File) (ops : List Op)
    (hops : rowsOf ops = bytes) (hk : conf.map (·.1) = vars.map Var.kind) (hconf : ConfOk conf)
    (hf0 : ∀ p s, f0.disk p = some s → p < f0.fend)
    (hsize : ∀ row ∈ bytes, All2 (fun (c : Conf) (e : Bytes) =>
      c.2.1 + 8 + c.2.2.toNat + e.length < 2 ^ 31) conf row)
    (hcnt : rows.length + 1 < 2 ^ 31) (s : List Branch × File) (ts : List Tables) (f1 f : File)
    (hw : steps z ops (newWriter conf f0, f0) = some s)
    (hc : closeTree z s = some (ts, f1)) (hlater : Later f1 f)
    (sel : List Name) (hsel : SelOK vars sel)
    (beg fin : Nat) (hbf : beg ≤ fin) (hfin : fin ≤ rows.length) :
    readVars f (descs ls) ts sel beg fin =
      some (((rows.drop beg).take (fin - beg)).mapIdx fun n row =>
        (beg + n, sel.map (lookup vars row))) := by
  obtain ⟨l0, l1, w1, w2, hwi⟩ := C145_write vars hok rows hrows
  rw [hl0] at w1; cases w1
  rw [hwr] at w2; cases w2
  have hcl : conf.length = vars.length := by simpa using congrArg List.length hk
  have hrl : (rowsOf ops).length = rows.length := by rw [hops]; simp
  obtain ⟨cols, c1, c2, c3⟩ := written_tables_len z conf f0 ops s ts f1 f hconf hf0
    (by
      rw [hops]
      intro r hr
      obtain ⟨row, hrow, rfl⟩ := List.mem_map.mp hr
      exact colFits_row hok (hrows row hrow) hk (hsize _ hr))
    (by rw [hrl]; exact hcnt) hw hc hlater
  -- the leaves of the reader
  obtain ⟨lvs, v1, v2, v3⟩ := newRLeaves_inv hok hwi (withCounts (descs ls) sel) []
    (fun p l h => by simp at h) (by simpa using pending_sel hok hwi hsel)
  have hnm : lvs.map (·.name) =
      (sel.filterMap (hiddenOf (descs ls) sel)).map (·.1) ++ sel := by
    rw [v3, withCounts]; simp [List.map_map, Function.comp_def]
  have hhid : lvs.length - sel.length =
      ((sel.filterMap (hiddenOf (descs ls) sel)).map (·.1)).length := by
    have := congrArg List.length hnm
    simp only [List.length_map, List.length_append] at this ⊢
    omega
  have hgi := groups_inv hok v2
  have hgv : ∀ g ∈ groupsFrom [] 0 lvs, ∃ v ∈ vars, v.name = g.1 := by
    intro g hg
    obtain ⟨p, hp⟩ := List.exists_mem_of_ne_nil _ (hgi.full g hg)
    obtain ⟨_, l, l1, l2⟩ := hgi.named g hg p hp
    obtain ⟨v, a1, a2⟩ := v2 p l l1
    exact ⟨v, a1, by rw [← a2.1, l2]⟩
  -- their branches
  obtain ⟨rts, cs, t1, t2, t3⟩ := select_tables hok hwi (by rw [c3, hcl]) c2 _ hgv
  have hcs : ∀ c ∈ cs, c.length = rows.length := by
    intro c hc
    obtain ⟨k, hk⟩ := List.getElem?_of_mem hc
    obtain ⟨g, _, i, v, _, _, h3⟩ := All2.at t3 hk
    rw [c1.1 c (List.mem_of_getElem? h3), hrl]
  have hco := cols_of cs rows.length hcs
  obtain ⟨rbs, b1, b2⟩ := openAll_inv (fin := fin) t2 hbf (fun c hc => by rw [hcs c hc]; exact hfin)
  obtain ⟨rbs', s1, s2⟩ := startAll_inv b2
  obtain ⟨out, o1, o2, o3⟩ := runLoop_inv (off := 0) hco (by simpa using hfin) (n := fin - beg)
    (i := beg) (by omega) (s2.imp (fun h => by omega) id)
  have hread : readTree f rts 0 beg fin = some out := by
    unfold readTree; rw [b1]; dsimp only; rw [s1]; exact o1
  -- what they hold
  have hhold := Delivered.all (R := fun k bufs => ∀ row, rows[k]? = some row →
      All2 (fun g b => Holds vars row g.1 b) (groupsFrom [] 0 lvs) bufs) o3 (by
    intro k brow bufs hbrow hpre row hrow
    have hkl : k < rows.length := (List.getElem?_eq_some_iff.mp hrow).1
    rw [List.getElem?_map, List.getElem?_range hkl, Option.map_some, Option.some.injEq] at hbrow
    subst hbrow
    refine All2.trans (R := fun g e => ∃ v x, (v, x) ∈ vars.zip row ∧ v.name = g.1 ∧
      writeElems v.ty (seen vars row v x).elems = e) ?_ (All2.map_right (t3.imp ?_)) hpre
    · intro g e b ⟨v, x, h1, h2, h3⟩ hb
      exact ⟨v, x, h1, h2, by rw [h3]; exact hb⟩
    · intro g c ⟨i, v, h1, h2, h3⟩
      have hr := hrows row (List.mem_of_getElem? hrow)
      obtain ⟨x, x1, x2⟩ := rowBytes_get hr.1 h1
      refine ⟨v, x, x1, h2, ?_⟩
      have hcr := c1.2 k (rowBytes vars row) (by rw [hops, List.getElem?_map, hrow]; rfl)
      have := congrArg (fun l => l[i]?) hcr
      simp only [List.getElem?_map, h3, x2, Option.map_some, Option.some.injEq] at this
      simp [this])
  have hsub : ∀ n, ((rows.drop beg).take (fin - beg))[n]? =
      if n < fin - beg then rows[beg + n]? else none := by
    intro n
    rw [List.getElem?_take, List.getElem?_drop]
  have hsl : ((rows.drop beg).take (fin - beg)).length = fin - beg := by
    simp only [List.length_take, List.length_drop]; omega
  have hfinal := readEntries_ok hok v2 _ sel hnm ((rows.drop beg).take (fin - beg))
    (fun row hr => hrows row (List.mem_of_mem_drop (List.mem_of_mem_take hr))) out
    (All2.of_get (by rw [hsl, o2]) (by
      intro n row o hr ho
      have hn : n < fin - beg := by rw [← o2]; exact (List.getElem?_eq_some_iff.mp ho).1
      rw [hsub, if_pos hn] at hr
      exact (hhold n o ho).2 row hr)) (lvs.map RLeaf.zero) (zero_shaped lvs)
  unfold readVars
  rw [v1]
  dsimp only
  rw [t1]
  dsimp only
  rw [hread]
  dsimp only
  rw [hhid, hfinal]
  congr 1
  apply List.ext_getElem?
  intro n
  rw [List.getElem?_mapIdx, List.getElem?_zipWith]
  cases ho : out[n]? with
  | none =>
    have : fin - beg ≤ n := by rw [← o2]; exact List.getElem?_eq_none_iff.mp ho
    rw [hsub, if_neg (by omega)]; rfl
  | some o =>
    have hn : n < fin - beg := by rw [← o2]; exact (List.getElem?_eq_some_iff.mp ho).1
    have hr : rows[beg + n]? = some rows[beg + n] := List.getElem?_eq_getElem (by omega)
    rw [hsub, if_pos hn, hr]
    simp [(hhold n o ho).1]

end Verif.RTree.Leaf
