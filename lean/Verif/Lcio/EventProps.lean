import Verif.Lcio.EventLink

/-!
# Events and files of `lcio` are read as they were written
-/

namespace Verif.Lcio

open Verif.Sio (Bytes Blk Rec Blocks Cfg Op PBlk)

/-! ## Writing -/

/-- A call, as in `Verif.Sio`. -/
def toOp : Sio.WOp Ref → Op Ref Unit Unit
  | .tag k => .tag k ()
  | .ptr k => .ptr k ()
  | .data b => .data b

theorem toOp_w (w : Ws) : (w.map toOp).map Op.w = w := by
  induction w with
  | nil => rfl
  | cons o w ih => cases o <;> simp [toOp, Op.w] <;> simpa using ih

theorem flat_toOp (id : Ref → Nat) (w : Ws) : Sio.flat id (w.map toOp) = bytes id w := by
  induction w with
  | nil => rfl
  | cons o w ih => cases o <;> simp only [List.map_cons, toOp, Sio.flat, bytes, ih]

theorem mentions_tagged {w : Ws} {k : Ref} (h : k ∈ tagged w) : Sio.Mentions (w.map toOp) k := by
  left
  refine ⟨(), ?_⟩
  induction w with
  | nil => simp [tagged] at h
  | cons o w ih =>
    cases o with
    | tag k' =>
      simp only [tagged, List.mem_cons] at h
      rcases h with rfl | h
      · exact List.mem_cons_self ..
      · exact List.mem_cons_of_mem _ (ih h)
    | ptr k' => exact List.mem_cons_of_mem _ (ih h)
    | data d => exact List.mem_cons_of_mem _ (ih h)

/-- A block with its calls. -/
def toP (x : Str × Ws) : PBlk Ref Unit Unit := ⟨version.toNat, x.1, x.2.map toOp⟩

theorem marshal_toP (w : Sio.Writer Ref) (l : List (Str × Ws)) : marshal w l = Sio.marshal w (l.map toP) := by
  induction l generalizing w with
  | nil => rfl
  | cons x l ih =>
    rw [marshal, List.map_cons, Sio.marshal, toP, toOp_w]
    cases Sio.write w x.2 with
    | none => rfl
    | some p => obtain ⟨d, w'⟩ := p; simp only []; rw [ih]

/-- A block written with given identifiers. -/
def blkOf (id : Ref → Nat) (x : Str × Ws) : Blk := ⟨version.toNat, x.1, bytes id x.2⟩

theorem marshal_blocks {l : List (Str × Ws)} {bs : List Blk} {w : Sio.Writer Ref}
    (h : marshal Sio.Writer.new l = some (bs, w)) :
    w.Inv ∧ (∀ k ∈ l.flatMap fun x => tagged x.2, ∃ i, w.tags.lookup k = some i) ∧ bs = l.map (blkOf w.id) := by
  rw [marshal_toP] at h
  obtain ⟨h1, -, h3, h4⟩ := Sio.marshal_spec _ Sio.Writer.new_inv h
  refine ⟨h1, ?_, ?_⟩
  · intro k hk
    refine h3 k ?_
    rw [List.mem_flatMap] at hk
    obtain ⟨x, hx, hk⟩ := hk
    rcases mentions_tagged hk with ⟨o, ho⟩ | ⟨o, ho⟩
    · exact .inl ⟨o, List.mem_flatMap.2 ⟨toP x, List.mem_map_of_mem hx, ho⟩⟩
    · exact .inr ⟨o, List.mem_flatMap.2 ⟨toP x, List.mem_map_of_mem hx, ho⟩⟩
  · rw [h4, List.map_map]
    refine List.map_congr_left fun x _ => ?_
    show (⟨version.toNat, x.1, Sio.flat w.id (x.2.map toOp)⟩ : Blk) = ⟨version.toNat, x.1, _⟩
    rw [flat_toOp]

theorem id_small {w : Sio.Writer Ref} (h : w.Inv) (k : Ref) : w.id k < 2 ^ 32 - 1 := by
  cases hk : w.tags.lookup k with
  | none => unfold Sio.Writer.id; rw [hk]; decide
  | some i => exact (Sio.Writer.id_range h hk).2

/-! ## Reading blocks -/

/-- A connected block with what it does. -/
structure Act where
  name : Str
  ws : Ws
  eff : St → St

theorem read_acts (um : Blocks St) (fin : List (Bytes × Nat) → St → Option St) (id : Ref → Nat) (L : List Act)
    (hu : ∀ a ∈ L, ∃ f, um a.name = some f ∧ ∀ st rest, f st version.toNat (bytes id a.ws ++ rest) = some (a.eff st, rest))
    (hb : ∀ a ∈ L, (blkOf id (a.name, a.ws)).Fits) (st st' : St)
    (hf : fin (L.map fun a => (a.name, version.toNat)) (L.foldl (fun st a => a.eff st) st) = some st') :
    Sio.readBlocks um fin st (Sio.encBlks (L.map fun a => blkOf id (a.name, a.ws))) = .ok st' := by
  let step : Blk → St → St := fun b st =>
    match um b.name with
    | some f => ((f st b.version b.data).map (·.1)).getD st
    | none => st
  have hstep : ∀ a ∈ L, ∀ st, step (blkOf id (a.name, a.ws)) st = a.eff st := by
    intro a ha st
    obtain ⟨f, h1, h2⟩ := hu a ha
    show step (blkOf id (a.name, a.ws)) st = _
    simp only [step, blkOf, h1]
    have := h2 st []
    rw [List.append_nil] at this
    rw [this]; rfl
  have hcon : Sio.connected um (L.map fun a => blkOf id (a.name, a.ws)) = L.map fun a => blkOf id (a.name, a.ws) := by
    unfold Sio.connected
    rw [List.filter_eq_self]
    intro b hb
    obtain ⟨a, ha, rfl⟩ := List.mem_map.1 hb
    obtain ⟨f, h1, -⟩ := hu a ha
    show (um a.name).isSome = true
    rw [h1]; rfl
  refine Sio.C36_blocks_partial um fin step _ ?_ ?_ ?_ st st' ?_
  · intro b h
    obtain ⟨a, ha, rfl⟩ := List.mem_map.1 h
    exact hb a ha
  · intro b h f hf' st rest
    obtain ⟨a, ha, rfl⟩ := List.mem_map.1 h
    obtain ⟨f', h1, h2⟩ := hu a ha
    have : f' = f := by
      have : some f' = some f := h1.symm.trans hf'
      simpa using this
    subst this
    rw [hstep a ha]
    exact h2 st rest
  · intro b h hno
    obtain ⟨a, ha, rfl⟩ := List.mem_map.1 h
    obtain ⟨f, h1, -⟩ := hu a ha
    exact absurd (h1.symm.trans hno) (by simp)
  · have e1 : Sio.labels um (L.map fun a => blkOf id (a.name, a.ws)) = L.map fun a => (a.name, version.toNat) := by
      unfold Sio.labels
      rw [hcon, List.map_map]; rfl
    have e2 : ∀ (M : List Act), (∀ a ∈ M, a ∈ L) → ∀ st,
        (M.map fun a => blkOf id (a.name, a.ws)).foldl (fun st b => step b st) st = M.foldl (fun st a => a.eff st) st := by
      intro M
      induction M with
      | nil => intro _ st; rfl
      | cons a M ih =>
        intro h st
        rw [List.map_cons, List.foldl_cons, List.foldl_cons, hstep a (h a (List.mem_cons_self ..))]
        exact ih (fun x hx => h x (List.mem_cons_of_mem _ hx)) _
    rw [e1]
    unfold Sio.after
    rw [hcon, e2 L (fun _ h => h)]
    exact hf

theorem block_reads {α : Type} {p : Nat → St → Rd α} {upd : St → α → St} {id : Ref → Nat} {w : Ws} {v : α}
    (h : ∀ st, Reads id (p 2008 st) w v) (st : St) (rest : Bytes) :
    block p upd st version.toNat (bytes id w ++ rest) =
      some ({ upd st v with tags := st.tags ++ (tagged w).map fun k => (k, id k) }, rest) := by
  unfold block
  have : versionSio (BitVec.ofNat 32 version.toNat) = 2008 := by decide
  rw [this, h st rest st.tags]

/-! ## Headers -/

section
variable {id : Ref → Nat} {E : Env} (hE : E.Ok)
include hE

theorem reads_run {h : RunHeader} (hh : h.Ok) : Reads id readRun (writeRun E h) h :=
  .cons (.decode _ True.intro) (.cons (.decode _ hh.detector) (.cons (.decode _ hh.descr) (.cons (.decode _ hh.subDetectors)
    (.cons (.params hE hh.params) (.nil _ _ rfl)))))

theorem reads_header {h : EventHeader} (h1 : Bin.Small h.detector) (h2 : Bin.Small h.blocks) (h3 : h.params.Ok) :
    Reads id readHeader (writeHeader E h) h :=
  .cons (.decode _ True.intro) (.cons (.decode _ True.intro) (.cons (.decode _ True.intro) (.cons (.decode _ h1)
    (.cons (.decode _ h2) (.cons (.params hE h3) (.nil _ _ rfl))))))

end

theorem tagged_writeRun (E : Env) (h : RunHeader) : tagged (writeRun E h) = [] := by
  simp [writeRun, tagged_append, tagged_encode, tagged_writeParams]

theorem tagged_writeHeader (E : Env) (h : EventHeader) : tagged (writeHeader E h) = [] := by
  simp [writeHeader, tagged_append, tagged_encode, tagged_writeParams]

/-- Between records. -/
def St.Idle (st : St) : Prop := st.tags = [] ∧ st.fresh = false

theorem record_spec {opts : W32} {name : Str} {l : List (Str × Ws)} {r : Rec} (h : record opts name l = some r) :
    ∃ w : Sio.Writer Ref, w.Inv ∧ (∀ k ∈ l.flatMap fun x => tagged x.2, ∃ i, w.tags.lookup k = some i) ∧
      r = ⟨opts, name, l.map (blkOf w.id)⟩ := by
  unfold record at h
  rw [Option.map_eq_some_iff] at h
  obtain ⟨⟨bs, w⟩, h1, rfl⟩ := h
  obtain ⟨h2, h3, rfl⟩ := marshal_blocks h1
  exact ⟨w, h2, h3, rfl⟩

section
variable (C : Sio.Codec) (hC : C.Good) {E : Env} (hE : E.Ok) (ord : List (Ref × Nat) → List (Ref × Nat))
include hC

theorem readRecord_ok (st st' : St) {r : Rec} (hr : r.Fits C) (rest : Bytes) (fuel : Nat)
    (hn : (cfg E ord st).unpack r.name = true)
    (h : Sio.readBlocks (connected E st r.name) (finish ord) st (Sio.encBlks r.blocks) = .ok st') :
    Sio.readRecord C (cfg E ord st) (fuel + 1) st (Sio.encRec C r ++ rest) = .got r.name r.options st' rest := by
  rw [Sio.readRecord_enc C _ _ _ hr, if_pos hn]
  exact Sio.unpackRecord_enc C hC _ st st' hr rest h

include hE in
/-- A run header. -/
theorem read_run {opts : W32} {h : RunHeader} (hh : h.Ok) {r : Rec} (hr : record opts rRun [(bRun, writeRun E h)] = some r)
    (hf : r.Fits C) {st : St} (hi : st.Idle) (rest : Bytes) (fuel : Nat) :
    Sio.readRecord C (cfg E ord st) (fuel + 1) st (Sio.encRec C r ++ rest) = .got rRun opts { st with rhdr := h } rest := by
  obtain ⟨w, h1, h2, rfl⟩ := record_spec hr
  refine readRecord_ok C hC ord st _ hf rest fuel (by simp [cfg]) ?_
  refine read_acts (connected E st rRun) (finish ord) w.id [⟨bRun, writeRun E h, fun st => { st with rhdr := h }⟩] ?_ ?_ st _ ?_
  · intro a ha
    rw [List.mem_singleton] at ha
    subst ha
    refine ⟨_, rfl, ?_⟩
    intro st rest
    rw [block_reads (fun _ => reads_run hE hh), tagged_writeRun]
    simp
  · intro a ha
    rw [List.mem_singleton] at ha
    subst ha
    exact hf.blocks _ (List.mem_singleton.2 rfl)
  · obtain ⟨s1, s2⟩ := hi
    simp only [List.foldl_cons, List.foldl_nil, finish, s2]
    cases st
    simp_all

include hE in
/-- An event header. -/
theorem read_header {opts : W32} {h : EventHeader} (h1 : Bin.Small h.detector) (h2 : Bin.Small h.blocks) (h3 : h.params.Ok) {r : Rec}
    (hr : record opts rHeader [(bHeader, writeHeader E h)] = some r)
    (hf : r.Fits C) {st : St} (hi : st.Idle) (rest : Bytes) (fuel : Nat) :
    Sio.readRecord C (cfg E ord st) (fuel + 1) st (Sio.encRec C r ++ rest) = .got rHeader opts { st with ehdr := h } rest := by
  obtain ⟨w, g1, g2, rfl⟩ := record_spec hr
  refine readRecord_ok C hC ord st _ hf rest fuel (by simp [cfg]) ?_
  refine read_acts (connected E st rHeader) (finish ord) w.id [⟨bHeader, writeHeader E h, fun st => { st with ehdr := h }⟩] ?_ ?_ st _ ?_
  · intro a ha
    rw [List.mem_singleton] at ha
    subst ha
    refine ⟨_, rfl, ?_⟩
    intro st rest
    rw [block_reads (fun _ => reads_header hE h1 h2 h3), tagged_writeHeader]
    simp
  · intro a ha
    rw [List.mem_singleton] at ha
    subst ha
    exact hf.blocks _ (List.mem_singleton.2 rfl)
  · obtain ⟨s1, s2⟩ := hi
    simp only [List.foldl_cons, List.foldl_nil, finish, s2]
    cases st
    simp_all

end

/-! ## Names -/

theorem connect_eq (b : Nat) (l : List (Str × Str)) (m : List (Str × Nat)) (hn : (l.map (·.1)).Nodup)
    (hd : ∀ x ∈ l, ∀ y ∈ m, y.1 ≠ x.1) : connect b l m = m ++ (l.zipIdx b).map fun x => (x.1.1, x.2) := by
  induction l generalizing b m with
  | nil => simp [connect]
  | cons x l ih =>
    rw [List.map_cons, List.nodup_cons] at hn
    have hs : setEntry m (x.1, b) = m ++ [(x.1, b)] := by
      unfold setEntry
      rw [if_neg]
      rw [List.any_eq_true]
      rintro ⟨y, hy, h⟩
      exact hd x (List.mem_cons_self ..) y hy (of_decide_eq_true h)
    rw [connect, hs, ih _ _ hn.2]
    · simp
    · intro z hz y hy
      rcases List.mem_append.1 hy with hy | hy
      · exact hd z (List.mem_cons_of_mem _ hz) y hy
      · rw [List.mem_singleton] at hy
        subst hy
        exact fun h => hn.1 (h ▸ List.mem_map_of_mem hz)

theorem lookup_zipIdx (l : List (Str × Str)) (b j : Nat) (hn : (l.map (·.1)).Nodup) (x : Str × Str) (h : l[j]? = some x) :
    ((l.zipIdx b).map fun x => (x.1.1, x.2)).lookup x.1 = some (b + j) := by
  induction l generalizing b j with
  | nil => simp at h
  | cons y l ih =>
    rw [List.map_cons, List.nodup_cons] at hn
    rw [List.zipIdx_cons, List.map_cons]
    cases j with
    | zero =>
      simp only [List.getElem?_cons_zero, Option.some.injEq] at h
      subst h
      simp
    | succ j =>
      simp only [List.getElem?_cons_succ] at h
      have hne : x.1 ≠ y.1 := fun e => hn.1 (e ▸ List.mem_map_of_mem (List.mem_of_getElem? h))
      rw [List.lookup_cons, show (x.1 == y.1) = false by simpa using hne]
      simp only []
      rw [ih (b + 1) j hn.2 h, show b + 1 + j = b + (j + 1) by omega]

theorem connect_lookup (l : List (Str × Str)) (hn : (l.map (·.1)).Nodup) (j : Nat) (x : Str × Str) (h : l[j]? = some x) :
    (connect 0 l []).lookup x.1 = some j := by
  rw [connect_eq 0 l [] hn (by simp), List.nil_append, lookup_zipIdx l 0 j hn x h, Nat.zero_add]

theorem byName_zip {P : Type} (conn : List (Str × Nat)) (names : List Str) (pre suf : List (Coll P)) (hl : suf.length = names.length)
    (hc : ∀ j n, names[j]? = some n → conn.lookup n = some (pre.length + j)) :
    byName names conn (pre ++ suf) = names.zip suf := by
  induction names generalizing pre suf with
  | nil => rfl
  | cons n names ih =>
    cases suf with
    | nil => simp at hl
    | cons c suf =>
      unfold byName
      rw [List.filterMap_cons_some (b := (n, c))]
      · rw [List.zip_cons_cons]
        congr 1
        have := ih (pre ++ [c]) suf (by simpa using hl) (by
          intro j m hm
          rw [hc (j + 1) m (by simpa using hm)]
          simp; omega)
        rw [List.append_assoc] at this
        exact this
      · simp [hc 0 n rfl]

theorem describe_spec {l : List (Str × Coll Ref)} {bl : List (Str × Str)} (h : describe l = some bl) :
    bl.map (·.1) = l.map (·.1) ∧ kindsOf bl = some (l.map fun x => x.2.kind) := by
  induction l generalizing bl with
  | nil => cases h; exact ⟨rfl, rfl⟩
  | cons x l ih =>
    rw [describe] at h
    split at h
    · cases h
    · next t ht =>
      rw [Option.map_eq_some_iff] at h
      obtain ⟨r, hr, rfl⟩ := h
      obtain ⟨h1, h2⟩ := ih hr
      refine ⟨by simp [h1], ?_⟩
      rw [kindsOf]
      simp only [typeFrom_typeName _ _ ht, h2]
      rfl

theorem describe_ok (l : List (Str × Coll Ref)) (h : ∀ x ∈ l, x.2.Ok) (hs : ∀ x ∈ l, Bin.Small x.1) :
    ∃ bl, describe l = some bl ∧ ∀ x ∈ bl, Bin.Small x := by
  induction l with
  | nil => exact ⟨[], rfl, by simp⟩
  | cons x l ih =>
    obtain ⟨t, h1, h2⟩ := (h x (List.mem_cons_self ..)).name
    obtain ⟨bl, h3, h4⟩ := ih (fun y hy => h y (List.mem_cons_of_mem _ hy)) (fun y hy => hs y (List.mem_cons_of_mem _ hy))
    refine ⟨(x.1, t) :: bl, by rw [describe]; simp only [h1, h3]; rfl, ?_⟩
    intro y hy
    rcases List.mem_cons.1 hy with rfl | hy
    · exact ⟨hs x (List.mem_cons_self ..), h2⟩
    · exact h4 y hy

theorem Kind.empty_kind {P : Type} (k : Kind) : (k.empty : Coll P).kind = k := by cases k <;> rfl

/-! ## Tags of events -/

theorem tagged_colls (E : Env) (l : List (Str × Coll Ref)) (b : Nat) {ws : List (Str × Ws)} (h : writeColls E b l = some ws)
    (ho : ∀ x ∈ l, x.2.Ok) (k : Ref) :
    (k ∈ ws.flatMap fun x => tagged x.2) ↔ ∃ j x, l[j]? = some x ∧
      ((∃ i, i < x.2.targets ∧ k = .obj (b + j) i) ∨ (∃ i m n, x.2.pids[i]? = some n ∧ m < n ∧ k = .sub (b + j) i m)) := by
  induction l generalizing b ws with
  | nil => cases h; simp
  | cons x l ih =>
    rw [writeColls] at h
    split at h
    · cases h
    · next w hw =>
      rw [Option.map_eq_some_iff] at h
      obtain ⟨r, hr, rfl⟩ := h
      rw [List.flatMap_cons, List.mem_append, ih (b + 1) hr fun y hy => ho y (List.mem_cons_of_mem _ hy),
        mem_tagged E b x.2 (ho x (List.mem_cons_self ..)) w hw]
      constructor
      · rintro (h | ⟨j, y, h1, h2⟩)
        · exact ⟨0, x, rfl, h⟩
        · refine ⟨j + 1, y, by simpa using h1, ?_⟩
          rwa [show b + (j + 1) = b + 1 + j by omega]
      · rintro ⟨j, y, h1, h2⟩
        cases j with
        | zero =>
          simp only [List.getElem?_cons_zero, Option.some.injEq] at h1
          subst h1; exact .inl h2
        | succ j =>
          refine .inr ⟨j, y, by simpa using h1, ?_⟩
          rwa [show b + 1 + j = b + (j + 1) by omega]

theorem tagged_inside (E : Env) (l : List (Str × Coll Ref)) {ws : List (Str × Ws)} (h : writeColls E 0 l = some ws)
    (ho : ∀ x ∈ l, x.2.Ok) (k : Ref) :
    (k ∈ ws.flatMap fun x => tagged x.2) ↔ inside (l.map (·.2)) k = true := by
  rw [tagged_colls E l 0 h ho]
  cases k with
  | obj b i =>
    simp only [inside, List.getElem?_map, Option.any_map, Option.any_eq_true, decide_eq_true_eq]
    constructor
    · rintro ⟨j, x, h1, ⟨i', h2, h3⟩ | ⟨_, _, _, _, _, h3⟩⟩
      · cases h3; exact ⟨x, by simpa using h1, h2⟩
      · cases h3
    · rintro ⟨x, h1, h2⟩
      exact ⟨b, x, h1, .inl ⟨i, h2, by rw [Nat.zero_add]⟩⟩
  | sub b i m =>
    simp only [inside, List.getElem?_map, Option.any_map, Option.any_eq_true, decide_eq_true_eq]
    constructor
    · rintro ⟨j, x, h1, ⟨_, _, h3⟩ | ⟨i', m', n, h2, h3, h4⟩⟩
      · cases h3
      · cases h4; exact ⟨x, by simpa using h1, n, h2, h3⟩
    · rintro ⟨x, h1, n, h2, h3⟩
      exact ⟨b, x, h1, .inr ⟨i, m, n, h2, h3, by rw [Nat.zero_add]⟩⟩
  | other n => simp [inside]
  | nil n => simp [inside]

theorem reloc_id (ord : List (Ref × Nat) → List (Ref × Nat)) (ho : ∀ t, (ord t).Perm t) {w : Sio.Writer Ref} (hw : w.Inv)
    (ts : List Ref) (ht : ∀ k ∈ ts, ∃ i, w.tags.lookup k = some i) (k : Ref) :
    reloc ord (ts.map fun k => (k, w.id k)) (w.id k) = if k ∈ ts then some k else none := by
  unfold reloc
  split
  · next h0 =>
    rw [if_neg]
    intro hk
    obtain ⟨i, hi⟩ := ht k hk
    have := (Sio.Writer.id_range hw hi).1
    omega
  · next h0 =>
    have hl : ∃ i, w.tags.lookup k = some i := by
      cases hk : w.tags.lookup k with
      | none => exact absurd (by unfold Sio.Writer.id; rw [hk]; rfl) h0
      | some i => exact ⟨i, rfl⟩
    cases hf : (ord (ts.map fun k => (k, w.id k))).find? fun t => t.2 = w.id k with
    | some t =>
      have h1 := (ho _).mem_iff.1 (List.mem_of_find?_eq_some hf)
      have h2 : t.2 = w.id k := by simpa using List.find?_some hf
      obtain ⟨k', hk', rfl⟩ := List.mem_map.1 h1
      have := Sio.Writer.id_inj hw (ht k' hk') hl h2
      subst this
      rw [if_pos hk']; rfl
    | none =>
      rw [List.find?_eq_none] at hf
      rw [if_neg]
      · rfl
      · intro hk
        exact hf (k, w.id k) ((ho _).mem_iff.2 (List.mem_map_of_mem hk)) (by simp)

/-! ## The record of an event -/

/-- The collections with what reading them does. -/
def acts (E : Env) (id : Ref → Nat) : Nat → List (Str × Coll Ref) → List (Str × Ws) → List Act
  | b, x :: l, w :: ws =>
    ⟨w.1, w.2, fun st => { st with
      heap := st.heap.set b ((x.2.keep E).map id)
      fresh := true
      tags := st.tags ++ (tagged w.2).map fun k => (k, id k) }⟩ :: acts E id (b + 1) l ws
  | _, _, _ => []

theorem acts_spec {E : Env} (hE : E.Ok) {id : Ref → Nat} (hid : ∀ k, id k < 2 ^ 32 - 1) (l : List (Str × Coll Ref)) (b : Nat) {ws : List (Str × Ws)}
    (h : writeColls E b l = some ws) (ho : ∀ x ∈ l, x.2.Ok) :
    (acts E id b l ws).map (fun a => (a.name, a.ws)) = ws ∧ ws.map (·.1) = l.map (·.1) ∧
    (∀ a ∈ acts E id b l ws, ∃ j x, l[j]? = some x ∧ a.name = x.1 ∧ Reads id (readColl E (b + j) 2008 x.2.kind) a.ws ((x.2.keep E).map id) ∧
      a.eff = fun st => { st with
        heap := st.heap.set (b + j) ((x.2.keep E).map id)
        fresh := true
        tags := st.tags ++ (tagged a.ws).map fun k => (k, id k) }) ∧
    ∀ (st : St) (pre suf : List (Coll Nat)), st.heap = pre ++ suf → pre.length = b → suf.length = l.length →
      (acts E id b l ws).foldl (fun st a => a.eff st) st = { st with
        heap := pre ++ l.map fun x => (x.2.keep E).map id
        fresh := st.fresh || !l.isEmpty
        tags := st.tags ++ (ws.flatMap fun x => tagged x.2).map fun k => (k, id k) } := by
  induction l generalizing b ws with
  | nil =>
    cases h
    refine ⟨rfl, rfl, by simp [acts], ?_⟩
    intro st pre suf h1 h2 h3
    cases suf with
    | cons => simp at h3
    | nil =>
      cases st
      simp_all [acts]
  | cons x l ih =>
    rw [writeColls] at h
    split at h
    · cases h
    · next w hw =>
      rw [Option.map_eq_some_iff] at h
      obtain ⟨r, hr, rfl⟩ := h
      obtain ⟨i1, i2, i3, i4⟩ := ih (b + 1) hr fun y hy => ho y (List.mem_cons_of_mem _ hy)
      refine ⟨by rw [acts, List.map_cons, i1], by rw [List.map_cons, List.map_cons, i2], ?_, ?_⟩
      · intro a ha
        rw [acts] at ha
        rcases List.mem_cons.1 ha with rfl | ha
        · refine ⟨0, x, rfl, rfl, ?_, rfl⟩
          obtain ⟨w', g1, g2⟩ := reads_coll hid hE b x.2 (ho x (List.mem_cons_self ..))
          rw [hw] at g1
          cases g1
          exact g2
        · obtain ⟨j, y, g1, g2, g3, g4⟩ := i3 a ha
          refine ⟨j + 1, y, by simpa using g1, g2, ?_, ?_⟩
          · rwa [show b + (j + 1) = b + 1 + j by omega]
          · rw [g4, show b + (j + 1) = b + 1 + j by omega]
      · intro st pre suf h1 h2 h3
        cases suf with
        | nil => simp at h3
        | cons c suf =>
          rw [acts, List.foldl_cons, i4 _ (pre ++ [(x.2.keep E).map id]) suf]
          · simp
          · show st.heap.set b _ = _
            rw [h1, ← h2, List.set_append_right _ _ (Nat.le_refl _)]
            simp
          · simp [h2]
          · simpa using h3

theorem keep_noKids {P : Type} (E : Env) (c : Coll P) (f : P → Option Ref) : NoKids ((c.keep E).map f) := by
  cases c with
  | mc c =>
    intro m hm
    simp only [Coll.keep, Coll.map, Coll.particles, Cont.map] at hm
    rw [List.map_map] at hm
    obtain ⟨x, -, rfl⟩ := List.mem_map.1 hm
    rfl
  | _ => intro m hm; simp [Coll.keep, Coll.map, Coll.particles] at hm

/-- Pointers are restored. -/
theorem map_reloc (E : Env) (ord : List (Ref × Nat) → List (Ref × Nat)) (hord : ∀ t, (ord t).Perm t) {w : Sio.Writer Ref} (h1 : w.Inv)
    (l : List (Str × Coll Ref)) {ws : List (Str × Ws)} (hws : writeColls E 0 l = some ws) (ho : ∀ x ∈ l, x.2.Ok)
    (h2 : ∀ k ∈ ws.flatMap fun x => tagged x.2, ∃ i, w.tags.lookup k = some i) :
    ((l.map fun x => (x.2.keep E).map w.id).map
      (Coll.map (reloc ord ((ws.flatMap fun x => tagged x.2).map fun k => (k, w.id k))))) =
      (l.map (·.2)).map fun c => (c.keep E).map (target (l.map (·.2))) := by
  rw [List.map_map, List.map_map]
  refine List.map_congr_left fun x _ => ?_
  simp only [Function.comp]
  rw [Coll.map_map]
  congr 1
  funext k
  simp only [Function.comp]
  rw [reloc_id ord hord h1 _ h2]
  unfold target
  simp only [tagged_inside E l hws ho]

theorem length_restoredColls (E : Env) (cs : List (Coll Ref)) : (restoredColls E cs).length = cs.length := by
  unfold restoredColls; rw [List.length_mapIdx, List.length_map]

/-- Particles are linked. -/
theorem link_colls (E : Env) (l : List (Str × Coll Ref)) (conn : List (Str × Nat))
    (hlook : ∀ j n, (l.map (·.1))[j]? = some n → conn.lookup n = some j) :
    byName (l.map (·.1)) conn ((l.map fun x => (x.1, version.toNat)).foldl (linkOne conn)
      ((l.map (·.2)).map fun c => (c.keep E).map (target (l.map (·.2))))) =
      (l.map (·.1)).zip (restoredColls E (l.map (·.2))) := by
  have hk : (l.map fun x => (x.1, version.toNat)).foldl (linkOne conn)
      ((l.map (·.2)).map fun c => (c.keep E).map (target (l.map (·.2)))) = restoredColls E (l.map (·.2)) := by
    rw [link_children]
    · rfl
    · simp
    · intro c hc
      obtain ⟨x, -, rfl⟩ := List.mem_map.1 hc
      exact keep_noKids E x _
    · intro x hx
      obtain ⟨y, -, rfl⟩ := List.mem_map.1 hx
      show 8 < version.toNat
      decide
    · intro j x hx
      rw [List.getElem?_map, Option.map_eq_some_iff] at hx
      obtain ⟨y, hy, rfl⟩ := hx
      exact hlook j _ (by rw [List.getElem?_map, hy]; rfl)
  rw [hk]
  generalize hR : restoredColls E (l.map (·.2)) = R
  have hz := byName_zip conn (l.map (·.1)) [] R (by rw [← hR, length_restoredColls]; simp) (by
    intro j n hj
    rw [hlook j n hj]; simp)
  rwa [List.nil_append] at hz

section
variable (C : Sio.Codec) (hC : C.Good) {E : Env} (hE : E.Ok) (ord : List (Ref × Nat) → List (Ref × Nat)) (hord : ∀ t, (ord t).Perm t)
include hC hE hord

/-- The collections of an event. -/
theorem read_event {opts : W32} {e : Event Ref} (he : e.Ok) {bl : List (Str × Str)} (hbl : describe e.colls = some bl)
    {ws : List (Str × Ws)} (hws : writeColls E 0 e.colls = some ws) {r : Rec} (hr : record opts rEvent ws = some r)
    (hf : r.Fits C) {st st1 : St} (hi : st.Idle)
    (hst : st.ehdr = ⟨e.run, e.event, e.time, e.detector, bl, e.params⟩) (hre : remap st = some st1) (rest : Bytes) (fuel : Nat) :
    ∃ st2, Sio.readRecord C (cfg E ord st1) (fuel + 1) st1 (Sio.encRec C r ++ rest) = .got rEvent opts st2 rest ∧
      st2.Idle ∧ st2.rhdr = st.rhdr ∧ st2.evt = restored E e := by
  obtain ⟨w, h1, h2, rfl⟩ := record_spec hr
  obtain ⟨d1, d2⟩ := describe_spec hbl
  have hid := id_small h1
  obtain ⟨a1, a2, a3, a4⟩ := acts_spec hE hid e.colls 0 hws he.colls
  have hnd : (bl.map (·.1)).Nodup := by rw [d1]; exact he.names
  have hlook : ∀ j n, (e.colls.map (·.1))[j]? = some n → (connect 0 bl []).lookup n = some j := by
    intro j n hj
    rw [← d1, List.getElem?_map, Option.map_eq_some_iff] at hj
    obtain ⟨x, hx, rfl⟩ := hj
    exact connect_lookup bl hnd j x hx
  -- the state after the header
  unfold remap at hre
  rw [hst] at hre
  simp only [d2, Option.map_some, Option.some.injEq] at hre
  have c1 : st1.conn = connect 0 bl [] := by rw [← hre]
  have c2 : st1.names = e.colls.map (·.1) := by rw [← hre]; exact d1
  have c3 : st1.heap = e.colls.map fun x => x.2.kind.empty := by rw [← hre]; simp
  have c4 : st1.tags = [] := by rw [← hre]; exact hi.1
  have c5 : st1.fresh = false := by rw [← hre]; exact hi.2
  have c6 : st1.rhdr = st.rhdr := by rw [← hre]
  obtain ⟨h0, c7⟩ : ∃ h0, st1.evt = ⟨e.run, e.event, e.time, e.detector, e.params, byName st1.names st1.conn h0⟩ := ⟨_, by rw [← hre]⟩
  clear hre
  have hblk : (ws.map (blkOf w.id)) = (acts E w.id 0 e.colls ws).map fun a => blkOf w.id (a.name, a.ws) := by
    conv => lhs; rw [← a1]
    rw [List.map_map]; rfl
  have hfold := a4 st1 [] st1.heap rfl rfl (by rw [c3]; simp)
  rw [List.nil_append, c4, List.nil_append, c5, Bool.false_or] at hfold
  have hlab : ((acts E w.id 0 e.colls ws).map fun a => (a.name, version.toNat)) = e.colls.map fun x => (x.1, version.toNat) := by
    have : ((acts E w.id 0 e.colls ws).map fun a => (a.name, a.ws)).map (fun x => (x.1, version.toNat)) =
        e.colls.map fun x => (x.1, version.toNat) := by
      rw [a1, show (fun x : Str × Ws => (x.1, version.toNat)) = (fun n => (n, version.toNat)) ∘ (·.1) from rfl, ← List.map_map, a2, List.map_map]
      rfl
    rw [List.map_map] at this
    exact this
  have hcolls : byName st1.names st1.conn ((e.colls.map fun x => (x.1, version.toNat)).foldl (linkOne st1.conn)
      ((e.colls.map fun x => (x.2.keep E).map w.id).map
        (Coll.map (reloc ord ((ws.flatMap fun x => tagged x.2).map fun k => (k, w.id k)))))) =
      (e.colls.map (·.1)).zip (restoredColls E (e.colls.map (·.2))) := by
    rw [map_reloc E ord hord h1 e.colls hws he.colls h2, c2]
    exact link_colls E e.colls _ (by rw [c1]; exact hlook)
  obtain ⟨st2, hfin⟩ : ∃ s, finish ord ((acts E w.id 0 e.colls ws).map fun a => (a.name, version.toNat))
      ((acts E w.id 0 e.colls ws).foldl (fun st a => a.eff st) st1) = some s := ⟨_, rfl⟩
  refine ⟨st2, readRecord_ok C hC ord st1 st2 hf rest fuel (by simp [cfg]) ?_, ?_⟩
  · show Sio.readBlocks (connected E st1 rEvent) (finish ord) st1 (Sio.encBlks (ws.map (blkOf w.id))) = _
    rw [hblk]
    refine read_acts _ _ w.id _ ?_ ?_ st1 _ hfin
    · intro a ha
      obtain ⟨j, x, g1, g2, g3, g4⟩ := a3 a ha
      have k1 : st1.conn.lookup a.name = some j := by
        rw [c1, g2]; exact hlook j _ (by rw [List.getElem?_map, g1]; rfl)
      have k2 : st1.heap[j]? = some x.2.kind.empty := by rw [c3, List.getElem?_map, g1]; rfl
      have k3 : connected E st1 rEvent a.name = some (block (fun ver _ => readColl E j ver x.2.kind) fun st v =>
          { st with heap := st.heap.set j v, fresh := true }) := by
        unfold connected
        rw [if_neg (by decide), if_neg (by decide), k1]
        simp only []
        rw [k2]
        simp only [Kind.empty_kind]
      refine ⟨_, k3, ?_⟩
      intro st rest
      rw [Nat.zero_add] at g3 g4
      rw [block_reads (fun _ => g3), g4]
    · intro a ha
      refine hf.blocks _ ?_
      show _ ∈ ws.map (blkOf w.id)
      rw [hblk]
      exact List.mem_map_of_mem (f := fun a : Act => blkOf w.id (a.name, a.ws)) ha
  · rw [hlab, hfold] at hfin
    simp only [finish, Option.some.injEq] at hfin
    subst hfin
    refine ⟨⟨rfl, rfl⟩, c6, ?_⟩
    simp only []
    cases hnil : e.colls with
    | nil =>
      simp only [List.isEmpty_nil, Bool.not_true]
      rw [if_neg (by simp), c7, c2, hnil]
      simp [restored, hnil, byName]
    | cons x l =>
      simp only [List.isEmpty_cons, Bool.not_false]
      rw [if_pos trivial]
      unfold resolve restored
      simp only []
      rw [← hnil, hcolls, c7]

/-! ## Files -/

omit hord in
/-- A run header is passed. -/
theorem next_run {opts : W32} {h : RunHeader} (hh : h.Ok) {r : Rec} (hr : record opts rRun [(bRun, writeRun E h)] = some r)
    (hf : r.Fits C) {st : St} (hi : st.Idle) (rest : Bytes) (fuel : Nat) :
    next C E ord (fuel + 1) st (Sio.encRec C r ++ rest) = next C E ord fuel { st with rhdr := h } rest := by
  rw [next, read_run C hC hE ord hh hr hf hi]
  simp only []
  rw [if_neg (by decide), if_pos trivial]

/-- An event is found. -/
theorem next_event {opts : W32} {e : Event Ref} (he : e.Ok) {rs : List Rec} (hr : writeItem E opts (.event e) = some rs)
    (hf : ∀ r ∈ rs, r.Fits C) {st : St} (hi : st.Idle) (rest : Bytes) (fuel : Nat) :
    ∃ st2, next C E ord (fuel + 2) st (Sio.encRecs C rs ++ rest) = .event st2 rest ∧
      st2.Idle ∧ st2.rhdr = st.rhdr ∧ st2.evt = restored E e := by
  rw [writeItem] at hr
  split at hr
  · next bl ws hbl hws =>
    split at hr
    · next r s h1 h2 =>
      cases hr
      have hsm : Bin.Small bl := by
        obtain ⟨bl', g1, g2⟩ := describe_ok e.colls he.colls he.small
        rw [hbl] at g1
        cases g1
        refine ⟨?_, g2⟩
        have := (describe_spec hbl).1
        have hlen : bl.length = e.colls.length := by simpa using congrArg List.length this
        rw [hlen]; exact he.fits
      have hi1 : ({ st with ehdr := ⟨e.run, e.event, e.time, e.detector, bl, e.params⟩ } : St).Idle := hi
      have hre : ∃ st1, remap { st with ehdr := ⟨e.run, e.event, e.time, e.detector, bl, e.params⟩ } = some st1 := by
        unfold remap
        simp only [(describe_spec hbl).2]
        exact ⟨_, rfl⟩
      obtain ⟨st1, hre⟩ := hre
      obtain ⟨st2, g1, g2, g3, g4⟩ := read_event C hC hE ord hord he hbl hws h2 (hf s (by simp)) hi1 rfl hre rest
        (Sio.encRec C s ++ rest).length
      refine ⟨st2, ?_, g2, g3, g4⟩
      rw [show Sio.encRecs C [r, s] ++ rest = Sio.encRec C r ++ (Sio.encRec C s ++ rest) by simp [Sio.encRecs]]
      rw [next, read_header C hC hE ord he.detector hsm he.params h1 (hf r (by simp)) hi]
      simp only []
      rw [if_pos trivial, hre]
      simp only []
      rw [next, g1]
      simp only []
      rw [if_neg (by decide), if_neg (by decide)]
    · cases hr
  · cases hr

/-- **C136** (partial): `Next` at the records of an event, in any state of the reader between records, finds the event
with its numbers, its parameters, its names in order, and all its collections: every field the
flags say is stored has its value; every pointer to an object of the event, in whichever collection, points to
the new object in the same place, whatever the order of the maps in relocation; and the children of every particle are the particles
that have it as a parent.  Events with vectors or references are left out (see the counterexamples). -/
theorem C136_event_partial {opts : W32} {e : Event Ref} (he : e.Ok) {rs : List Rec} (hr : writeItem E opts (.event e) = some rs)
    (hf : ∀ r ∈ rs, r.Fits C) {st : St} (hi : st.Idle) (rest : Bytes) (fuel : Nat) :
    ∃ st2, next C E ord (fuel + 2) st (Sio.encRecs C rs ++ rest) = .event st2 rest ∧
      st2.Idle ∧ st2.rhdr = st.rhdr ∧ st2.evt = restored E e :=
  next_event C hC hE ord hord he hr hf hi rest fuel

/-- The loop, with the first call of `Next` under way. -/
theorem events_go {opts : W32} (items : List Item) (hi : ∀ x ∈ items, x.Ok) {rs : List Rec} (hr : writeItems E opts items = some rs)
    (hf : ∀ r ∈ rs, r.Fits C) {st : St} (hst : st.Idle) (n fuel : Nat) (hn : rs.length < n) (hfu : items.length ≤ fuel) :
    ∃ st', (match next C E ord n st (Sio.encRecs C rs) with
      | .event st rest => consEvent st (readEvents C E ord fuel st rest)
      | .eof st => ([], some st)
      | _ => ([], none)) = (expected E st.rhdr items, some st') ∧ st'.rhdr = lastRun st.rhdr items := by
  induction items generalizing rs st n fuel with
  | nil =>
    cases hr
    match n, hn with
    | n + 1, _ =>
      refine ⟨st, ?_, rfl⟩
      rw [next, Sio.encRecs, Sio.readRecord, readFull_nil (by decide)]
      rfl
  | cons x items ih =>
    rw [writeItems] at hr
    split at hr
    · cases hr
    · next rs1 h1 =>
      rw [Option.map_eq_some_iff] at hr
      obtain ⟨rs2, h2, rfl⟩ := hr
      have hx := hi x (List.mem_cons_self ..)
      have hrest := fun y hy => hi y (List.mem_cons_of_mem x hy)
      rw [List.length_append] at hn
      have happ : ∀ a b : List Rec, Sio.encRecs C (a ++ b) = Sio.encRecs C a ++ Sio.encRecs C b := by
        intro a b
        induction a with
        | nil => rfl
        | cons r a ih => simp [Sio.encRecs, ih]
      rw [happ]
      cases x with
      | run h =>
        rw [writeItem, Option.map_eq_some_iff] at h1
        obtain ⟨r, h1, rfl⟩ := h1
        match n, hn with
        | n + 1, hn =>
          rw [show Sio.encRecs C [r] ++ Sio.encRecs C rs2 = Sio.encRec C r ++ Sio.encRecs C rs2 by simp [Sio.encRecs]]
          rw [next_run C hC hE ord hx h1 (hf r (by simp)) hst]
          exact ih hrest h2 (fun r hr => hf r (List.mem_append_right _ hr)) (st := { st with rhdr := h }) hst n fuel
            (by simp at hn; omega) (by simp at hfu; omega)
      | event e =>
        have hlen : rs1.length = 2 := by
          rw [writeItem] at h1
          split at h1
          · split at h1
            · cases h1; rfl
            · cases h1
          · cases h1
        match n, hn with
        | 0, hn => omega
        | 1, hn => omega
        | n + 2, hn =>
          obtain ⟨st2, g1, g2, g3, g4⟩ := next_event C hC hE ord hord hx h1
            (fun r hr => hf r (List.mem_append_left _ hr)) hst (Sio.encRecs C rs2) n
          rw [g1]
          simp only []
          match fuel, hfu with
          | fuel + 1, hfu =>
            obtain ⟨st', k1, k2⟩ := ih hrest h2 (fun r hr => hf r (List.mem_append_right _ hr)) g2 ((Sio.encRecs C rs2).length + 1) fuel
              (Nat.lt_succ_of_le (Sio.length_encRecs_ge C rs2)) (by simpa using hfu)
            refine ⟨st', ?_, ?_⟩
            · rw [show readEvents C E ord (fuel + 1) st2 (Sio.encRecs C rs2) = _ from k1]
              unfold consEvent; rw [g3, g4]; rfl
            · rw [k2, g3]; rfl

/-- **C137** (partial): a file of run headers and events, in any order, with any compression, is read by `Next`
as all of its events, in order, each with the last run header before it, and each with its numbers,
parameters, names and collections restored.  Events with vectors or references are left out (see the counterexamples). -/
theorem C137_file_partial {opts : W32} (items : List Item) (hi : ∀ x ∈ items, x.Ok) {rs : List Rec}
    (hr : writeItems E opts items = some rs) (hf : ∀ r ∈ rs, r.Fits C) (fuel : Nat) (hfu : items.length < fuel) :
    ∃ st, readEvents C E ord fuel St.new (Sio.encRecs C rs) = (expected E St.new.rhdr items, some st) ∧
      st.rhdr = lastRun St.new.rhdr items := by
  match fuel, hfu with
  | fuel + 1, hfu =>
    exact events_go C hC hE ord hord items hi hr hf ⟨rfl, rfl⟩ _ fuel (Nat.lt_succ_of_le (Sio.length_encRecs_ge C rs)) (by omega)

end

/-! ## Writing succeeds -/

theorem write_split (a b : Ws) (w : Sio.Writer Ref) {p : Bytes × Sio.Writer Ref} (h : Sio.write w (a ++ b) = some p) :
    ∃ d w1 q, Sio.write w a = some (d, w1) ∧ Sio.write w1 b = some q := by
  induction a generalizing w p with
  | nil => exact ⟨[], w, p, rfl, h⟩
  | cons o a ih =>
    cases o with
    | data d =>
      simp only [List.cons_append, Sio.write, Option.map_eq_some_iff] at h
      obtain ⟨q, hq, -⟩ := h
      obtain ⟨d', w1, q', h1, h2⟩ := ih w hq
      exact ⟨_, _, q', by simp only [Sio.write, h1]; rfl, h2⟩
    | tag k =>
      simp only [List.cons_append, Sio.write] at h
      split at h
      · cases h
      · next i w0 hi =>
        rw [Option.map_eq_some_iff] at h
        obtain ⟨q, hq, -⟩ := h
        obtain ⟨d', w1, q', h1, h2⟩ := ih w0 hq
        exact ⟨_, _, q', by simp only [Sio.write, hi, h1]; rfl, h2⟩
    | ptr k =>
      simp only [List.cons_append, Sio.write] at h
      split at h
      · cases h
      · next i w0 hi =>
        rw [Option.map_eq_some_iff] at h
        obtain ⟨q, hq, -⟩ := h
        obtain ⟨d', w1, q', h1, h2⟩ := ih w0 hq
        exact ⟨_, _, q', by simp only [Sio.write, hi, h1]; rfl, h2⟩

theorem marshal_ok (l : List (Str × Ws)) (w : Sio.Writer Ref) {p : Bytes × Sio.Writer Ref}
    (h : Sio.write w (l.flatMap (·.2)) = some p) : ∃ q, marshal w l = some q := by
  induction l generalizing w p with
  | nil => exact ⟨_, rfl⟩
  | cons x l ih =>
    rw [List.flatMap_cons] at h
    obtain ⟨d, w1, q, h1, h2⟩ := write_split _ _ _ h
    obtain ⟨q', h3⟩ := ih w1 h2
    exact ⟨_, by rw [marshal, h1]; simp only []; rw [h3]; rfl⟩

theorem record_ok (opts : W32) (name : Str) (l : List (Str × Ws)) (h : (l.flatMap (·.2)).length < 2 ^ 32 - 1) :
    ∃ r, record opts name l = some r := by
  obtain ⟨p, hp⟩ := Sio.C35_write_ok ((l.flatMap (·.2)).map toOp) (by simpa using h)
  rw [toOp_w] at hp
  obtain ⟨q, hq⟩ := marshal_ok l _ hp
  exact ⟨_, by unfold record; rw [hq]; rfl⟩

/-- **C137** (writing): an event with such collections is written, without a panic or an error, if there are fewer than four
billion calls on the encoder in a record; and a run header as well. -/
theorem C137_write {E : Env} (hE : E.Ok) (opts : W32) :
    (∀ e : Event Ref, e.Ok → ∃ bl ws, describe e.colls = some bl ∧ writeColls E 0 e.colls = some ws ∧
      ((ws.flatMap (·.2)).length < 2 ^ 32 - 1 →
        (writeHeader E ⟨e.run, e.event, e.time, e.detector, bl, e.params⟩).length < 2 ^ 32 - 1 →
        ∃ rs, writeItem E opts (.event e) = some rs)) ∧
    ∀ h : RunHeader, (writeRun E h).length < 2 ^ 32 - 1 → ∃ rs, writeItem E opts (.run h) = some rs := by
  have hw : ∀ (l : List (Str × Coll Ref)) (b : Nat), (∀ x ∈ l, x.2.Ok) → ∃ ws, writeColls E b l = some ws := by
    intro l
    induction l with
    | nil => intro b _; exact ⟨_, rfl⟩
    | cons x l ih =>
      intro b h
      obtain ⟨w, h1, -⟩ := reads_coll (id := fun _ => 0) (fun _ => by decide) hE b x.2 (h x (List.mem_cons_self ..))
      obtain ⟨ws, h2⟩ := ih (b + 1) fun y hy => h y (List.mem_cons_of_mem _ hy)
      exact ⟨_, by rw [writeColls, h1]; simp only []; rw [h2]; rfl⟩
  constructor
  · intro e he
    obtain ⟨bl, h1, -⟩ := describe_ok e.colls he.colls he.small
    obtain ⟨ws, h2⟩ := hw e.colls 0 he.colls
    refine ⟨bl, ws, h1, h2, fun h3 h4 => ?_⟩
    obtain ⟨r, hr⟩ := record_ok opts rHeader [(bHeader, writeHeader E ⟨e.run, e.event, e.time, e.detector, bl, e.params⟩)]
      (by simpa using h4)
    obtain ⟨s, hs⟩ := record_ok opts rEvent ws h3
    exact ⟨[r, s], by rw [writeItem, h1, h2]; simp only []; rw [hr, hs]⟩
  · intro h h1
    obtain ⟨r, hr⟩ := record_ok opts rRun [(bRun, writeRun E h)] (by simpa using h1)
    exact ⟨[r], by rw [writeItem, hr]; rfl⟩

/-! ## What restored means -/

theorem count_flatMap_zipIdx {α : Type} (l : List α) (i0 b : Nat) (F : α → Nat → List (Option Ref)) (x : Option Ref)
    (hF : ∀ a i, i ≠ b → (F a i).count x = 0) :
    ((l.zipIdx i0).flatMap fun m => F m.1 m.2).count x = if i0 ≤ b then ((l[b - i0]?).map fun a => (F a b).count x).getD 0 else 0 := by
  induction l generalizing i0 with
  | nil => simp
  | cons y l ih =>
    rw [List.zipIdx_cons, List.flatMap_cons, List.count_append, ih]
    by_cases h : i0 = b
    · subst h
      rw [if_neg (by omega)]
      simp
    · rw [hF y i0 h]
      by_cases h2 : i0 ≤ b
      · rw [if_pos (by omega), if_pos h2, show b - i0 = (b - (i0 + 1)) + 1 by omega]
        simp
      · rw [if_neg (by omega), if_neg h2]

theorem count_map_const {α : Type} (l : List α) (y x : Option Ref) : (l.map fun _ => y).count x = if y = x then l.length else 0 := by
  induction l with
  | nil => simp
  | cons a l ih =>
    rw [List.map_cons, List.count_cons, ih]
    by_cases h : y = x
    · simp [h]
    · simp [h]

/-- **C136** (children): in `childrenOf`, a particle is listed among the children of another as many times as it lists it as a parent, and
nothing else is listed. -/
theorem C136_children (cs : List (Coll (Option Ref))) (k : Ref) :
    (∀ b i, (childrenOf cs k).count (some (.obj b i)) =
      (((cs[b]?).bind fun c => c.particles[i]?).map fun m => m.parents.count (some k)).getD 0) ∧
    ∀ r ∈ childrenOf cs k, ∃ b i, r = some (.obj b i) := by
  constructor
  · intro b i
    unfold childrenOf
    rw [count_flatMap_zipIdx cs 0 b (fun c b' => c.particles.zipIdx.flatMap fun m =>
      (m.1.parents.filter fun r => r = some k).map fun _ => some (.obj b' m.2))]
    · rw [if_pos (Nat.zero_le _), Nat.sub_zero]
      cases cs[b]? with
      | none => rfl
      | some c =>
        simp only [Option.map_some, Option.getD_some, Option.bind_some]
        rw [count_flatMap_zipIdx c.particles 0 i (fun m i' => (m.parents.filter fun r => r = some k).map fun _ => some (.obj b i'))]
        · rw [if_pos (Nat.zero_le _), Nat.sub_zero]
          cases c.particles[i]? with
          | none => rfl
          | some m =>
            simp only [Option.map_some, Option.getD_some]
            rw [count_map_const, if_pos rfl, List.count_eq_countP, List.countP_eq_length_filter]
            congr 1
            refine List.filter_congr fun r _ => ?_
            rw [Bool.eq_iff_iff]; simp
        · intro m i' hi
          rw [count_map_const, if_neg]
          simpa using hi
    · intro c b' hb
      rw [List.count_eq_zero]
      simp only [List.mem_flatMap, List.mem_map, not_exists, not_and]
      rintro m - r - h
      simp only [Option.some.injEq, Ref.obj.injEq] at h
      exact hb h.1
  · intro r hr
    unfold childrenOf at hr
    simp only [List.mem_flatMap, List.mem_map] at hr
    obtain ⟨c, -, m, -, _, -, rfl⟩ := hr
    exact ⟨_, _, rfl⟩

end Verif.Lcio
