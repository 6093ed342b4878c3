import Verif.RTree.Tree

/-!
# C18: reading a tree returns every written entry exactly once and in order
-/

namespace Verif.RTree

/-- The configuration of one branch: kind, length of the fixed part of its key, basket size. -/
abbrev Conf := Kind × Nat × Int

/-- groot/rtree/writer.go:120-171 (`NewWriter`). -/
def newWriter (conf : List Conf) (f : File) : List Branch :=
  conf.map fun c => newBranch c.1 c.2.1 c.2.2 f

/-- A value which fits a column: a column of fixed-size values holds values of that size,
and a basket the value ends up in can be addressed with 32 bits. -/
def ColFits (c : Conf) (e : Bytes) : Prop :=
  (∀ n, c.1 = .fixed n → e.length = n) ∧ c.2.1 + 8 + c.2.2.toNat + e.length < 2 ^ 31

/-- Sensible configurations: the key is not empty and a basket can be addressed. -/
def ConfOk (conf : List Conf) : Prop :=
  ∀ c ∈ conf, 0 < c.2.1 ∧ c.2.1 + 8 + c.2.2.toNat < 2 ^ 31

theorem newWriter_inv (conf : List Conf) (f : File) :
    All2 (BrInv f) (newWriter conf f) (conf.map fun _ => []) := by
  induction conf with
  | nil => trivial
  | cons c conf ih => exact ⟨newBranch_inv _ _ _ _, ih⟩

theorem newWriter_fits {conf : List Conf} {f : File} {row : List Bytes}
    (h : All2 ColFits conf row) : All2 Fits (newWriter conf f) row := by
  induction conf generalizing row with
  | nil => cases row with
    | nil => trivial
    | cons => exact absurd h (by simp [All2])
  | cons c conf ih => cases row with
    | nil => exact absurd h (by simp [All2])
    | cons e row => exact ⟨h.1, ih h.2⟩

theorem steps_conf {z : Bytes → Bytes} {ops : List Op} {bs bs' : List Branch} {f f' : File}
    (h : steps z ops (bs, f) = some (bs', f')) :
    bs'.map (fun b => (b.kind, b.base, b.bsize)) = bs.map (fun b => (b.kind, b.base, b.bsize)) := by
  have hw : ∀ (b b' : Branch) (e : Bytes) (f f' : File), b.write z f e = some (b', f') →
      (b'.kind, b'.base, b'.bsize) = (b.kind, b.base, b.bsize) := by
    intro b b' e f f' h
    unfold Branch.write at h
    split at h
    · exact absurd h (by simp)
    · split at h
      · exact absurd h (by simp)
      · dsimp only at h
        split at h
        · simp only [Branch.flush, Option.some.injEq, Prod.mk.injEq] at h
          rw [← h.1]; rfl
        · simp only [Option.some.injEq, Prod.mk.injEq] at h
          rw [← h.1]
  have hr : ∀ (bs bs' : List Branch) (row : List Bytes) (f f' : File),
      writeRow z bs row f = some (bs', f') →
      bs'.map (fun b => (b.kind, b.base, b.bsize)) = bs.map (fun b => (b.kind, b.base, b.bsize)) := by
    intro bs
    induction bs with
    | nil =>
      intro bs' row f f' h
      cases row with
      | nil =>
        simp only [writeRow, Option.some.injEq, Prod.mk.injEq] at h
        rw [← h.1]
      | cons => simp [writeRow] at h
    | cons b bs ih =>
      intro bs' row f f' h
      cases row with
      | nil => simp [writeRow] at h
      | cons e row =>
        simp only [writeRow] at h
        split at h
        · exact absurd h (by simp)
        next r hr =>
        split at h
        · exact absurd h (by simp)
        next r' hr' =>
        simp only [Option.some.injEq, Prod.mk.injEq] at h
        rw [← h.1]
        simp only [List.map_cons]
        rw [hw b r.1 e f r.2 hr, ih r'.1 row r.2 r'.2 hr']
  induction ops generalizing bs f with
  | nil =>
    simp only [steps, Option.some.injEq, Prod.mk.injEq] at h
    rw [h.1]
  | cons o ops ih =>
    simp only [steps] at h
    split at h
    · exact absurd h (by simp)
    next s' hs' =>
    have h2 := ih (bs := s'.1) (f := s'.2) h
    cases o with
    | write row => rw [h2, hr bs s'.1 row f s'.2 hs']
    | other n => simp only [step, Option.some.injEq] at hs'; subst hs'; exact h2

theorem delivered_get {rows : List (List Bytes)} {off i : Nat} {out : List (Nat × List Bytes)}
    (h : Delivered rows off i out) : ∀ (n : Nat) o, out[n]? = some o →
      o.1 = off + i + n ∧ ∃ row, rows[i + n]? = some row ∧ All2 (fun e v => e <+: v) row o.2 := by
  induction out generalizing i with
  | nil => intro n o h; simp at h
  | cons a out ih =>
    intro n o ho
    cases n with
    | zero =>
      simp only [List.getElem?_cons_zero, Option.some.injEq] at ho
      subst ho
      exact ⟨by have := h.1; omega, h.2.1⟩
    | succ n =>
      simp only [List.getElem?_cons_succ] at ho
      have := ih h.2.2 n o ho
      rw [show i + (n + 1) = i + 1 + n by omega]
      exact ⟨by omega, this.2⟩

/-- What the tables of a written tree say, column by column. -/
theorem written_tables_len (z : Bytes → Bytes) (conf : List Conf) (f0 : File) (ops : List Op)
    (s : List Branch × File) (ts : List Tables) (f1 f : File)
    (hconf : ConfOk conf) (hf0 : ∀ p s, f0.disk p = some s → p < f0.fend)
    (hrows : ∀ row ∈ rowsOf ops, All2 ColFits conf row)
    (hcnt : (rowsOf ops).length + 1 < 2 ^ 31)
    (hw : steps z ops (newWriter conf f0, f0) = some s)
    (hc : closeTree z s = some (ts, f1)) (hlater : Later f1 f) :
    ∃ cols, Cols (rowsOf ops) cols ∧ All2 (fun t es => ∃ k, TabInv f k t es) ts cols ∧
      cols.length = conf.length := by
  obtain ⟨bs, fs⟩ := s
  have hbase : ∀ b ∈ newWriter conf f0, 0 < b.base := by
    intro b hb
    obtain ⟨c, hc, rfl⟩ := List.mem_map.mp hb
    exact (hconf c hc).1
  have hcols0 : Cols [] (conf.map fun _ => ([] : List Bytes)) := by
    constructor
    · intro c hc; obtain ⟨_, _, rfl⟩ := List.mem_map.mp hc; rfl
    · intro i row h; simp at h
  obtain ⟨cols, h1, h2, h3, h4⟩ := steps_inv (newWriter_inv conf f0) hcols0 hf0 hbase
    (fun row hr => newWriter_fits (hrows row hr)) (by simpa using hcnt) hw
  rw [List.nil_append] at h2
  unfold closeTree at hc
  obtain ⟨r, hr1, hr2⟩ := Option.map_eq_some_iff.mp hc
  simp only [Prod.mk.injEq] at hr2
  have hbd : ∀ b ∈ bs, 0 < b.base ∧ b.base + 8 + b.bsize.toNat < 2 ^ 31 := by
    intro b hb
    have hcf := steps_conf hw
    have : (b.kind, b.base, b.bsize) ∈ bs.map (fun b => (b.kind, b.base, b.bsize)) :=
      List.mem_map.mpr ⟨b, hb, rfl⟩
    rw [hcf] at this
    obtain ⟨b0, hb0, he⟩ := List.mem_map.mp this
    obtain ⟨c, hc, rfl⟩ := List.mem_map.mp hb0
    have := hconf c hc
    simp only [newBranch, Prod.mk.injEq] at he
    rw [← he.2.1, ← he.2.2]
    exact this
  obtain ⟨t1, t2⟩ := flushAll_inv (bs' := r.1) (f' := r.2) h1 h3 hbd
    (fun c hc => by rw [h2.1 c hc]; omega) hr1
  rw [hr2.1, hr2.2] at t1
  have t3 : All2 (fun t es => ∃ k, TabInv f k t es) ts cols :=
    t1.imp fun t es ⟨k, h⟩ => ⟨k, h.later hlater⟩
  refine ⟨cols, h2, t3, ?_⟩
  rw [← All2.length h1]
  have := congrArg List.length (steps_conf hw)
  simpa [newWriter] using this

theorem written_tables (z : Bytes → Bytes) (conf : List Conf) (f0 : File) (ops : List Op)
    (s : List Branch × File) (ts : List Tables) (f1 f : File)
    (hconf : ConfOk conf) (hf0 : ∀ p s, f0.disk p = some s → p < f0.fend)
    (hrows : ∀ row ∈ rowsOf ops, All2 ColFits conf row)
    (hcnt : (rowsOf ops).length + 1 < 2 ^ 31)
    (hw : steps z ops (newWriter conf f0, f0) = some s)
    (hc : closeTree z s = some (ts, f1)) (hlater : Later f1 f) :
    ∃ cols, Cols (rowsOf ops) cols ∧ All2 (fun t es => ∃ k, TabInv f k t es) ts cols := by
  obtain ⟨cols, h1, h2, _⟩ :=
    written_tables_len z conf f0 ops s ts f1 f hconf hf0 hrows hcnt hw hc hlater
  exact ⟨cols, h1, h2⟩

/-- **C18.**  Write rows to a tree, whatever the basket sizes, whatever else is written to the
file in between, and however well the baskets compress; close the writer and open the tree
again.  Then reading `[beg, fin)` succeeds and calls back exactly `fin - beg` times: the
`n`-th call has entry number `beg + n` (plus the offset of the tree in a chain), and every
column's buffer starts with the bytes which were written for that entry. -/
theorem C18_read (z : Bytes → Bytes) (conf : List Conf) (f0 : File) (ops : List Op)
    (s : List Branch × File) (ts : List Tables) (f1 f : File)
    (hconf : ConfOk conf) (hf0 : ∀ p s, f0.disk p = some s → p < f0.fend)
    (hrows : ∀ row ∈ rowsOf ops, All2 ColFits conf row)
    (hcnt : (rowsOf ops).length + 1 < 2 ^ 31)
    (hw : steps z ops (newWriter conf f0, f0) = some s)
    (hc : closeTree z s = some (ts, f1)) (hlater : Later f1 f)
    (off beg fin : Nat) (hbf : beg ≤ fin) (hfin : fin ≤ (rowsOf ops).length) :
    ∃ out, readTree f ts off beg fin = some out ∧ out.length = fin - beg ∧
      ∀ (n : Nat) o, out[n]? = some o → o.1 = off + beg + n ∧
        ∃ row, (rowsOf ops)[beg + n]? = some row ∧ All2 (fun e v => e <+: v) row o.2 := by
  obtain ⟨cols, h2, t3⟩ := written_tables z conf f0 ops s ts f1 f hconf hf0 hrows hcnt hw hc hlater
  obtain ⟨rbs, b1, b2⟩ := openAll_inv (fin := fin) t3 hbf
    (fun c hc => by rw [h2.1 c hc]; exact hfin)
  obtain ⟨rbs', s1, s2⟩ := startAll_inv b2
  obtain ⟨out, o1, o2, o3⟩ := runLoop_inv (off := off) h2 hfin (n := fin - beg) (i := beg)
    (by omega) (s2.imp (fun h => by omega) id)
  refine ⟨out, ?_, o2, ?_⟩
  · unfold readTree; rw [b1]; dsimp only; rw [s1]; exact o1
  · exact delivered_get o3

/-- Decoding the buffers of one entry, column by column. -/
def decodeRow {α : Type} (decs : List (Bytes → Option α)) (vs : List Bytes) : List (Option α) :=
  List.zipWith (fun d v => d v) decs vs

/-- A codec of a leaf: what it reads is decided by what was written, whatever follows in the
buffer. -/
def Codec {α : Type} (enc : α → Bytes) (dec : Bytes → Option α) : Prop :=
  ∀ v rest, dec (enc v ++ rest) = some v

theorem decode_row {α : Type} {encs : List (α → Bytes)} {decs : List (Bytes → Option α)}
    (h : All2 Codec encs decs) {vals : List α} {vs : List Bytes}
    (hl : vals.length = encs.length)
    (hv : All2 (fun e v => e <+: v) (List.zipWith (fun e v => e v) encs vals) vs) :
    decodeRow decs vs = vals.map some := by
  unfold decodeRow
  induction encs generalizing decs vals vs with
  | nil =>
    cases vals with
    | nil => cases decs with
      | nil => simp
      | cons => exact absurd h (by simp [All2])
    | cons => simp at hl
  | cons en encs ih =>
    cases vals with
    | nil => simp at hl
    | cons v vals =>
      cases decs with
      | nil => exact absurd h (by simp [All2])
      | cons d decs =>
        cases vs with
        | nil => exact absurd hv (by simp [All2])
        | cons b vs =>
          simp only [List.zipWith_cons_cons] at hv ⊢
          rw [ih h.2 (by simpa using hl) hv.2, List.map_cons]
          obtain ⟨rest, hrest⟩ := hv.1
          rw [← hrest, h.1 v rest]

/-- **C18, values.**  With leaf codecs which read back what they wrote, reading `[beg, fin)`
gives exactly the values written for the entries `beg … fin-1`, in order, each with its number. -/
theorem C18_values {α : Type} (encs : List (α → Bytes)) (decs : List (Bytes → Option α))
    (hcodec : All2 Codec encs decs) (vals : List (List α))
    (hwidth : ∀ v ∈ vals, v.length = encs.length)
    (z : Bytes → Bytes) (conf : List Conf) (f0 : File) (ops : List Op)
    (hops : rowsOf ops = vals.map fun v => List.zipWith (fun e x => e x) encs v)
    (s : List Branch × File) (ts : List Tables) (f1 f : File)
    (hconf : ConfOk conf) (hf0 : ∀ p s, f0.disk p = some s → p < f0.fend)
    (hrows : ∀ row ∈ rowsOf ops, All2 ColFits conf row)
    (hcnt : vals.length + 1 < 2 ^ 31)
    (hw : steps z ops (newWriter conf f0, f0) = some s)
    (hc : closeTree z s = some (ts, f1)) (hlater : Later f1 f)
    (beg fin : Nat) (hbf : beg ≤ fin) (hfin : fin ≤ vals.length) :
    (readTree f ts 0 beg fin).map (fun out => out.map fun o => (o.1, decodeRow decs o.2))
      = some (((vals.drop beg).take (fin - beg)).mapIdx fun n v => (beg + n, v.map some)) := by
  have hl : (rowsOf ops).length = vals.length := by rw [hops, List.length_map]
  obtain ⟨out, h1, h2, h3⟩ := C18_read z conf f0 ops s ts f1 f hconf hf0 hrows (by omega) hw hc
    hlater 0 beg fin hbf (by omega)
  rw [h1, Option.map_some]
  congr 1
  apply List.ext_getElem?
  intro n
  rw [List.getElem?_map, List.getElem?_mapIdx]
  by_cases hn : n < fin - beg
  · have ho : out[n]? = some out[n] := List.getElem?_eq_getElem (by omega)
    obtain ⟨e1, row, e2, e3⟩ := h3 n _ ho
    have hv : ((vals.drop beg).take (fin - beg))[n]? = some vals[beg + n] := by
      rw [List.getElem?_take_of_lt hn, List.getElem?_drop]
      exact List.getElem?_eq_getElem (by omega)
    rw [ho, hv]
    simp only [Option.map_some, Option.some.injEq, Prod.mk.injEq]
    refine ⟨by omega, ?_⟩
    rw [hops, List.getElem?_map, List.getElem?_eq_getElem (by omega)] at e2
    simp only [Option.map_some, Option.some.injEq] at e2
    rw [← e2] at e3
    exact decode_row hcodec (hwidth _ (List.getElem_mem _)) e3
  · rw [List.getElem?_eq_none (by omega), List.getElem?_eq_none (by
      rw [List.length_take, List.length_drop]; omega)]
    rfl

/-- **C18, tables.**  The basket tables of a branch come back from the file as they were,
whatever their length. -/
theorem C18_tables (b : Branch) (h1 : b.seek.length = b.bytes.length)
    (h2 : b.entry.length = b.bytes.length + 1) :
    (b.marshal.unmarshal.bytes, b.marshal.unmarshal.entry, b.marshal.unmarshal.seek)
      = (b.bytes, b.entry, b.seek) := by
  obtain ⟨h3, h4, h5⟩ := tables_roundtrip b h1 h2
  rw [h3, h4, h5]

/-! ### Where the baskets are -/

/-- The records of a file have the size of their key and compressed payload, lie inside of the
file and do not overlap. -/
structure Extents (z : Bytes → Bytes) (f : File) : Prop where
  size : ∀ p s, f.disk p = some s → s.nbytes = s.keylen + (z s.payload).length
  inside : ∀ p s, f.disk p = some s → p + s.nbytes ≤ f.fend
  apart : ∀ p q s t, f.disk p = some s → f.disk q = some t → p < q → p + s.nbytes ≤ q

theorem writeFile_extents {z : Bytes → Bytes} {base : Nat} {bk : Basket} {f : File}
    (h : Extents z f) (hpos : ∀ p s, f.disk p = some s → p < f.fend) :
    Extents z (bk.writeFile base z f).2.2 ∧
      ∀ p s, (bk.writeFile base z f).2.2.disk p = some s →
        p < (bk.writeFile base z f).2.2.fend ∨ p = f.fend := by
  refine ⟨⟨?_, ?_, ?_⟩, ?_⟩
  · intro p s hs
    simp only [Basket.writeFile] at hs
    split at hs
    · cases hs; rfl
    · exact h.size p s hs
  · intro p s hs
    simp only [Basket.writeFile] at hs ⊢
    split at hs
    · next hp => cases hs; subst hp; exact Nat.le_refl _
    · have := h.inside p s hs; omega
  · intro p q s t hs ht hpq
    simp only [Basket.writeFile] at hs ht
    split at hs
    · next hp =>
      split at ht
      · omega
      · have := hpos q t ht; omega
    · split at ht
      · next hq => subst hq; exact h.inside p s hs
      · exact h.apart p q s t hs ht hpq
  · intro p s hs
    simp only [Basket.writeFile] at hs ⊢
    split at hs
    · exact Or.inr (by assumption)
    · have := hpos p s hs; left; omega

/-- A file in order: nothing at or beyond its end. -/
def Sound (z : Bytes → Bytes) (f : File) : Prop :=
  Extents z f ∧ ∀ p s, f.disk p = some s → p < f.fend

theorem flush_sound {z : Bytes → Bytes} {b b' : Branch} {f f' : File} (hb : 0 < b.base)
    (h : Sound z f) (hf : b.flush z f = some (b', f')) :
    Sound z f' ∧ b'.base = b.base := by
  unfold Branch.flush at hf
  split at hf
  · exact absurd hf (by simp)
  · next bk _ =>
    simp only [Option.some.injEq, Prod.mk.injEq] at hf
    obtain ⟨h1, h2⟩ := writeFile_extents (base := b.base) (bk := bk) h.1 h.2
    rw [← hf.2, ← hf.1]
    refine ⟨⟨h1, fun p s hs => ?_⟩, rfl⟩
    rcases h2 p s hs with h3 | h3
    · exact h3
    · rw [h3]
      simp only [Basket.writeFile, keylenFor]
      omega

theorem write_sound {z : Bytes → Bytes} {b b' : Branch} {f f' : File} {e : Bytes}
    (hb : 0 < b.base) (h : Sound z f) (hw : b.write z f e = some (b', f')) :
    Sound z f' ∧ b'.base = b.base := by
  unfold Branch.write at hw
  split at hw
  · exact absurd hw (by simp)
  · split at hw
    · exact absurd hw (by simp)
    · dsimp only at hw
      split at hw
      · split at hw
        · exact absurd hw (by simp)
        · next r hr =>
          simp only [Option.some.injEq, Prod.mk.injEq] at hw
          have := flush_sound (b' := r.1) (f' := r.2) (by exact hb) h hr
          rw [← hw.1, ← hw.2]
          exact this
      · simp only [Option.some.injEq, Prod.mk.injEq] at hw
        rw [← hw.1, ← hw.2]
        exact ⟨h, rfl⟩

theorem writeRow_sound {z : Bytes → Bytes} {bs bs' : List Branch} {f f' : File}
    {row : List Bytes} (hb : ∀ b ∈ bs, 0 < b.base) (h : Sound z f)
    (hw : writeRow z bs row f = some (bs', f')) : Sound z f' ∧ ∀ b ∈ bs', 0 < b.base := by
  induction bs generalizing f row bs' f' with
  | nil =>
    cases row with
    | nil =>
      simp only [writeRow, Option.some.injEq, Prod.mk.injEq] at hw
      rw [← hw.1, ← hw.2]; exact ⟨h, by simp⟩
    | cons => simp [writeRow] at hw
  | cons b bs ih =>
    cases row with
    | nil => simp [writeRow] at hw
    | cons e row =>
      simp only [writeRow] at hw
      split at hw
      · exact absurd hw (by simp)
      · next r hr =>
        split at hw
        · exact absurd hw (by simp)
        · next r' hr' =>
          simp only [Option.some.injEq, Prod.mk.injEq] at hw
          obtain ⟨w1, w2⟩ := write_sound (b' := r.1) (f' := r.2) (hb b (by simp)) h hr
          obtain ⟨i1, i2⟩ := ih (bs' := r'.1) (f' := r'.2) (fun x hx => hb x (by simp [hx])) w1 hr'
          rw [← hw.1, ← hw.2]
          refine ⟨i1, fun x hx => ?_⟩
          rcases List.mem_cons.mp hx with rfl | hx
          · rw [w2]; exact hb b (by simp)
          · exact i2 x hx

theorem flushAll_sound {z : Bytes → Bytes} {bs bs' : List Branch} {f f' : File}
    (hb : ∀ b ∈ bs, 0 < b.base) (h : Sound z f) (hw : flushAll z bs f = some (bs', f')) :
    Sound z f' := by
  induction bs generalizing f bs' f' with
  | nil =>
    simp only [flushAll, Option.some.injEq, Prod.mk.injEq] at hw
    rw [← hw.2]; exact h
  | cons b bs ih =>
    simp only [flushAll] at hw
    split at hw
    · exact absurd hw (by simp)
    · next r hr =>
      split at hw
      · exact absurd hw (by simp)
      · next r' hr' =>
        simp only [Option.some.injEq, Prod.mk.injEq] at hw
        rw [← hw.2]
        exact ih (bs' := r'.1) (f' := r'.2) (fun x hx => hb x (by simp [hx]))
          (flush_sound (b' := r.1) (f' := r.2) (hb b (by simp)) h hr).1 hr'

theorem steps_sound {z : Bytes → Bytes} {ops : List Op} {s s' : List Branch × File}
    (hb : ∀ b ∈ s.1, 0 < b.base) (h : Sound z s.2) (hs : steps z ops s = some s') :
    Sound z s'.2 ∧ ∀ b ∈ s'.1, 0 < b.base := by
  induction ops generalizing s with
  | nil => simp only [steps, Option.some.injEq] at hs; subst hs; exact ⟨h, hb⟩
  | cons o ops ih =>
    simp only [steps] at hs
    split at hs
    · exact absurd hs (by simp)
    · next s1 h1 =>
      cases o with
      | write row =>
        obtain ⟨w1, w2⟩ := writeRow_sound (bs' := s1.1) (f' := s1.2) hb h h1
        exact ih w2 w1 hs
      | other n =>
        simp only [step, Option.some.injEq] at h1
        subst h1
        refine ih (s := (s.1, { s.2 with fend := s.2.fend + n })) hb
          ⟨⟨h.1.size, fun p t ht => ?_, h.1.apart⟩, fun p t ht => ?_⟩ hs
        · have := h.1.inside p t ht; dsimp only; omega
        · have := h.2 p t ht; dsimp only; omega

/-- **C18, extents.**  However rows are written, and whatever goes to the file in between, the
records of all baskets have the size of their key and compressed payload, they lie within the
file, and no two of them overlap. -/
theorem C18_extents (z : Bytes → Bytes) (conf : List Conf) (f0 : File) (ops : List Op)
    (s : List Branch × File) (ts : List Tables) (f1 : File)
    (hconf : ConfOk conf) (hf0 : ∀ p s, f0.disk p = some s → p < f0.fend) (he : Extents z f0)
    (hw : steps z ops (newWriter conf f0, f0) = some s)
    (hc : closeTree z s = some (ts, f1)) : Extents z f1 := by
  have hbase : ∀ b ∈ newWriter conf f0, 0 < b.base := by
    intro b hb
    obtain ⟨c, hc, rfl⟩ := List.mem_map.mp hb
    exact (hconf c hc).1
  obtain ⟨h1, h2⟩ := steps_sound (z := z) hbase ⟨he, hf0⟩ hw
  unfold closeTree at hc
  obtain ⟨r, hr1, hr2⟩ := Option.map_eq_some_iff.mp hc
  simp only [Prod.mk.injEq] at hr2
  rw [← hr2.2]
  exact (flushAll_sound (bs' := r.1) (f' := r.2) h2 h1 hr1).1

/-! ### The writer does not panic -/

/-- The table of offsets of the current basket has the size the basket says it has. -/
def Roomy (b : Branch) : Prop :=
  ∃ bk, b.bk = some bk ∧ (b.kind.eoff = 0 → bk.offsets = []) ∧
    (b.kind.eoff ≠ 0 → bk.offsets.length = bk.nevsize ∧ bk.nevbuf < bk.nevsize ∧
      (b.kind = .counted → 1000 ≤ bk.nevsize))

theorem newBasket_roomy {k : Kind} {base : Nat} {f : File} :
    (k.eoff = 0 → (newBasket k base f).offsets = []) ∧
    (k.eoff ≠ 0 → (newBasket k base f).offsets.length = (newBasket k base f).nevsize ∧
      (newBasket k base f).nevbuf < (newBasket k base f).nevsize ∧
      (k = .counted → 1000 ≤ (newBasket k base f).nevsize)) := by
  refine ⟨fun h => by simp [newBasket, h], fun h => ⟨by simp [newBasket], ?_, ?_⟩⟩
  · show 0 < k.eoff; omega
  · rintro rfl; exact Nat.le_refl _

/-- Values which do not outgrow the offset table: strings and counted slices of at most 1000
bytes. -/
def Small (k : Kind) (e : Bytes) : Prop := k = .counted → e.length ≤ 1000

theorem update_some {b : Basket}
    (h : b.offsets = [] ∨ b.offsets.length = b.nevsize ∧ b.nevbuf < b.nevsize) (o : Nat) :
    ∃ b', b.update o = some b' ∧ (b.offsets = [] → b'.offsets = []) ∧
      (b.offsets ≠ [] → b'.offsets.length = b'.nevsize ∧ b'.nevbuf < b'.nevsize ∧
        b.nevsize ≤ b'.nevsize) := by
  unfold Basket.update
  by_cases h0 : b.offsets = []
  · rw [if_pos h0]
    exact ⟨_, rfl, fun h => h, fun h => absurd h0 h⟩
  · rw [if_neg h0]
    rcases h with h | ⟨h1, h2⟩
    · exact absurd h h0
    by_cases h3 : b.nevbuf + 1 ≥ b.nevsize
    · rw [if_pos h3]
      dsimp only
      have hlen : (b.offsets ++
          List.replicate (absDiff b.offsets.length (max 10 (2 * b.nevsize))) 0).length
          = max 10 (2 * b.nevsize) := by
        rw [List.length_append, List.length_replicate]
        unfold absDiff
        omega
      rw [if_pos (by rw [hlen]; omega)]
      refine ⟨_, rfl, fun h => absurd h h0, fun _ => ⟨?_, ?_, ?_⟩⟩
      · simp only [List.length_set]; exact hlen
      · simp only; omega
      · simp only; omega
    · rw [if_neg h3, if_pos (by omega)]
      refine ⟨_, rfl, fun h => absurd h h0, fun _ => ⟨?_, ?_, ?_⟩⟩
      · simp only [List.length_set]; exact h1
      · simp only; omega
      · simp only; omega

theorem fit_roomy {k : Kind} {b : Basket} {e : Bytes}
    (h : b.offsets.length = b.nevsize ∧ b.nevbuf < b.nevsize)
    (hk : k.eoff ≠ 0) (hc : k = .counted → 1000 ≤ b.nevsize) (hs : Small k e) :
    (Basket.fit k b e.length).offsets.length = (Basket.fit k b e.length).nevsize ∧
    (Basket.fit k b e.length).nevbuf < (Basket.fit k b e.length).nevsize ∧
    (k = .counted → 1000 ≤ (Basket.fit k b e.length).nevsize) := by
  unfold Basket.fit
  split
  · next hgt =>
    split
    · next he =>
      refine ⟨?_, ?_, ?_⟩
      · simp only [Basket.grow, List.length_append, List.length_replicate, absDiff]; omega
      · simp only [Basket.grow]; omega
      · rintro rfl; exact absurd he (by simp [Kind.elem])
    · next he =>
      have hkc : k = .counted := by cases k <;> simp_all [Kind.elem, Kind.eoff]
      have := hs hkc
      have := hc hkc
      omega
  · exact ⟨h.1, h.2, hc⟩

theorem write_some {z : Bytes → Bytes} {b : Branch} {f : File} {e : Bytes} (h : Roomy b)
    (hs : Small b.kind e) :
    ∃ r, b.write z f e = some r ∧ Roomy r.1 ∧ r.1.kind = b.kind := by
  obtain ⟨bk, h1, h2, h3⟩ := h
  unfold Branch.write
  rw [h1]
  dsimp only
  have hpre : bk.offsets = [] ∨ bk.offsets.length = bk.nevsize ∧ bk.nevbuf < bk.nevsize := by
    by_cases h0 : b.kind.eoff = 0
    · exact Or.inl (h2 h0)
    · exact Or.inr ⟨(h3 h0).1, (h3 h0).2.1⟩
  obtain ⟨bk1, u1, u2, u3⟩ := update_some hpre bk.wbuf.length
  rw [u1]
  dsimp only
  have hroom : Roomy { b with
      entries := b.entries + 1
      bk := some (Basket.fit b.kind { bk1 with wbuf := bk1.wbuf ++ e } e.length) } := by
    refine ⟨_, rfl, fun h0 => ?_, fun h0 => ?_⟩
    · obtain ⟨m, hm, hm0⟩ := fit_offsets b.kind { bk1 with wbuf := bk1.wbuf ++ e } e.length
      have : b.kind.elem = false := by
        obtain ⟨n, hn⟩ := eoff_zero (k := b.kind) h0
        rw [hn]; rfl
      show (Basket.fit b.kind { bk1 with wbuf := bk1.wbuf ++ e } e.length).offsets = []
      rw [hm, hm0 this]
      simp [u2 (h2 h0)]
    · obtain ⟨g1, g2, g3⟩ := h3 h0
      have hne : bk.offsets ≠ [] := by
        intro hx; rw [hx] at g1; simp only [List.length_nil] at g1; omega
      obtain ⟨v1, v2, v3⟩ := u3 hne
      exact fit_roomy (b := { bk1 with wbuf := bk1.wbuf ++ e }) ⟨v1, v2⟩ h0
        (fun hc => Nat.le_trans (g3 hc) v3) hs
  split
  · refine ⟨_, rfl, ⟨_, rfl, ?_⟩, rfl⟩
    exact newBasket_roomy
  · exact ⟨_, rfl, hroom, rfl⟩

theorem row_some {z : Bytes → Bytes} {bs : List Branch} {row : List Bytes} {f : File}
    (h : ∀ b ∈ bs, Roomy b) (hs : All2 (fun b e => Small b.kind e) bs row) :
    ∃ r, writeRow z bs row f = some r ∧ (∀ b ∈ r.1, Roomy b) ∧
      r.1.map (·.kind) = bs.map (·.kind) := by
  induction bs generalizing row f with
  | nil => cases row with
    | nil => exact ⟨_, rfl, by simp, rfl⟩
    | cons => exact absurd hs (by simp [All2])
  | cons b bs ih => cases row with
    | nil => exact absurd hs (by simp [All2])
    | cons e row =>
      obtain ⟨r, r1, r2, r3⟩ := write_some (z := z) (f := f) (h b (by simp)) hs.1
      obtain ⟨r', s1, s2, s3⟩ := ih (f := r.2) (fun x hx => h x (by simp [hx])) hs.2
      refine ⟨(r.1 :: r'.1, r'.2), by simp only [writeRow, r1, s1], ?_, by simp [r3, s3]⟩
      intro x hx
      rcases List.mem_cons.mp hx with rfl | hx
      · exact r2
      · exact s2 x hx

theorem small_conf {bs bs' : List Branch} {row : List Bytes}
    (h : bs'.map (·.kind) = bs.map (·.kind)) (hs : All2 (fun b e => Small b.kind e) bs row) :
    All2 (fun b e => Small b.kind e) bs' row := by
  induction bs generalizing bs' row with
  | nil => cases bs' with
    | nil => exact hs
    | cons => simp at h
  | cons b bs ih => cases bs' with
    | nil => simp at h
    | cons b' bs' => cases row with
      | nil => exact absurd hs (by simp [All2])
      | cons e row =>
        simp only [List.map_cons, List.cons.injEq] at h
        exact ⟨by show Small b'.kind e; rw [h.1]; exact hs.1, ih h.2 hs.2⟩

theorem steps_some {z : Bytes → Bytes} {ops : List Op} {s : List Branch × File}
    (h : ∀ b ∈ s.1, Roomy b)
    (hs : ∀ row ∈ rowsOf ops, All2 (fun b e => Small b.kind e) s.1 row) :
    ∃ s', steps z ops s = some s' ∧ ∀ b ∈ s'.1, Roomy b := by
  induction ops generalizing s with
  | nil => exact ⟨s, rfl, h⟩
  | cons o ops ih =>
    cases o with
    | write row =>
      obtain ⟨r, r1, r2, r3⟩ := row_some (z := z) (f := s.2) h (hs row (by simp [rowsOf]))
      obtain ⟨s', s1, s2⟩ := ih (s := r) r2
        (fun x hx => small_conf r3 (hs x (by simp [rowsOf, hx])))
      exact ⟨s', by simp only [steps, step, r1, s1], s2⟩
    | other n =>
      obtain ⟨s', s1, s2⟩ := ih (s := (s.1, { s.2 with fend := s.2.fend + n })) h
        (fun x hx => hs x (by simpa [rowsOf] using hx))
      exact ⟨s', by simp only [steps, step, s1], s2⟩

theorem flushAll_some {z : Bytes → Bytes} {bs : List Branch} {f : File}
    (h : ∀ b ∈ bs, Roomy b) : ∃ r, flushAll z bs f = some r := by
  induction bs generalizing f with
  | nil => exact ⟨_, rfl⟩
  | cons b bs ih =>
    obtain ⟨bk, h1, _⟩ := h b (by simp)
    have : ∃ r, b.flush z f = some r := by
      unfold Branch.flush; rw [h1]; exact ⟨_, rfl⟩
    obtain ⟨r, hr⟩ := this
    obtain ⟨r', hr'⟩ := ih (f := r.2) (fun x hx => h x (by simp [hx]))
    exact ⟨(r.1 :: r'.1, r'.2), by simp only [flushAll, hr, hr']⟩

/-- **C18, writing (partial).**  Writing any number of rows and closing the tree does not
panic, provided no string or counted slice is longer than 1000 bytes.  What is missing is
shown by `C18_long_string_counterexample`. -/
theorem C18_write_partial (z : Bytes → Bytes) (conf : List Conf) (f : File) (ops : List Op)
    (hs : ∀ row ∈ rowsOf ops, All2 (fun c e => c.1 = .counted → e.length ≤ 1000) conf row) :
    ∃ s, steps z ops (newWriter conf f, f) = some s ∧ ∃ r, closeTree z s = some r := by
  have hroom : ∀ b ∈ newWriter conf f, Roomy b := by
    intro b hb
    obtain ⟨c, _, rfl⟩ := List.mem_map.mp hb
    exact ⟨_, rfl, newBasket_roomy⟩
  have hsm : ∀ row ∈ rowsOf ops, All2 (fun b e => Small b.kind e) (newWriter conf f) row := by
    intro row hr
    have := hs row hr
    clear hs hr hroom
    induction conf generalizing row with
    | nil => cases row with
      | nil => trivial
      | cons => exact absurd this (by simp [All2])
    | cons c conf ih => cases row with
      | nil => exact absurd this (by simp [All2])
      | cons e row => exact ⟨this.1, ih row this.2⟩
  obtain ⟨s, s1, s2⟩ := steps_some (z := z) (ops := ops) (s := (newWriter conf f, f)) hroom hsm
  obtain ⟨r, hr⟩ := flushAll_some (z := z) (f := s.2) s2
  exact ⟨s, s1, _, by unfold closeTree; rw [hr]; rfl⟩

/-- A tree with a column of 4-byte numbers and one of strings. -/
def conf2 : List Conf := [(.fixed 4, 60, 12), (.counted, 60, 32)]

def file0 : File := ⟨100, fun _ => none⟩

/-- A file about to become big. -/
def fileBig : File := ⟨1999999950, fun _ => none⟩

def ops2 : List Op :=
  [.write [[1, 1, 1, 1], [5]], .write [[2, 2, 2, 2], [6, 6]], .other 1000,
   .write [[3, 3, 3, 3], []], .write [[4, 4, 4, 4], [7, 7, 7]]]

/-- The hypotheses of `C18_read` are met, with several baskets in the first column … -/
example : ConfOk conf2 ∧ (∀ row ∈ rowsOf ops2, All2 ColFits conf2 row) := by
  constructor
  · intro c hc; simp [conf2] at hc; rcases hc with rfl | rfl <;> decide
  · intro row hr
    simp [ops2, rowsOf] at hr
    rcases hr with rfl | rfl | rfl | rfl <;>
      refine ⟨⟨?_, by decide⟩, ⟨?_, by decide⟩, trivial⟩ <;> intro n hn <;> simp at hn <;> subst hn <;> rfl

example : ((steps id ops2 (newWriter conf2 file0, file0)).bind (closeTree id)).map
    (fun r => r.1.map fun t => t.entry) = some [[0, 2, 4, 4], [0, 4]] := by decide +kernel

/-- … and reading gives the rows back, also when the file becomes big while a basket with an
offset table is being filled. -/
example : (((steps id ops2 (newWriter conf2 fileBig, fileBig)).bind (closeTree id)).bind
      fun r => readTree r.2 r.1 0 1 4).map
      (fun out => out.map fun o => (o.1, List.zipWith (fun n v => v.take n) [4, 3] o.2))
    = some [(1, [[2, 2, 2, 2], [6, 6, 7]]), (2, [[3, 3, 3, 3], [7, 7, 7]]),
            (3, [[4, 4, 4, 4], [7, 7, 7]])] := by decide +kernel

/-- A basket whose table of offsets is shorter than it believes, holding `m` entries. -/
def Short (b : Branch) (m : Nat) : Prop :=
  b.kind = .counted ∧ b.bsize = 32000 ∧ ∃ bk, b.bk = some bk ∧ bk.offsets.length = 1000 ∧
    bk.nevsize = 1002 ∧ bk.nevbuf = m ∧ bk.wbuf.length = 1001 + m

theorem short_write {z : Bytes → Bytes} {b : Branch} {f : File} {m : Nat} (h : Short b m)
    (hm : m < 1000) : ∃ b', b.write z f [0] = some (b', f) ∧ Short b' (m + 1) := by
  obtain ⟨h1, h2, bk, h3, h4, h5, h6, h7⟩ := h
  have hne : bk.offsets ≠ [] := by intro hx; rw [hx] at h4; simp at h4
  have hu : bk.update bk.wbuf.length = some { bk with
      offsets := bk.offsets.set m (bk.wbuf.length + bk.keylen), nevbuf := m + 1 } := by
    unfold Basket.update
    rw [if_neg hne, if_neg (by omega), if_pos (by omega), h6]
  unfold Branch.write
  rw [h3]
  dsimp only
  rw [hu]
  dsimp only
  have hf : Basket.fit b.kind { bk with
      offsets := bk.offsets.set m (bk.wbuf.length + bk.keylen), nevbuf := m + 1,
      wbuf := bk.wbuf ++ [0] } 1 = { bk with
      offsets := bk.offsets.set m (bk.wbuf.length + bk.keylen), nevbuf := m + 1,
      wbuf := bk.wbuf ++ [0] } := by
    unfold Basket.fit
    rw [if_neg (by simp only; omega)]
  simp only [List.length_singleton]
  rw [hf, if_neg (by simp only [List.length_append, List.length_singleton, h2]; omega)]
  refine ⟨_, rfl, h1, h2, _, rfl, ?_, h5, rfl, ?_⟩
  · simp only [List.length_set]; exact h4
  · simp only [List.length_append, List.length_singleton]; omega

theorem short_steps {z : Bytes → Bytes} {b : Branch} {f : File} (n : Nat) {m : Nat}
    (h : Short b m) (hm : m + n = 1001) (hm1 : m ≤ 1000) :
    steps z (List.replicate n (.write [[0]])) ([b], f) = none := by
  induction n generalizing b m with
  | zero => omega
  | succ n ih =>
    rw [List.replicate_succ]
    by_cases hlt : m < 1000
    · obtain ⟨b', w1, w2⟩ := short_write (z := z) (f := f) h hlt
      simp only [steps, step, writeRow, w1]
      exact ih w2 (by omega) (by omega)
    · obtain ⟨h1, h2, bk, h3, h4, h5, h6, h7⟩ := h
      have hne : bk.offsets ≠ [] := by intro hx; rw [hx] at h4; simp at h4
      have hu : bk.update bk.wbuf.length = none := by
        unfold Basket.update
        rw [if_neg hne, if_neg (by omega), if_neg (by omega)]
      simp only [steps, step, writeRow, Branch.write, h3, hu]

theorem long_write {z : Bytes → Bytes} {f : File} {b : Branch} {bk : Basket} {e : Bytes}
    (h1 : b.kind = .counted) (h2 : b.bsize = 32000) (h3 : b.bk = some bk)
    (h4 : bk.offsets.length = 1000) (h5 : bk.nevsize = 1000) (h6 : bk.nevbuf = 0)
    (h7 : bk.wbuf = []) (h8 : e.length = 1002) :
    ∃ b', b.write z f e = some (b', f) ∧ Short b' 1 := by
  have hne : bk.offsets ≠ [] := by intro hx; rw [hx] at h4; simp at h4
  have hu : bk.update bk.wbuf.length = some { bk with
      offsets := bk.offsets.set 0 (bk.wbuf.length + bk.keylen), nevbuf := 1 } := by
    unfold Basket.update
    rw [if_neg hne, if_neg (by omega), if_pos (by omega), h6]
  unfold Branch.write
  rw [h3]
  dsimp only
  rw [hu]
  dsimp only
  have hf : Basket.fit b.kind { bk with
      offsets := bk.offsets.set 0 (bk.wbuf.length + bk.keylen), nevbuf := 1,
      wbuf := bk.wbuf ++ e } e.length = { bk with
      offsets := bk.offsets.set 0 (bk.wbuf.length + bk.keylen), nevbuf := 1,
      wbuf := bk.wbuf ++ e, nevsize := e.length } := by
    unfold Basket.fit
    rw [if_pos (by simp only; omega), h1, if_neg (by simp [Kind.elem])]
  rw [hf, if_neg (by simp only [List.length_append, h2, h7, h8, List.length_nil]; omega)]
  refine ⟨_, rfl, h1, h2, _, rfl, ?_, h8, rfl, ?_⟩
  · simp only [List.length_set]; exact h4
  · simp only [List.length_append, h7, h8, List.length_nil]

/-- One string of 1002 bytes, and a thousand of one byte. -/
def longOps : List Op := .write [List.replicate 1002 0] :: List.replicate 1000 (.write [[0]])

/-- **C18, counterexample.**  A string (or counted slice) of more than 1001 bytes makes the
basket forget that its table of offsets has only 1000 elements: once the basket holds a
thousand entries the next offset is written out of range, and `Write` panics.  (Basket size
32000, the default is 32 kB.) -/
theorem C18_long_string_counterexample (z : Bytes → Bytes) (f : File) :
    steps z longOps (newWriter [(.counted, 60, 32000)] f, f) = none := by
  have hw := long_write (z := z) (f := f) (b := newBranch .counted 60 32000 f)
    (bk := newBasket .counted 60 f) (e := List.replicate 1002 0) rfl rfl rfl
    (List.length_replicate ..) rfl rfl rfl (List.length_replicate ..)
  obtain ⟨b', w1, w2⟩ := hw
  have key : ∀ n, n = 1000 → ∀ e, (newBranch .counted 60 32000 f).write z f e = some (b', f) →
      steps z (.write [e] :: List.replicate n (.write [[0]]))
        ([newBranch .counted 60 32000 f], f) = none := by
    intro n hn e he
    simp only [steps, step, writeRow, he]
    exact short_steps n w2 (by omega) (by omega)
  exact key 1000 rfl _ w1

/-- **C18, counterexample.**  After `Writer.Flush` the branches have no basket: the next
`Write`, and the flush of `Close`, dereference a nil pointer. -/
theorem C18_flush_counterexample (z : Bytes → Bytes) (b : Branch) (bs bs' : List Branch)
    (f f' f'' : File) (h : flushAll z (b :: bs) f = some (bs', f')) (row : List Bytes) :
    writeRow z bs' row f'' = none ∧ closeTree z (bs', f'') = none := by
  simp only [flushAll] at h
  split at h
  · exact absurd h (by simp)
  next r hr =>
  split at h
  · exact absurd h (by simp)
  next r' hr' =>
  simp only [Option.some.injEq, Prod.mk.injEq] at h
  have hnone : r.1.bk = none := by
    unfold Branch.flush at hr
    split at hr
    · exact absurd hr (by simp)
    · simp only [Option.some.injEq] at hr; rw [← hr]
  rw [← h.1]
  constructor
  · cases row with
    | nil => rfl
    | cons e row => simp [writeRow, Branch.write, hnone]
  · simp [closeTree, flushAll, Branch.flush, hnone]

example : (flushAll id (newWriter conf2 file0) file0).isSome = true := by decide +kernel

/-- **C18, counterexample.**  Tables with an empty basket in the middle (a `Writer` makes
none): the empty range at that point is not read but panics, in the goroutine. -/
theorem C18_empty_basket_counterexample :
    requested ⟨0, 3, 10, 10, [70, 70, 70], [0, 5, 5, 10], [100, 200, 300]⟩ 5 5 = none := by
  decide +kernel

end Verif.RTree
