import Verif.Riofs.FileLemmas
import Verif.Riofs.FileSpec

/-!
# The invariant of a ROOT file being written, and its preservation by the operations
-/

namespace Verif.Riofs

open Verif.RBytes Verif.FreeList Verif.Compress

/-- Where the header of a directory is stored. -/
def FDir.hlo (d : FDir) : Int := d.hdr.seekdir + d.hdr.nbytesname

/-- A range of the file that does not touch the header of a directory. -/
def Disj (d : FDir) (a n : Int) : Prop := a + n ≤ d.hlo ∨ d.hlo + 60 ≤ a

/-- A directory in a file that ends at `e`. -/
structure DirInv (e : Int) (d : FDir) : Prop where
  hdr : SHdr d.hdr
  lo : 100 ≤ d.hdr.seekdir
  hi : d.hlo + 60 ≤ e
  names : NamesOk d.name d.title tDirectory
  sum : (d.keys.map (fun k => k.key.keylen)).sum + 100 ≤ e

/-- A key of a directory. -/
def KeyInv (c : Codec) (spare : List UInt8) (compr : Int) (disk : List UInt8) (dirs : List FDir) (e : Int) (k : FKey) : Prop :=
  SKey k.key ∧ 100 ≤ k.key.seekkey ∧ k.key.seekkey + k.key.nbytes ≤ e ∧
  match k.what with
  | .obj p => k.key.cls ≠ tDirectory ∧ k.key.objlen = p.length ∧
      ∃ out, compress c [] spare p compr = .ok out ∧ (out ≠ p → out.length ≠ p.length) ∧
        k.key.nbytes = k.key.keylen + out.length ∧
        At disk (k.key.seekkey + k.key.keylen).toNat out ∧
        ∀ d ∈ dirs, Disj d (k.key.seekkey + k.key.keylen) out.length
  | .dir j => k.key.cls = tDirectory ∧ k.key.objlen = 60 ∧ k.key.nbytes = k.key.keylen + 60 ∧
      ∃ d, dirs[j]? = some d ∧ d.name = k.key.name ∧ d.hdr.seekdir = k.key.seekkey ∧ d.hdr.nbytesname = k.key.keylen

/-- The bytes in front of the header of the top directory. -/
def nbnFor (id : List UInt8) : Int := keylenFor id [] tFile false 0 + tstringSizeof id + tstringSizeof []

structure Inv (c : Codec) (spare : List UInt8) (f : FFile) : Prop where
  lo : 100 ≤ f.w.end_
  hi : f.w.end_ ≤ kStartBigFile
  dirs : ∀ d ∈ f.dirs, DirInv f.w.end_ d
  keys : ∀ d ∈ f.dirs, ∀ k ∈ d.keys, KeyInv c spare f.w.compression f.w.disk f.dirs f.w.end_ k
  disj : ∀ (i j : Nat) di dj, i ≠ j → f.dirs[i]? = some di → f.dirs[j]? = some dj → Disj dj di.hlo 60
  top : ∃ d0 rk, f.dirs[0]? = some d0 ∧ d0.hdr.seekdir = 100 ∧ d0.hdr.nbytesname = f.nbytesname ∧
    d0.name = f.id ∧ d0.title = [] ∧ SKey rk ∧ rk.cls = tFile ∧ rk.name = f.id ∧ rk.title = [] ∧
    At f.w.disk 100 (kbytes rk) ∧ ∀ d ∈ f.dirs, Disj d 100 rk.keylen
  nbn : f.nbytesname = nbnFor f.id
  up : ∀ (j : Nat) d, 0 < j → f.dirs[j]? = some d → ∃ (p : Nat) (dp : FDir), p < j ∧ f.dirs[p]? = some dp ∧ j ∈ dp.subs
  down : ∀ (p : Nat) (dp : FDir) j, f.dirs[p]? = some dp → j ∈ dp.subs → p < j ∧ j < f.dirs.length
  free : f.seekfree = 0 ∧ f.seekinfo = 0

/-- Bytes before the end `e` that belong to no directory header are kept. -/
def Frame (dirs : List FDir) (e : Int) (d d' : List UInt8) : Prop :=
  ∀ (a : Nat) bs, At d a bs → (a + bs.length : Int) ≤ e → (∀ x ∈ dirs, Disj x a bs.length) → At d' a bs

theorem Frame.of_record (dirs : List FDir) (e : Int) (d : List UInt8) (pos : Nat) (x y : List UInt8) (h : e ≤ pos) :
    Frame dirs e d (writeAt (writeAt d pos x) (pos + x.length) y) := by
  intro a bs h1 h2 _
  exact h1.record (by omega)

/-- What later states keep of the directories: those that were there keep their place. -/
def Grown (dirs dirs' : List FDir) (e : Int) : Prop :=
  (∀ d' ∈ dirs', e ≤ d'.hlo ∨ ∃ d ∈ dirs, d'.hlo = d.hlo) ∧
  ∀ (j : Nat) d, dirs[j]? = some d → ∃ d', dirs'[j]? = some d' ∧ d'.name = d.name ∧
    d'.hdr.seekdir = d.hdr.seekdir ∧ d'.hdr.nbytesname = d.hdr.nbytesname

theorem KeyInv.mono {c : Codec} {spare : List UInt8} {compr : Int} {disk disk' : List UInt8} {dirs dirs' : List FDir}
    {e e' : Int} {k : FKey} (h : KeyInv c spare compr disk dirs e k) (he : e ≤ e') (hf : Frame dirs e disk disk')
    (hg : Grown dirs dirs' e) : KeyInv c spare compr disk' dirs' e' k := by
  obtain ⟨h1, h2, h3, h4⟩ := h
  refine ⟨h1, h2, by omega, ?_⟩
  cases hw : k.what with
  | obj p =>
    rw [hw] at h4
    obtain ⟨h5, h6, out, h7, h8, h9, h10, h11⟩ := h4
    have hl := h1.length
    refine ⟨h5, h6, out, h7, h8, h9, hf _ _ h10 (by omega) ?_, ?_⟩
    · intro x hx
      have := h11 x hx
      rwa [show (((k.key.seekkey + k.key.keylen).toNat : Nat) : Int) = k.key.seekkey + k.key.keylen by omega]
    · intro d' hd'
      rcases hg.1 d' hd' with hd | ⟨d, hd, heq⟩
      · left; omega
      · have := h11 d hd
        unfold Disj at this ⊢
        rwa [heq]
  | dir j =>
    rw [hw] at h4
    obtain ⟨h5, h6, h7, d, h8, h9, h10, h11⟩ := h4
    obtain ⟨d', g1, g2, g3, g4⟩ := hg.2 j d h8
    exact ⟨h5, h6, h7, d', g1, by rw [g2, h9], by rw [g3, h10], by rw [g4, h11]⟩

theorem DirInv.mono {e e' : Int} {d : FDir} (h : DirInv e d) (he : e ≤ e') : DirInv e' d := by
  obtain ⟨h1, h2, h3, h4, h5⟩ := h
  exact ⟨h1, h2, by omega, h4, by omega⟩

theorem tDirectory_ok (name : List UInt8) (h : StrOk name) (hl : name.length ≤ 15000) : NamesOk name name tDirectory :=
  ⟨by have : tDirectory.length = 10 := rfl
      omega, by decide, h, h, ⟨by decide, by decide⟩⟩

/-- Replacing one element. -/
theorem mem_set_cases {α : Type} {l : List α} {i : Nat} {a b : α} (h : b ∈ l.set i a) : b = a ∨ b ∈ l := by
  rcases List.mem_or_eq_of_mem_set h with h | h
  · exact Or.inr h
  · exact Or.inl h

theorem set_get? {α : Type} {l : List α} {i : Nat} {a : α} (h : l[i]? = some a) (b : α) (j : Nat) :
    (l.set i b)[j]? = if i = j then some b else l[j]? := by
  rw [List.getElem?_set]
  have hi := (List.getElem?_eq_some_iff.mp h).1
  split
  · first | rfl | rw [if_pos (by omega)]
  · rfl

/-- What a directory shows. -/
def FKey.entry (k : FKey) : Entry :=
  ⟨k.key.name, k.key.cycle, k.key.title, match k.what with
    | .obj p => .obj k.key.cls p
    | .dir j => .dir j⟩

/-- What a file being written shows. -/
def FFile.view (f : FFile) : List (List Entry) := f.dirs.map fun d => d.keys.map FKey.entry

/-- The state after an entry was added to the directory `i`, and possibly a new directory. -/
theorem Inv.add {c : Codec} {spare : List UInt8} {f : FFile} (hI : Inv c spare f) (i : Nat) (d : FDir)
    (hd : f.dirs[i]? = some d) (nk : FKey) (js : List Nat) (nds : List FDir) (e' : Int) (x y : List UInt8)
    (hnew : (js = [] ∧ nds = []) ∨ ∃ nd, js = [f.dirs.length] ∧ nds = [nd] ∧ DirInv e' nd ∧ f.w.end_ ≤ nd.hlo ∧
      nd.keys = [] ∧ nd.subs = [])
    (he : f.w.end_ + nk.key.keylen ≤ e') (hkl : 0 ≤ nk.key.keylen) (hK : e' ≤ kStartBigFile)
    (hk : KeyInv c spare f.w.compression
      (writeAt (writeAt f.w.disk f.w.end_.toNat x) (f.w.end_.toNat + x.length) y)
      (f.dirs.set i { d with keys := d.keys ++ [nk], subs := d.subs ++ js } ++ nds) e' nk) :
    Inv c spare { f with
      w := { f.w with end_ := e', disk := writeAt (writeAt f.w.disk f.w.end_.toNat x) (f.w.end_.toNat + x.length) y }
      dirs := f.dirs.set i { d with keys := d.keys ++ [nk], subs := d.subs ++ js } ++ nds } := by
  obtain ⟨h1, h2, h3, h4, h5, h6, h7, h8, h9, h10⟩ := hI
  have hil : i < f.dirs.length := (List.getElem?_eq_some_iff.mp hd).1
  have hdm : d ∈ f.dirs := List.mem_of_getElem? hd
  generalize hd' : ({ d with keys := d.keys ++ [nk], subs := d.subs ++ js } : FDir) = d' at *
  have hhdr : d'.hdr = d.hdr := by rw [← hd']
  have hhlo : d'.hlo = d.hlo := by unfold FDir.hlo; rw [hhdr]
  have hnames : d'.name = d.name ∧ d'.title = d.title := by rw [← hd']; exact ⟨rfl, rfl⟩
  have hkeys : d'.keys = d.keys ++ [nk] := by rw [← hd']
  have hsubs : d'.subs = d.subs ++ js := by rw [← hd']
  clear hd'
  have hF : Frame f.dirs f.w.end_ f.w.disk (writeAt (writeAt f.w.disk f.w.end_.toNat x) (f.w.end_.toNat + x.length) y) :=
    Frame.of_record _ _ _ _ _ _ (by omega)
  generalize writeAt (writeAt f.w.disk f.w.end_.toNat x) (f.w.end_.toNat + x.length) y = disk' at *
  -- lookups in the new list
  have hold : ∀ (j : Nat), j < f.dirs.length → (f.dirs.set i d' ++ nds)[j]? = if i = j then some d' else f.dirs[j]? := by
    intro j hj
    rw [List.getElem?_append_left (by simpa using hj), set_get? hd]
  have hcase : ∀ (j : Nat) b, (f.dirs.set i d' ++ nds)[j]? = some b →
      (∃ a, f.dirs[j]? = some a ∧ b.hdr = a.hdr ∧ b.hlo = a.hlo ∧ b.name = a.name ∧ b.title = a.title ∧
        ((i ≠ j ∧ b = a) ∨ (i = j ∧ b = d' ∧ a = d))) ∨
      (j = f.dirs.length ∧ js = [f.dirs.length] ∧ nds = [b] ∧ DirInv e' b ∧ f.w.end_ ≤ b.hlo ∧ b.keys = [] ∧ b.subs = []) := by
    intro j b hb
    by_cases hj : j < f.dirs.length
    · left
      rw [hold j hj] at hb
      split at hb
      · rename_i hij
        subst hij
        cases hb
        exact ⟨d, hd, hhdr, hhlo, hnames.1, hnames.2, Or.inr ⟨rfl, rfl, rfl⟩⟩
      · rename_i hij
        exact ⟨b, hb, rfl, rfl, rfl, rfl, Or.inl ⟨hij, rfl⟩⟩
    · right
      rw [List.getElem?_append_right (by simp; omega), List.length_set] at hb
      rcases hnew with ⟨_, rfl⟩ | ⟨nd, g1, rfl, g3, g4, g5, g6⟩
      · simp at hb
      · have hz : j - f.dirs.length = 0 := by
          by_cases hz : j - f.dirs.length = 0
          · exact hz
          · rw [List.getElem?_eq_none (by simp; omega)] at hb
            exact absurd hb (by simp)
        rw [hz] at hb
        simp only [List.getElem?_cons_zero, Option.some.injEq] at hb
        subst hb
        exact ⟨by omega, g1, rfl, g3, g4, g5, g6⟩
  have hG : Grown f.dirs (f.dirs.set i d' ++ nds) f.w.end_ := by
    constructor
    · intro b hb
      obtain ⟨j, hj⟩ := List.getElem?_of_mem hb
      rcases hcase j b hj with ⟨a, ha, _, hh, _⟩ | ⟨_, _, _, _, hh, _⟩
      · exact Or.inr ⟨a, List.mem_of_getElem? ha, hh⟩
      · exact Or.inl hh
    · intro j a ha
      have hj := (List.getElem?_eq_some_iff.mp ha).1
      rw [hold j hj]
      split
      · rename_i hij
        subst hij
        rw [hd] at ha
        cases ha
        exact ⟨d', rfl, hnames.1, by rw [hhdr], by rw [hhdr]⟩
      · exact ⟨a, ha, rfl, rfl, rfl⟩
  refine ⟨by dsimp only; omega, hK, ?_, ?_, ?_, ?_, h7, ?_, ?_, h10⟩
  · intro b hb
    obtain ⟨j, hj⟩ := List.getElem?_of_mem hb
    rcases hcase j b hj with ⟨a, ha, _, _, _, _, hab⟩ | ⟨_, _, _, hh, _⟩
    · have hai := h3 a (List.mem_of_getElem? ha)
      rcases hab with ⟨_, rfl⟩ | ⟨_, rfl, rfl⟩
      · exact hai.mono (by dsimp only; omega)
      · obtain ⟨q1, q2, q3, q4, q5⟩ := hai
        refine ⟨by rw [hhdr]; exact q1, by rw [hhdr]; exact q2, by rw [hhlo]; dsimp only; omega,
          by rw [hnames.1, hnames.2]; exact q4, ?_⟩
        rw [hkeys, List.map_append, List.sum_append]
        simp only [List.map_cons, List.map_nil, List.sum_cons, List.sum_nil]
        omega
    · exact hh
  · intro b hb k hkb
    obtain ⟨j, hj⟩ := List.getElem?_of_mem hb
    rcases hcase j b hj with ⟨a, ha, _, _, _, _, hab⟩ | ⟨_, _, _, _, _, hh, _⟩
    · have ham := List.mem_of_getElem? ha
      rcases hab with ⟨_, rfl⟩ | ⟨_, rfl, rfl⟩
      · exact (h4 b ham k hkb).mono (by dsimp only; omega) hF hG
      · rw [hkeys] at hkb
        rcases List.mem_append.mp hkb with hkb | hkb
        · exact (h4 a ham k hkb).mono (by dsimp only; omega) hF hG
        · rw [List.mem_singleton] at hkb
          rw [hkb]; exact hk
    · rw [hh] at hkb
      simp at hkb
  · intro j1 j2 b1 b2 hne hb1 hb2
    rcases hcase j1 b1 hb1 with ⟨a1, ha1, _, g1, _⟩ | ⟨hj1, _, _, _, g1, _⟩ <;>
      rcases hcase j2 b2 hb2 with ⟨a2, ha2, _, g2, _⟩ | ⟨hj2, _, _, _, g2, _⟩
    · have := h5 j1 j2 a1 a2 hne ha1 ha2
      unfold Disj at this ⊢
      rw [g1, g2]; exact this
    · have := (h3 a1 (List.mem_of_getElem? ha1)).hi
      left; omega
    · have := (h3 a2 (List.mem_of_getElem? ha2)).hi
      right; omega
    · omega
  · obtain ⟨d0, rk, t1, t2, t3, t4, t5, t6, t7, t8, t9, t10, t11⟩ := h6
    have h0 := (List.getElem?_eq_some_iff.mp t1).1
    have hrk := t6.length
    have hrkle : 100 + rk.keylen ≤ f.w.end_ := by
      have q := t11 d0 (List.mem_of_getElem? t1)
      have q2 := (h3 d0 (List.mem_of_getElem? t1)).hi
      have q3 := (h3 d0 (List.mem_of_getElem? t1)).hdr.nbytesname
      unfold Disj FDir.hlo at q
      unfold FDir.hlo at q2
      omega
    have hAt : At disk' 100 (kbytes rk) := by
      refine hF _ _ t10 (by omega) ?_
      intro z hz
      have := t11 z hz
      rw [hrk]; exact this
    have hDis : ∀ b ∈ f.dirs.set i d' ++ nds, Disj b 100 rk.keylen := by
      intro b hb
      rcases hG.1 b hb with hb | ⟨a, ha, hba⟩
      · left; omega
      · have := t11 a ha
        unfold Disj at this ⊢
        rw [hba]; exact this
    obtain ⟨d0', g1, g2, g3, g4⟩ := hG.2 0 d0 t1
    refine ⟨d0', rk, g1, by rw [g3, t2], by rw [g4, t3], by rw [g2, t4], ?_, t6, t7, t8, t9, hAt, hDis⟩
    rcases hcase 0 d0' g1 with ⟨a, ha, _, _, _, hh, _⟩ | ⟨hh, _⟩
    · rw [ha] at t1; cases t1; rw [hh, t5]
    · omega
  · intro j b hj hb
    have hsub : ∀ (p : Nat) a, f.dirs[p]? = some a → ∃ a', (f.dirs.set i d' ++ nds)[p]? = some a' ∧ ∀ x ∈ a.subs, x ∈ a'.subs := by
      intro p a ha
      rw [hold p (List.getElem?_eq_some_iff.mp ha).1]
      split
      · rename_i hip
        subst hip
        rw [hd] at ha
        cases ha
        exact ⟨d', rfl, fun x hx => by rw [hsubs]; exact List.mem_append_left _ hx⟩
      · exact ⟨a, ha, fun x hx => hx⟩
    rcases hcase j b hb with ⟨a, ha, _⟩ | ⟨hj2, hjs, _⟩
    · obtain ⟨p, dp, q1, q2, q3⟩ := h8 j a hj ha
      obtain ⟨a', z1, z2⟩ := hsub p dp q2
      exact ⟨p, a', q1, z1, z2 _ q3⟩
    · refine ⟨i, d', by omega, ?_, ?_⟩
      · rw [hold i hil, if_pos rfl]
      · rw [hsubs, hjs, hj2]; simp
  · intro p b j hb hj
    have hlen : f.dirs.length ≤ (f.dirs.set i d' ++ nds).length := by simp
    dsimp only
    rcases hcase p b hb with ⟨a, ha, _, _, _, _, hab⟩ | ⟨_, _, _, _, _, _, hh⟩
    · rcases hab with ⟨_, rfl⟩ | ⟨hip, rfl, rfl⟩
      · have := h9 p b j ha hj
        omega
      · rw [hsubs] at hj
        rcases List.mem_append.mp hj with hj | hj
        · have := h9 p a j ha hj
          omega
        · rcases hnew with ⟨hjs, _⟩ | ⟨nd, hjs, hnds, _⟩
          · rw [hjs] at hj; simp at hj
          · rw [hjs, List.mem_singleton] at hj
            rw [hnds, List.length_append, List.length_set]
            simp only [List.length_cons, List.length_nil]
            omega
    · rw [hh] at hj; simp at hj

/-- Operations within the limits of the format: names short enough for the 16 bits of the key
length, payloads of at most 2 GB that the codec can compress without the compressed form having
the length of the payload, no ';' in the name of a directory (see C09, C11). -/
def FOp.Ok (c : Codec) (spare : List UInt8) (compr : Int) : FOp → Prop
  | .put _ name objName title cls keyCls payload now =>
    NamesOk (if name = [] then objName else name) title keyCls ∧ cls ≠ tDirectory ∧ keyCls ≠ tDirectory ∧
    payload.length ≤ 2000000000 ∧ TimeOk now ∧
    ∃ out, compress c [] spare payload compr = .ok out ∧ (out ≠ payload → out.length ≠ payload.length)
  | .mkdir _ name now => StrOk name ∧ name.length ≤ 15000 ∧ 59 ∉ name ∧ TimeOk now

/-- Class of an entry, as lookups see it. -/
theorem entry_isObj {c : Codec} {spare : List UInt8} {compr : Int} {disk : List UInt8} {dirs : List FDir} {e : Int} {k : FKey}
    (h : KeyInv c spare compr disk dirs e k) (cls : List UInt8) (hcls : cls ≠ tDirectory) :
    k.entry.item.isObj cls = true ↔ k.key.cls = cls := by
  obtain ⟨_, _, _, h4⟩ := h
  unfold FKey.entry
  dsimp only
  cases hw : k.what with
  | obj p => simp [Item.isObj]
  | dir j =>
    rw [hw] at h4
    simp only [Item.isObj, Bool.false_eq_true, false_iff]
    rw [h4.1]
    exact fun hx => hcls hx.symm

theorem scan_some (name cls : List UInt8) (ks : List FKey) (h : ∀ k ∈ ks, k.key.name = name → k.key.cls = cls)
    (c0 : Int) (h0 : 0 ≤ c0) :
    scanCycle name cls (ks.map FKey.toD) c0 = some (max c0 (topCycle name (ks.map FKey.entry))) := by
  induction ks generalizing c0 with
  | nil => simp [scanCycle, topCycle]; omega
  | cons k ks ih =>
    have ih := fun c0 h0 => ih (fun x hx => h x (by simp [hx])) c0 h0
    simp only [List.map_cons, scanCycle, topCycle, FKey.toD, FKey.entry]
    by_cases hn : k.key.name = name
    · rw [if_neg (by simpa using hn), if_neg (by simpa using h k (by simp) hn), if_pos hn, ih _ (by split <;> omega)]
      congr 1
      split <;> omega
    · rw [if_pos hn, if_neg hn, ih c0 h0]

theorem scan_none (name cls : List UInt8) (ks : List FKey) (k : FKey) (hk : k ∈ ks) (hn : k.key.name = name)
    (hc : k.key.cls ≠ cls) (c0 : Int) : scanCycle name cls (ks.map FKey.toD) c0 = none := by
  induction ks generalizing c0 with
  | nil => simp at hk
  | cons x ks ih =>
    simp only [List.map_cons, scanCycle, FKey.toD]
    by_cases hx : x.key.name = name
    · rw [if_neg (by simpa using hx)]
      by_cases hxc : x.key.cls = cls
      · rw [if_neg (by simpa using hxc)]
        rcases List.mem_cons.mp hk with rfl | hk
        · exact absurd hxc hc
        · exact ih hk _
      · rw [if_pos hxc]
    · rw [if_pos hx]
      rcases List.mem_cons.mp hk with rfl | hk
      · exact absurd hn hx
      · exact ih hk _

theorem topCycle_nonneg (name : List UInt8) (es : List Entry) : 0 ≤ topCycle name es := by
  induction es with
  | nil => exact Int.le_refl _
  | cons e es ih => unfold topCycle; split <;> omega

theorem view_get? (f : FFile) (i : Nat) : f.view[i]? = (f.dirs[i]?).map fun d => d.keys.map FKey.entry := by
  simp [FFile.view]

theorem view_set (f : FFile) (i : Nat) (d : FDir) :
    (f.dirs.set i d).map (fun d => d.keys.map FKey.entry) = f.view.set i (d.keys.map FKey.entry) := by
  rw [List.map_set]; rfl

/-- groot/riofs/dir.go:410-480 (`Put`): what it does to the file. -/
theorem put_step (c : Codec) (spare : List UInt8) (hsp : spare.length ≤ 1000000) (f : FFile) (hI : Inv c spare f)
    (i : Nat) (name objName title cls keyCls payload : List UInt8) (now : Civil)
    (hok : (FOp.put i name objName title cls keyCls payload now).Ok c spare f.w.compression)
    (hcyc : ∀ es ∈ specStep f.view (.put i name objName title cls keyCls payload now), ∀ e ∈ es, e.cycle ≤ 32767) :
    ∃ f', stepOp c spare f (.put i name objName title cls keyCls payload now) = some f' ∧
      f'.w.compression = f.w.compression ∧ f'.id = f.id ∧
      f'.view = specStep f.view (.put i name objName title cls keyCls payload now) ∧
      (f'.w.end_ ≤ kStartBigFile → Inv c spare f') := by
  obtain ⟨hn, hcls, hkc, hp, ht, out, hcomp, hcoll⟩ := hok
  simp only [stepOp, fput]
  rw [show specStep f.view (.put i name objName title cls keyCls payload now) = _ from rfl] at hcyc ⊢
  simp only [specStep, view_get?] at hcyc ⊢
  cases hd : f.dirs[i]? with
  | none => exact ⟨f, rfl, rfl, rfl, rfl, fun _ => hI⟩
  | some d =>
    rw [hd] at hcyc
    simp only [Option.map_some] at hcyc ⊢
    have hdm : d ∈ f.dirs := List.mem_of_getElem? hd
    have hdi := hI.dirs d hdm
    by_cases hs : 47 ∈ name
    · rw [if_pos hs, if_pos (Or.inl hs)]
      exact ⟨f, rfl, rfl, rfl, rfl, fun _ => hI⟩
    rw [if_neg hs]
    generalize hnm : (if name = [] then objName else name) = nm at *
    by_cases hne : nm = []
    · rw [if_pos hne, if_pos (Or.inr (Or.inl hne))]
      exact ⟨f, rfl, rfl, rfl, rfl, fun _ => hI⟩
    rw [if_neg hne]
    by_cases hall : ∀ k ∈ d.keys, k.key.name = nm → k.key.cls = cls
    · have hnot : ¬ (47 ∈ name ∨ nm = [] ∨ ∃ e ∈ d.keys.map FKey.entry, e.name = nm ∧ ¬ e.item.isObj cls = true) := by
        rintro (h | h | ⟨e, he, hen, hei⟩)
        · exact hs h
        · exact hne h
        · obtain ⟨k, hk, rfl⟩ := List.mem_map.mp he
          exact hei ((entry_isObj (hI.keys d hdm k hk) cls hcls).mpr (hall k hk hen))
      rw [if_neg hnot] at hcyc ⊢
      have htop := topCycle_nonneg nm (d.keys.map FKey.entry)
      rw [scan_some nm cls d.keys hall 0 (Int.le_refl _), show max 0 (topCycle nm (d.keys.map FKey.entry)) = topCycle nm (d.keys.map FKey.entry) by omega]
      have hbig : d.big = false := by simp [FDir.big, hdi.hdr.rvers]
      have hsd := hdi.hdr.seekdir
      obtain ⟨k, e1, k1, k2, k3, k4, k5, k6, k7, k8, k9, k10⟩ := newKeyFromBuf_spec c spare hsp d.hdr.seekdir nm title keyCls
        payload f.w.compression now f.w hn hp (by omega) hsd.2 (by have := hI.lo; omega) hI.hi ht out hcomp
      rw [hbig, e1]
      simp only
      have hil : i < f.view.length := by
        have := (List.getElem?_eq_some_iff.mp hd).1
        simpa [FFile.view] using this
      have hc : topCycle nm (d.keys.map FKey.entry) + 1 ≤ 32767 := by
        refine hcyc _ (List.mem_set hil _) _ (List.mem_append_right _ (List.mem_singleton.mpr rfl))
      have hwrap : Int.bmod (topCycle nm (d.keys.map FKey.entry) + 1) (2 ^ 16) = topCycle nm (d.keys.map FKey.entry) + 1 := by
        rw [Int.bmod_def]; simp; omega
      rw [hwrap]
      have hsk := k1.withCycle (topCycle nm (d.keys.map FKey.entry) + 1) (fitsS2.mpr (by omega))
      have kc : ({ k with cycle := topCycle nm (d.keys.map FKey.entry) + 1 } : Key).cycle = topCycle nm (d.keys.map FKey.entry) + 1 := rfl
      have kk : ({ k with cycle := topCycle nm (d.keys.map FKey.entry) + 1 } : Key).nbytes = k.nbytes := rfl
      change ({ k with cycle := topCycle nm (d.keys.map FKey.entry) + 1 } : Key).seekkey = _ at k2
      change ({ k with cycle := topCycle nm (d.keys.map FKey.entry) + 1 } : Key).objlen = _ at k3
      change ({ k with cycle := topCycle nm (d.keys.map FKey.entry) + 1 } : Key).nbytes =
        ({ k with cycle := topCycle nm (d.keys.map FKey.entry) + 1 } : Key).keylen + _ at k4
      change ({ k with cycle := topCycle nm (d.keys.map FKey.entry) + 1 } : Key).name = _ at k6
      change ({ k with cycle := topCycle nm (d.keys.map FKey.entry) + 1 } : Key).title = _ at k7
      change ({ k with cycle := topCycle nm (d.keys.map FKey.entry) + 1 } : Key).cls = _ at k8
      rw [← kk]
      generalize ({ k with cycle := topCycle nm (d.keys.map FKey.entry) + 1 } : Key) = k' at *
      rw [writeFile_spec _ hsk]
      refine ⟨_, rfl, rfl, rfl, ?_, ?_⟩
      · dsimp only [FFile.view]
        rw [view_set]
        simp only [List.map_append, List.map_cons, List.map_nil, FKey.entry, k6, k7, k8, kc]
        rfl
      · intro hK
        have hlen := hsk.length
        dsimp only at hK ⊢
        have hkl : 0 ≤ k'.keylen := by rw [← hlen]; exact Int.natCast_nonneg _
        have hol : (0 : Int) ≤ out.length := Int.natCast_nonneg _
        have hlo := hI.lo
        have hpos : (k'.seekkey + k'.keylen).toNat = f.w.end_.toNat + (kbytes k').length := by
          rw [k2, ← hlen, Int.toNat_add (by omega) (Int.natCast_nonneg _), Int.toNat_natCast]
        have hadd := hI.add i d hd ⟨k', .obj payload⟩ [] []
          (f.w.end_ + k'.nbytes) (kbytes k') out (Or.inl ⟨rfl, rfl⟩)
          (by dsimp only; clear hpos hlen; omega) hkl hK ?_
        · simp only [List.append_nil] at hadd
          rw [k2]
          exact hadd
        · refine ⟨hsk, by dsimp only; clear hpos hlen; omega, by dsimp only; clear hpos hlen; omega, ?_⟩
          refine ⟨by dsimp only; rw [k8]; exact hkc, k3, out, hcomp, hcoll, k4, ?_, ?_⟩
          · dsimp only
            rw [hpos]
            exact (At_record _ _ _ _).right
          · intro b hb
            dsimp only
            simp only [List.append_nil] at hb
            have hbh : ∃ a ∈ f.dirs, b.hlo = a.hlo := by
              rcases mem_set_cases hb with rfl | hb
              · exact ⟨d, hdm, rfl⟩
              · exact ⟨b, hb, rfl⟩
            obtain ⟨a, ha, hba⟩ := hbh
            have := (hI.dirs a ha).hi
            clear hpos hlen
            right; omega
    · have hex : ∃ k ∈ d.keys, k.key.name = nm ∧ k.key.cls ≠ cls := by
        simpa [Classical.not_forall] using hall
      obtain ⟨k, hk, hkn, hkcls⟩ := hex
      rw [scan_none nm cls d.keys k hk hkn hkcls]
      rw [if_pos]
      · exact ⟨f, rfl, rfl, rfl, rfl, fun _ => hI⟩
      · right; right
        refine ⟨k.entry, List.mem_map_of_mem hk, hkn, ?_⟩
        rw [entry_isObj (hI.keys d hdm k hk) cls hcls]
        exact hkcls

theorem Inv.topBig {c : Codec} {spare : List UInt8} {f : FFile} (hI : Inv c spare f) : f.topBig = false := by
  obtain ⟨d0, rk, t1, _⟩ := hI.top
  have := (hI.dirs d0 (List.mem_of_getElem? t1)).hdr.rvers
  unfold FFile.topBig
  cases hd : f.dirs with
  | nil => rfl
  | cons d ds =>
    rw [hd] at t1
    simp only [List.getElem?_cons_zero, Option.some.injEq] at t1
    subst t1
    simp [FDir.big, this]

theorem get_absent (ks : List FKey) (name : List UInt8) (h59 : 59 ∉ name) :
    ((∃ e ∈ ks.map FKey.entry, e.name = name) → ∃ o, get (ks.map FKey.toD) name = .found o) ∧
    ((¬ ∃ e ∈ ks.map FKey.entry, e.name = name) → get (ks.map FKey.toD) name = .noKey) := by
  have hdec : decodeNameCycle name = some (name, 9999) := by
    unfold decodeNameCycle; rw [splitOn_no_sep _ _ h59]
  unfold get
  rw [hdec]
  simp only [ne_eq, not_true_eq_false, if_false]
  constructor
  · rintro ⟨e, he, hen⟩
    obtain ⟨k, hk, rfl⟩ := List.mem_map.mp he
    have hmem : k.toD ∈ (ks.map FKey.toD).filter (fun k => decide (k.name = name)) := by
      rw [List.mem_filter]
      exact ⟨List.mem_map_of_mem hk, decide_eq_true hen⟩
    obtain ⟨m, e, _⟩ := maxCycle_some _ (List.ne_nil_of_mem hmem)
    rw [e]
    exact ⟨_, rfl⟩
  · intro hno
    have : (ks.map FKey.toD).filter (fun k => decide (k.name = name)) = [] := by
      rw [List.filter_eq_nil_iff]
      intro x hx
      obtain ⟨k, hk, rfl⟩ := List.mem_map.mp hx
      simp only [decide_eq_true_eq]
      intro hkn
      exact hno ⟨k.entry, List.mem_map_of_mem hk, hkn⟩
    rw [this]
    rfl

/-- groot/riofs/dir.go:488-501 (`Mkdir`): what it does to the file. -/
theorem mkdir_step (c : Codec) (spare : List UInt8) (f : FFile) (hI : Inv c spare f)
    (i : Nat) (name : List UInt8) (now : Civil) (hok : (FOp.mkdir i name now).Ok c spare f.w.compression) :
    ∃ f', stepOp c spare f (.mkdir i name now) = some f' ∧
      f'.w.compression = f.w.compression ∧ f'.id = f.id ∧
      f'.view = specStep f.view (.mkdir i name now) ∧
      (f'.w.end_ ≤ kStartBigFile → Inv c spare f') := by
  obtain ⟨hn, hl, h59, ht⟩ := hok
  have hnames := tDirectory_ok name hn hl
  simp only [stepOp, mkdir]
  simp only [specStep, view_get?]
  cases hd : f.dirs[i]? with
  | none => exact ⟨f, rfl, rfl, rfl, rfl, fun _ => hI⟩
  | some d =>
    simp only [Option.map_some]
    have hdm : d ∈ f.dirs := List.mem_of_getElem? hd
    have hdi := hI.dirs d hdm
    have hget := get_absent d.keys name h59
    by_cases hex : ∃ e ∈ d.keys.map FKey.entry, e.name = name
    · obtain ⟨o, ho⟩ := hget.1 hex
      rw [ho, if_pos (Or.inr hex)]
      exact ⟨f, rfl, rfl, rfl, rfl, fun _ => hI⟩
    rw [hget.2 hex]
    by_cases hs : 47 ∈ name
    · simp only [if_pos hs, if_pos (show 47 ∈ name ∨ ∃ e ∈ d.keys.map FKey.entry, e.name = name from Or.inl hs)]
      exact ⟨f, rfl, rfl, rfl, rfl, fun _ => hI⟩
    have hnot : ¬ (47 ∈ name ∨ ∃ e ∈ d.keys.map FKey.entry, e.name = name) := by
      rintro (h | h)
      · exact hs h
      · exact hex h
    rw [if_neg hnot]
    simp only [if_neg hs]
    unfold newSubdir
    simp only [hI.topBig]
    have hsd := hdi.hdr.seekdir
    have hlo := hI.lo
    have hrec : recordSize rootVersion = 60 := by decide
    rw [hrec]
    obtain ⟨k, e1, k1, k2, k3, k4, k5, k6, k7, k8, k9, k10⟩ := newKey_spec d.hdr.seekdir name name tDirectory 60 now f.w
      hnames (by omega) (by omega) (by omega) hsd.2 (by omega) hI.hi ht
    rw [e1]
    simp only
    have hkl := hnames.keylen false 0
    rw [← k5] at hkl
    have hshdr : SHdr { newHdr now with seekparent := d.hdr.seekdir, nbytesname := k.keylen, seekdir := k.seekkey } := by
      have hi := hI.hi
      refine ⟨rfl, ht, ht, rfl, ?_, hsd, ?_, ?_, ?_⟩
      · dsimp only; rw [k2]; omega
      · dsimp only [newHdr]; unfold kStartBigFile; omega
      · dsimp only; omega
      · dsimp only [newHdr]; decide
    rw [dirPayload_spec _ _ _ _ hshdr]
    simp only [Option.bind_some]
    rw [writeFile_spec k k1]
    simp only [Option.bind_some]
    refine ⟨_, rfl, rfl, rfl, ?_, ?_⟩
    · dsimp only [FFile.view]
      rw [List.map_append, view_set]
      simp only [List.map_append, List.map_cons, List.map_nil, FKey.entry, k6, k7, k9]
      simp [FFile.view]
    · intro hK
      dsimp only at hK ⊢
      have hlen := k1.length
      have hadd := hI.add i d hd ⟨k, .dir f.dirs.length⟩ [f.dirs.length]
        [⟨name, name, { newHdr now with seekparent := d.hdr.seekdir, nbytesname := k.keylen, seekdir := k.seekkey }, [], []⟩]
        (f.w.end_ + k.nbytes) (kbytes k)
        (strEnc f.id ++ (strEnc [] ++ hbytes { newHdr now with seekparent := d.hdr.seekdir, nbytesname := k.keylen, seekdir := k.seekkey }))
        (Or.inr ⟨_, rfl, rfl, ⟨hshdr, ?_, ?_, hnames, ?_⟩, ?_, rfl, rfl⟩)
        (by dsimp only; clear hlen; omega) (by dsimp only; clear hlen; omega) hK ?_
      · rw [k2] at hadd ⊢
        exact hadd
      · dsimp only; clear hlen; omega
      · dsimp only [FDir.hlo]; clear hlen; omega
      · dsimp only [List.map_nil, List.sum_nil]
        simp only [List.map_nil, List.sum_nil]
        clear hlen; omega
      · dsimp only [FDir.hlo]; clear hlen; omega
      · refine ⟨k1, by dsimp only; clear hlen; omega, by dsimp only; clear hlen; omega, ?_⟩
        refine ⟨k8, k3, by dsimp only; clear hlen; omega, ?_⟩
        refine ⟨⟨name, name, { newHdr now with seekparent := d.hdr.seekdir, nbytesname := k.keylen, seekdir := k.seekkey }, [], []⟩,
          ?_, k6.symm, rfl, rfl⟩
        rw [List.getElem?_append_right (by simp)]
        simp

/-- The bytes of the file header. -/
def fhbytes (f : FFile) : List UInt8 := f.hdr.enc (beEnc 2 1 ++ noUUID)

theorem writeHeader_spec (f : FFile) :
    f.writeHeader = some { f with w := { f.w with
      disk := writeAt (writeAt f.w.disk 0 (List.replicate 100 0)) 0 (fhbytes f) } } := by
  obtain ⟨w, e, _, hb⟩ := (fileHdr_appends f.hdr rfl).start (List.replicate 100 0)
  unfold FFile.writeHeader
  rw [e]
  simp only [Option.bind_some, hb]
  rfl

theorem fhbytes_length (f : FFile) (h : ¬ f.hdr.big) : (fhbytes f).length = 63 := by
  have hv : f.hdr.wversion = rootVersion := by
    unfold FileHdr.wversion
    rw [if_neg (fun hx => h hx.1)]
    rfl
  unfold fhbytes FileHdr.enc FileHdr.endEnc FileHdr.infoEnc
  rw [hv, if_pos (by decide), if_pos (by decide)]
  simp [rootMagic, noUUID]

/-- groot/riofs/file.go:166-235 (`Create`). -/
theorem create_spec (c : Codec) (spare : List UInt8) (id : List UInt8) (compression : Int) (now : Civil)
    (hid : StrOk id) (hl : id.length ≤ 30000) (ht : TimeOk now) :
    ∃ f, create id compression now = some f ∧ f.w.compression = compression ∧ f.id = id ∧ f.view = [[]] ∧ Inv c spare f := by
  have hnames : NamesOk id [] tFile :=
    ⟨by have : tFile.length = 5 := rfl
        simp only [List.length_nil]; omega, by decide, hid, ⟨by decide, by decide⟩, ⟨by decide, by decide⟩⟩
  have hrec : recordSize rootVersion = 60 := by decide
  have hs1 := tstringSizeof_bounds id (by omega)
  have hs2 : tstringSizeof [] = 1 := by decide
  unfold create
  simp only [hrec]
  obtain ⟨k, e1, k1, k2, k3, k4, k5, k6, k7, k8, k9, k10⟩ := newKey_spec 0 id [] tFile (tstringSizeof id + tstringSizeof [] + 60) now
    ⟨kBEGIN, [], compression⟩ hnames (by omega) (by omega) (by omega) (by decide) (by dsimp only; decide) (by dsimp only; decide) ht
  rw [e1]
  simp only
  have hkl := hnames.keylen false 0
  rw [← k5] at hkl
  have hend : kBEGIN + k.nbytes = 100 + k.keylen + tstringSizeof id + 61 := by
    rw [k4, hs2]; unfold kBEGIN; omega
  have hk2 : k.seekkey = 100 := k2
  have hshdr : SHdr { newHdr now with nbytesname := k.keylen + (tstringSizeof id + tstringSizeof []), seekdir := k.seekkey } := by
    refine ⟨rfl, ht, ht, rfl, ?_, ?_, ?_, ?_, ?_⟩
    · dsimp only; rw [hk2]; decide
    · dsimp only [newHdr]; decide
    · dsimp only [newHdr]; decide
    · dsimp only; omega
    · dsimp only [newHdr]; decide
  rw [writeHeader_spec]
  simp only [Option.bind_some]
  rw [dirPayload_spec _ _ _ _ hshdr]
  simp only [Option.bind_some]
  rw [writeFile_spec k k1]
  simp only [Option.bind_some]
  refine ⟨_, rfl, rfl, rfl, rfl, ?_⟩
  have hlen := k1.length
  refine ⟨?_, ?_, ?_, ?_, ?_, ?_, ?_, ?_, ?_, ⟨rfl, rfl⟩⟩
  · dsimp only; rw [hend]; clear hlen; omega
  · dsimp only; rw [hend]; unfold kStartBigFile; clear hlen; omega
  · intro d hd
    simp only [List.mem_singleton] at hd
    subst hd
    refine ⟨hshdr, by dsimp only; rw [hk2]; omega, ?_, ?_, ?_⟩
    · dsimp only [FDir.hlo]; rw [hend]; clear hlen; omega
    · exact ⟨by have : tDirectory.length = 10 := rfl
                simp only [List.length_nil]; omega, by decide, hid, ⟨by dsimp only; decide, by dsimp only; decide⟩, ⟨by decide, by decide⟩⟩
    · simp only [List.map_nil, List.sum_nil]; rw [hend]; clear hlen; omega
  · intro d hd k hk
    simp only [List.mem_singleton] at hd
    subst hd
    simp at hk
  · intro i j di dj hne hi hj
    have h1 := (List.getElem?_eq_some_iff.mp hi).1
    have h2 := (List.getElem?_eq_some_iff.mp hj).1
    simp only [List.length_singleton] at h1 h2
    omega
  · refine ⟨_, k, rfl, hk2, rfl, rfl, rfl, k1, k8, k6, k7, ?_, ?_⟩
    · dsimp only
      rw [hk2]
      exact (At_record _ _ _ _).left
    · intro d hd
      simp only [List.mem_singleton] at hd
      subst hd
      left
      dsimp only [FDir.hlo]
      rw [hk2]
      clear hlen; omega
  · unfold nbnFor; dsimp only; rw [k5]; clear hlen; omega
  · intro j d hj hd
    have h1 := (List.getElem?_eq_some_iff.mp hd).1
    simp only [List.length_singleton] at h1
    omega
  · intro p dp j hp hj
    have h1 := (List.getElem?_eq_some_iff.mp hp).1
    simp only [List.length_singleton] at h1
    have : p = 0 := by omega
    subst this
    simp only [List.getElem?_cons_zero, Option.some.injEq] at hp
    subst hp
    simp at hj

/-! ### Sequences of operations -/

theorem writeFile_end (k : MKey) (w : WFile) (q : MKey × WFile) (h : writeFile k w = some q) :
    q.2.end_ = w.end_ ∧ q.2.compression = w.compression := by
  unfold writeFile at h
  split at h
  · exact absurd h (by simp)
  · split at h
    · exact absurd h (by simp)
    · cases h; exact ⟨rfl, rfl⟩

/-- The end of the file only moves forward. -/
theorem stepOp_mono (c : Codec) (spare : List UInt8) (hsp : spare.length ≤ 1000000) (f f' : FFile) (op : FOp)
    (hok : op.Ok c spare f.w.compression) (h : stepOp c spare f op = some f') :
    f.w.end_ ≤ f'.w.end_ ∧ f'.w.compression = f.w.compression := by
  cases op with
  | put i name objName title cls keyCls payload now =>
    obtain ⟨hn, hcls, hkc, hp, ht, out, hcomp, hcoll⟩ := hok
    simp only [stepOp, fput] at h
    cases hd : f.dirs[i]? with
    | none => rw [hd] at h; cases h; exact ⟨Int.le_refl _, rfl⟩
    | some d =>
      rw [hd] at h
      simp only at h
      generalize hnm : (if name = [] then objName else name) = nm at *
      by_cases hs : 47 ∈ name
      · rw [if_pos hs] at h; cases h; exact ⟨Int.le_refl _, rfl⟩
      rw [if_neg hs] at h
      by_cases hne : nm = []
      · rw [if_pos hne] at h; cases h; exact ⟨Int.le_refl _, rfl⟩
      rw [if_neg hne] at h
      cases hsc : scanCycle nm cls (d.keys.map FKey.toD) 0 with
      | none => rw [hsc] at h; cases h; exact ⟨Int.le_refl _, rfl⟩
      | some cyc =>
        rw [hsc] at h
        simp only at h
        unfold newKeyFromBuf at h
        simp only [hcomp] at h
        have hk := hn.keylen d.big f.w.end_
        have hl2 := compress_length_le c spare payload out _ hcomp hsp (by omega)
        have hw1 : wrapS 4 out.length = out.length := fitsS4.mpr (by omega)
        have hw : wrapS 4 (keylenFor nm title keyCls d.big f.w.end_ + out.length)
            = keylenFor nm title keyCls d.big f.w.end_ + out.length := fitsS4.mpr (by omega)
        rw [hw1, hw] at h
        split at h
        · rename_i f1 h1
          split at h1
          · cases h1
          · rename_i q hq
            cases h1
            cases h
            have := writeFile_end _ _ _ hq
            dsimp only
            rw [this.1, this.2]
            dsimp only [WFile.setEnd]
            exact ⟨by omega, rfl⟩
        · cases h
        · cases h; exact ⟨Int.le_refl _, rfl⟩
  | mkdir i name now =>
    obtain ⟨hn, hl, h59, ht⟩ := hok
    have hnames := tDirectory_ok name hn hl
    simp only [stepOp, mkdir] at h
    cases hd : f.dirs[i]? with
    | none => rw [hd] at h; cases h; exact ⟨Int.le_refl _, rfl⟩
    | some d =>
      rw [hd] at h
      simp only at h
      split at h
      · rename_i f1 h1
        split at h1
        · cases h1
        · cases h1
        · split at h1
          · cases h1
          · split at h1
            · cases h1
            · rename_i f2 h2
              cases h1
              cases h
              unfold newSubdir at h2
              have hrec : recordSize rootVersion = 60 := by decide
              have hk := hnames.keylen f.topBig f.w.end_
              have hw : wrapS 4 (60 + keylenFor name name tDirectory f.topBig f.w.end_)
                = 60 + keylenFor name name tDirectory f.topBig f.w.end_ := fitsS4.mpr (by omega)
              simp only [hrec, newKey, hw, if_pos (show (60 : Int) > 0 by decide), WFile.setEnd] at h2
              obtain ⟨buf, _, h2⟩ := Option.bind_eq_some_iff.mp h2
              obtain ⟨q, hq, h2⟩ := Option.bind_eq_some_iff.mp h2
              cases h2
              have := writeFile_end _ _ _ hq
              dsimp only at this ⊢
              rw [this.1, this.2]
              exact ⟨by omega, rfl⟩
      · cases h
      · cases h; exact ⟨Int.le_refl _, rfl⟩

/-- Entries stay. -/
theorem specStep_mono (s : List (List Entry)) (op : FOp) (es : List Entry) (h : es ∈ s) :
    ∃ es' ∈ specStep s op, ∀ e ∈ es, e ∈ es' := by
  have hset : ∀ (i : Nat) (xs : List Entry) (x : Entry), s[i]? = some xs →
      ∃ es' ∈ s.set i (xs ++ [x]), ∀ e ∈ es, e ∈ es' := by
    intro i xs x hx
    obtain ⟨j, hj⟩ := List.getElem?_of_mem h
    by_cases hij : i = j
    · subst hij
      rw [hx] at hj
      cases hj
      exact ⟨es ++ [x], List.mem_set (List.getElem?_eq_some_iff.mp hx).1 _, fun e he => List.mem_append_left _ he⟩
    · refine ⟨es, List.mem_of_getElem? (i := j) ?_, fun e he => he⟩
      rw [set_get? hx, if_neg hij, hj]
  cases op with
  | put i name objName title cls keyCls payload now =>
    simp only [specStep]
    cases hx : s[i]? with
    | none => exact ⟨es, h, fun e he => he⟩
    | some xs =>
      simp only
      generalize (if name = [] then objName else name) = nm
      split
      · exact ⟨es, h, fun e he => he⟩
      · exact hset i xs _ hx
  | mkdir i name now =>
    simp only [specStep]
    cases hx : s[i]? with
    | none => exact ⟨es, h, fun e he => he⟩
    | some xs =>
      simp only
      split
      · exact ⟨es, h, fun e he => he⟩
      · obtain ⟨es', h1, h2⟩ := hset i xs ⟨name, 1, name, .dir s.length⟩ hx
        exact ⟨es', List.mem_append_left _ h1, h2⟩

theorem stepOp_spec (c : Codec) (spare : List UInt8) (hsp : spare.length ≤ 1000000) (f : FFile) (hI : Inv c spare f)
    (op : FOp) (hok : op.Ok c spare f.w.compression)
    (hcyc : ∀ es ∈ specStep f.view op, ∀ e ∈ es, e.cycle ≤ 32767) :
    ∃ f', stepOp c spare f op = some f' ∧
      f'.w.compression = f.w.compression ∧ f'.id = f.id ∧ f'.view = specStep f.view op ∧
      (f'.w.end_ ≤ kStartBigFile → Inv c spare f') := by
  cases op with
  | put i name objName title cls keyCls payload now =>
    exact put_step c spare hsp f hI i name objName title cls keyCls payload now hok hcyc
  | mkdir i name now => exact mkdir_step c spare f hI i name now hok

/-- Any sequence of operations on a new file. -/
theorem run_spec (c : Codec) (spare : List UInt8) (hsp : spare.length ≤ 1000000) (f0 : FFile) (hI : Inv c spare f0)
    (hv : f0.view = [[]]) (ops : List FOp) (hok : ∀ op ∈ ops, op.Ok c spare f0.w.compression) (f : FFile)
    (hrun : runOps c spare f0 ops = some f) (hK : f.w.end_ ≤ kStartBigFile)
    (hcyc : ∀ es ∈ specRun ops, ∀ e ∈ es, e.cycle ≤ 32767) :
    Inv c spare f ∧ f.view = specRun ops ∧ f.id = f0.id ∧ f.w.compression = f0.w.compression := by
  suffices H : ∀ (rops : List FOp) (f : FFile), (∀ op ∈ rops, op.Ok c spare f0.w.compression) →
      runOps c spare f0 rops.reverse = some f → f.w.end_ ≤ kStartBigFile →
      (∀ es ∈ specRun rops.reverse, ∀ e ∈ es, e.cycle ≤ 32767) →
      Inv c spare f ∧ f.view = specRun rops.reverse ∧ f.id = f0.id ∧ f.w.compression = f0.w.compression by
    have := H ops.reverse f (fun op h => hok op (List.mem_reverse.mp h))
    rw [List.reverse_reverse] at this
    exact this hrun hK hcyc
  clear hok hrun hK hcyc
  have hcompr : ∀ (ops : List FOp) (f1 f : FFile), (∀ op ∈ ops, op.Ok c spare f1.w.compression) →
      runOps c spare f1 ops = some f → f.w.compression = f1.w.compression := by
    intro ops
    induction ops with
    | nil => intro f1 f _ h; cases h; rfl
    | cons op ops ih =>
      intro f1 f hok h
      unfold runOps at h
      rw [List.foldlM_cons] at h
      obtain ⟨f2, h2, h⟩ := Option.bind_eq_some_iff.mp h
      have hm := stepOp_mono c spare hsp f1 f2 op (hok op (by simp)) h2
      rw [← hm.2]
      exact ih f2 f (fun o ho => by rw [hm.2]; exact hok o (by simp [ho])) h
  intro rops
  induction rops with
  | nil =>
    intro f _ h _ _
    cases h
    exact ⟨hI, hv, rfl, rfl⟩
  | cons op rops ih =>
    intro f hok hrun hK hcyc
    have hspec : specRun (op :: rops).reverse = specStep (specRun rops.reverse) op := by
      unfold specRun
      rw [List.reverse_cons, List.foldl_append]
      rfl
    rw [hspec] at hcyc ⊢
    unfold runOps at hrun
    rw [List.reverse_cons, List.foldlM_append] at hrun
    obtain ⟨f1, h1, h2⟩ := Option.bind_eq_some_iff.mp hrun
    have h2 : stepOp c spare f1 op = some f := by
      simpa using h2
    have hok' : ∀ o ∈ rops, o.Ok c spare f0.w.compression := fun o ho => hok o (by simp [ho])
    have hc1 : f1.w.compression = f0.w.compression :=
      hcompr rops.reverse f0 f1 (fun o ho => hok' o (List.mem_reverse.mp ho)) h1
    have hop : op.Ok c spare f1.w.compression := by rw [hc1]; exact hok op (by simp)
    have hm := stepOp_mono c spare hsp f1 f op hop h2
    have hcyc1 : ∀ es ∈ specRun rops.reverse, ∀ e ∈ es, e.cycle ≤ 32767 := by
      intro es hes e he
      obtain ⟨es', h3, h4⟩ := specStep_mono _ op es hes
      exact hcyc es' h3 e (h4 e he)
    obtain ⟨i1, i2, i3, i4⟩ := ih f1 hok' h1 (by omega) hcyc1
    obtain ⟨f', s1, s2, s3, s4, s5⟩ := stepOp_spec c spare hsp f1 i1 op hop (by rw [i2]; exact hcyc)
    rw [h2] at s1
    cases s1
    exact ⟨s5 hK, by rw [s4, i2], by rw [s3, i3], by rw [s2, i4]⟩

end Verif.Riofs
