import Verif.Riofs.FileOpen

/-!
# C81: what was written to a file is found when it is opened again
-/

namespace Verif.Riofs

open Verif.RBytes Verif.FreeList Verif.Compress

/-- A file is created, any sequence of objects and directories is added to it (among them
operations that fail), and it is closed.  Opening it then shows exactly what the specification
says was added: every directory with its entries in order, their names, cycles and titles, every
object with the bytes it was written from, whatever the compression.

Partial: the file stays below `kStartBigFile` (2000000000 bytes); its path is so short that the
record of the top directory has at most 1000 bytes in front of the header (see
`C81_long_path_counterexample`); names are not too long for 16-bit key lengths; cycles fit 16 bits;
no compressed object has exactly the length of the original (see C14). -/
theorem C81_reopen_partial (c : Codec) (hc : c.Lossless) (h4 : c.LZ4Saves) (spare : List UInt8) (hsp : spare.length ≤ 1000000)
    (id : List UInt8) (compression : Int) (t0 t1 : Civil) (ops : List FOp) (si : List UInt8)
    (hid : StrOk id) (hl : id.length ≤ 30000) (hn : nbnFor id ≤ 1000) (hcf : FitsS 4 compression) (ht0 : TimeOk t0) (ht1 : TimeOk t1)
    (hops : ∀ op ∈ ops, op.Ok c spare compression) (hcyc : ∀ es ∈ specRun ops, ∀ e ∈ es, e.cycle ≤ 32767)
    (hsi : si.length ≤ 2000000000)
    (hsic : ∃ out, compress c [] spare si compression = .ok out ∧ (out ≠ si → out.length ≠ si.length))
    (f0 f f' : FFile) (h0 : create id compression t0 = some f0) (hrun : runOps c spare f0 ops = some f)
    (hK : f.w.end_ ≤ kStartBigFile) (hclose : f.close c spare si t1 = some f') (hK' : f'.w.end_ ≤ kStartBigFile) :
    ∃ r, openFile c f'.w.disk = some r ∧ r.dir.name = id ∧ r.sinfo = si ∧ r.spans = [⟨f'.w.end_, kStartBigFile⟩] ∧
      ∀ depth, Shows c f'.w.disk (specRun ops) depth r.dir 0 := by
  obtain ⟨g, e, p, q, v, hI⟩ := create_spec c spare id compression t0 hid hl ht0
  rw [h0] at e
  cases e
  obtain ⟨I, v', i', p'⟩ := run_spec c spare hsp f0 hI v ops (by rw [p]; exact hops) f hrun hK hcyc
  obtain ⟨out, o1, o2⟩ := hsic
  obtain ⟨r, r1, r2, _, r3, r4, _, _, r5⟩ := (open_spec c hc h4 spare hsp t1 ht1 f f' I (by rw [p', p]; exact hcf) si out hsi
    (by rw [p', p]; exact o1) o2 hclose hK').2 (by rw [i', q]; exact hn)
  refine ⟨r, r1, by rw [r2, i', q], r3, r4, ?_⟩
  intro n
  rw [← v']
  exact r5 n

/-- Under a longer path the same file is written and closed without complaint, but cannot be
opened: groot/riofs/dir.go:173-228 (`readDirInfo`) refuses more than 1000 bytes. -/
theorem C81_long_path_counterexample (c : Codec) (hc : c.Lossless) (h4 : c.LZ4Saves) (spare : List UInt8) (hsp : spare.length ≤ 1000000)
    (id : List UInt8) (compression : Int) (t0 t1 : Civil) (ops : List FOp) (si : List UInt8)
    (hid : StrOk id) (hl : id.length ≤ 30000) (hn : 1000 < nbnFor id) (hcf : FitsS 4 compression) (ht0 : TimeOk t0) (ht1 : TimeOk t1)
    (hops : ∀ op ∈ ops, op.Ok c spare compression) (hcyc : ∀ es ∈ specRun ops, ∀ e ∈ es, e.cycle ≤ 32767)
    (hsi : si.length ≤ 2000000000)
    (hsic : ∃ out, compress c [] spare si compression = .ok out ∧ (out ≠ si → out.length ≠ si.length))
    (f0 f f' : FFile) (h0 : create id compression t0 = some f0) (hrun : runOps c spare f0 ops = some f)
    (hK : f.w.end_ ≤ kStartBigFile) (hclose : f.close c spare si t1 = some f') (hK' : f'.w.end_ ≤ kStartBigFile) :
    openFile c f'.w.disk = none := by
  obtain ⟨g, e, p, q, v, hI⟩ := create_spec c spare id compression t0 hid hl ht0
  rw [h0] at e
  cases e
  obtain ⟨I, v', i', p'⟩ := run_spec c spare hsp f0 hI v ops (by rw [p]; exact hops) f hrun hK hcyc
  obtain ⟨out, o1, o2⟩ := hsic
  exact (open_spec c hc h4 spare hsp t1 ht1 f f' I (by rw [p', p]; exact hcf) si out hsi
    (by rw [p', p]; exact o1) o2 hclose hK').1 (by rw [i', q]; exact hn)

/-- No operation panics as long as the file stays below the limit. -/
theorem C81_no_panic_partial (c : Codec) (spare : List UInt8) (hsp : spare.length ≤ 1000000)
    (id : List UInt8) (compression : Int) (t0 : Civil) (hid : StrOk id) (hl : id.length ≤ 30000) (ht0 : TimeOk t0) :
    ∃ f0, create id compression t0 = some f0 ∧
      ∀ ops : List FOp, (∀ op ∈ ops, op.Ok c spare compression) → (∀ es ∈ specRun ops, ∀ e ∈ es, e.cycle ≤ 32767) →
        (∀ pre f, pre <+: ops → runOps c spare f0 pre = some f → f.w.end_ ≤ kStartBigFile) →
        ∃ f, runOps c spare f0 ops = some f := by
  obtain ⟨f0, e, p, q, v, hI⟩ := create_spec c spare id compression t0 hid hl ht0
  refine ⟨f0, e, ?_⟩
  intro ops
  generalize hr : ops.reverse = rops
  have hr' : ops = rops.reverse := by rw [← hr, List.reverse_reverse]
  subst hr'
  clear hr
  induction rops with
  | nil => intro _ _ _; exact ⟨f0, rfl⟩
  | cons op rops ih =>
    intro h1 h2 h3
    rw [List.reverse_cons] at h1 h2 h3 ⊢
    have hspec : specRun (rops.reverse ++ [op]) = specStep (specRun rops.reverse) op := by simp [specRun]
    have h2' : ∀ es ∈ specRun rops.reverse, ∀ e ∈ es, e.cycle ≤ 32767 := by
      intro es hes e he
      obtain ⟨es', m1, m2⟩ := specStep_mono (specRun rops.reverse) op es hes
      rw [← hspec] at m1
      exact h2 es' m1 e (m2 e he)
    have h1' : ∀ o ∈ rops.reverse, o.Ok c spare compression := fun o ho => h1 o (List.mem_append_left _ ho)
    obtain ⟨f, hf⟩ := ih h1' h2' (fun pre g hp hg => h3 pre g (hp.trans (List.prefix_append _ _)) hg)
    have hK := h3 _ f (List.prefix_append _ _) hf
    obtain ⟨I, v', i', p'⟩ := run_spec c spare hsp f0 hI v rops.reverse (by rw [p]; exact h1') f hf hK h2'
    obtain ⟨f', e', _⟩ := stepOp_spec c spare hsp f I op (by rw [p', p]; exact h1 op (by simp)) (by rw [v', ← hspec]; exact h2)
    refine ⟨f', ?_⟩
    unfold runOps at hf ⊢
    rw [List.foldlM_append, hf]
    simp [e']

/-- Closing panics exactly when the record of the free segments is the one that crosses the
limit of 2000000000 bytes. -/
theorem C81_close_panics_iff (c : Codec) (spare : List UInt8) (hsp : spare.length ≤ 1000000)
    (id : List UInt8) (compression : Int) (t0 t1 : Civil) (ops : List FOp) (si : List UInt8)
    (hid : StrOk id) (hl : id.length ≤ 30000) (ht0 : TimeOk t0) (ht1 : TimeOk t1)
    (hops : ∀ op ∈ ops, op.Ok c spare compression) (hcyc : ∀ es ∈ specRun ops, ∀ e ∈ es, e.cycle ≤ 32767)
    (hsi : si.length ≤ 2000000000) (hsic : ∃ out, compress c [] spare si compression = .ok out)
    (f0 f : FFile) (h0 : create id compression t0 = some f0) (hrun : runOps c spare f0 ops = some f)
    (hK : f.w.end_ ≤ kStartBigFile) :
    ∃ f1, ((f.closeDir t1).bind fun f => f.writeStreamerInfo c spare si t1) = some f1 ∧
      (f.close c spare si t1 = none ↔
        f1.w.end_ ≤ kStartBigFile ∧ kStartBigFile < f1.w.end_ + 10 + keylenFor id [] tFile f1.topBig f1.w.end_) := by
  obtain ⟨g, e, p, q, v, hI⟩ := create_spec c spare id compression t0 hid hl ht0
  rw [h0] at e
  cases e
  obtain ⟨I, v', i', p'⟩ := run_spec c spare hsp f0 hI v ops (by rw [p]; exact hops) f hrun hK hcyc
  obtain ⟨out, o1⟩ := hsic
  obtain ⟨f1, e1, m1, L1, c1, p1, i1⟩ := closeDir_lite c spare t1 ht1 f I
  obtain ⟨d0, _, t1', _, _, t4, t5, _⟩ := I.top
  obtain ⟨d, hd, n1, n2, _, _⟩ := core_get c1 0 d0 t1'
  have hne1 : f1.dirs ≠ [] := by intro hx; rw [hx] at hd; simp at hd
  obtain ⟨f2, e2, m2, d2⟩ := info_lite c spare hsp t1 ht1 f1 L1 hne1 si out hsi (by rw [p1, p', p]; exact o1)
  have L2 : LFile f2 := ⟨by have := L1.pos; omega, by rw [d2]; exact L1.dirs⟩
  refine ⟨f2, by rw [e1, Option.bind_some, e2], ?_⟩
  have hfl := free_lite t1 ht1 f2 L2 d (by rw [d2]; exact hd)
  rw [n1, n2, t4, t5, i', q] at hfl
  unfold FFile.close
  rw [e1, Option.bind_some, e2, Option.bind_some]
  constructor
  · intro hx
    split at hfl
    · rename_i h; exact h
    · obtain ⟨f3, e3, _⟩ := hfl
      rw [e3, Option.bind_some, writeHeader_spec] at hx
      cases hx
  · intro hx
    rw [if_pos hx] at hfl
    rw [hfl]
    rfl

/-! ### A file with two directories -/

def exNow : Civil := ⟨2024, 2, 29, 13, 5, 59⟩

theorem exNow_ok : TimeOk exNow :=
  ⟨⟨by decide, by decide, by decide, by decide, by decide⟩, by decide, by decide⟩

/-- Two objects named `a`, a directory `d` with an object in it that is compressed (all its 600
bytes are equal), an object refused because `d` is a directory, and a directory below `d`. -/
def exOps : List FOp :=
  [.put 0 [97] [97] [] [84, 72] [84, 72] [1, 2, 3] exNow,
   .mkdir 0 [100] exNow,
   .put 1 [98] [98] [116] [84, 72] [84, 72] (List.replicate 600 7) exNow,
   .put 0 [100] [97] [] [84, 72] [84, 72] [9] exNow,
   .put 0 [97] [97] [] [84, 72] [84, 72] [4, 5] exNow,
   .mkdir 1 [101] exNow]

theorem exOps_ok : ∀ op ∈ exOps, op.Ok demoCodec [] 101 := by
  have hcomp : ∀ p : List UInt8, p.length < 512 → ∃ out, compress demoCodec [] [] p 101 = .ok out ∧ (out ≠ p → out.length ≠ p.length) := by
    intro p hp
    refine ⟨p, ?_, fun h => absurd rfl h⟩
    unfold compress
    dsimp only
    rw [if_pos (Or.inr (Or.inr hp))]
  have hs : ∀ p : List UInt8, p.length < 100 → p.head? ≠ some 0 → StrOk p := fun p h1 h2 => ⟨by omega, h2⟩
  have hn : ∀ a b d : List UInt8, a.length < 100 → b.length < 100 → d.length < 3 → a.head? ≠ some 0 → b.head? ≠ some 0 →
      d.head? ≠ some 0 → NamesOk a b d := by
    intro a b d h1 h2 h3 h4 h5 h6
    refine ⟨by omega, ?_, hs a h1 h4, hs b h2 h5, hs d (by omega) h6⟩
    intro hx; rw [hx] at h3; exact absurd h3 (by decide)
  have ht := exNow_ok
  intro op hop
  simp only [exOps, List.mem_cons, List.not_mem_nil, or_false] at hop
  rcases hop with rfl | rfl | rfl | rfl | rfl | rfl
  · exact ⟨hn _ _ _ (by decide) (by decide) (by decide) (by decide) (by decide) (by decide), by decide, by decide, by decide, ht, hcomp _ (by decide)⟩
  · exact ⟨hs _ (by decide) (by decide), by decide, by decide, ht⟩
  · refine ⟨hn _ _ _ (by decide) (by decide) (by decide) (by decide) (by decide) (by decide), by decide, by decide, by rw [List.length_replicate]; decide, ht, ?_⟩
    obtain ⟨out, h1, h2⟩ : ∃ out, compress demoCodec [] [] (List.replicate 600 7) 101 = .ok out ∧ out.length = 15 := by
      cases h : compress demoCodec [] [] (List.replicate 600 7) 101 with
      | ok out =>
        refine ⟨out, rfl, ?_⟩
        have : (match compress demoCodec [] [] (List.replicate 600 7) 101 with | .ok o => o.length | _ => 0) = 15 := by decide +kernel
        rw [h] at this
        exact this
      | _ => exact absurd h (by decide +kernel)
    exact ⟨out, h1, fun _ => by rw [h2, List.length_replicate]; decide⟩
  · exact ⟨hn _ _ _ (by decide) (by decide) (by decide) (by decide) (by decide) (by decide), by decide, by decide, by decide, ht, hcomp _ (by decide)⟩
  · exact ⟨hn _ _ _ (by decide) (by decide) (by decide) (by decide) (by decide) (by decide), by decide, by decide, by decide, ht, hcomp _ (by decide)⟩
  · exact ⟨hs _ (by decide) (by decide), by decide, by decide, ht⟩

/-- What it contains. -/
theorem exSpec : specRun exOps =
    [[⟨[97], 1, [], .obj [84, 72] [1, 2, 3]⟩, ⟨[100], 1, [100], .dir 1⟩, ⟨[97], 2, [], .obj [84, 72] [4, 5]⟩],
     [⟨[98], 1, [116], .obj [84, 72] (List.replicate 600 7)⟩, ⟨[101], 1, [101], .dir 2⟩],
     []] := by decide +kernel

def exFinal : Option FFile :=
  (create [102] 101 exNow).bind fun f => (runOps demoCodec [] f exOps).bind fun f => f.close demoCodec [] [8, 8] exNow

/-- All hypotheses of `C81_reopen_partial` hold for it; so its conclusion does. -/
example : ∃ f', exFinal = some f' ∧ f'.w.end_ ≤ kStartBigFile ∧
    ∃ r, openFile demoCodec f'.w.disk = some r ∧ r.dir.name = [102] ∧ r.sinfo = [8, 8] ∧
      ∀ depth, Shows demoCodec f'.w.disk (specRun exOps) depth r.dir 0 := by
  have hsome : exFinal.isSome = true := by decide +kernel
  obtain ⟨f', hf'⟩ := Option.isSome_iff_exists.mp hsome
  have hend : (exFinal.map fun f => decide (f.w.end_ ≤ kStartBigFile)) = some true := by decide +kernel
  have hmid : (((create [102] 101 exNow).bind fun f => runOps demoCodec [] f exOps).map fun f => decide (f.w.end_ ≤ kStartBigFile)) = some true := by
    decide +kernel
  have hf := hf'
  unfold exFinal at hf
  obtain ⟨f0, h0, hf⟩ := Option.bind_eq_some_iff.mp hf
  obtain ⟨f, h1, h2⟩ := Option.bind_eq_some_iff.mp hf
  rw [h0, Option.bind_some, h1] at hmid
  rw [hf'] at hend
  simp only [Option.map_some, Option.some.injEq, decide_eq_true_eq] at hmid hend
  obtain ⟨r, r1, r2, r3, _, r5⟩ := C81_reopen_partial demoCodec demo_lossless.1 demo_lossless.2 [] (by decide) [102] 101 exNow exNow exOps [8, 8]
    ⟨by decide, by decide⟩ (by decide) (by decide +kernel) (by decide) exNow_ok exNow_ok
    exOps_ok (by rw [exSpec]; decide +kernel) (by decide) ⟨[8, 8], by decide +kernel, fun h => absurd rfl h⟩ f0 f f' h0 h1 hmid h2 hend
  exact ⟨f', hf', hend, r, r1, r2, r3, r5⟩

/-- The limit for paths is between 470 and 500 bytes. -/
example : nbnFor (List.replicate 470 (97 : UInt8)) ≤ 1000 ∧ 1000 < nbnFor (List.replicate 500 (97 : UInt8)) := by decide +kernel

end Verif.Riofs
