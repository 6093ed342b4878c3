import Verif.HepMC.Copy

/-!
# Reading a HepMC file to its end (C86)

A goroutine feeds the lines to the decoder; it ends after sending one error.  The full
statement, that no call of `Decode` waits for ever, is false: see
`C86_decode_after_end_counterexample`.
-/

namespace Verif.HepMC

variable {F G N : Type}

/-- An outcome that is not a wait for ever, and after which the decoder, if it can be used
again, has not received the last error. -/
def Fine {α : Type} (d : α → Dec) : R α → Prop
  | .ok a => (d a).done = false
  | .hang => False
  | _ => True

theorem Fine.bind {α β : Type} {da : α → Dec} {db : β → Dec} {r : R α} {f : α → R β} (h : Fine da r)
    (hf : ∀ a, (da a).done = false → Fine db (f a)) : Fine db (r.bind f) := by
  cases r with
  | ok a => exact hf a h
  | eof d => trivial
  | err => trivial
  | panic => trivial
  | hang => exact h

/-- Parsing the words of a line cannot wait. -/
def NoHang {α : Type} (r : R α) : Prop := r ≠ .hang

theorem NoHang.bind {α β : Type} {db : β → Dec} {r : R α} {f : α → R β} (h : NoHang r) (hf : ∀ a, Fine db (f a)) :
    Fine db (r.bind f) := by
  cases r with
  | ok a => exact hf a
  | eof d => trivial
  | err => trivial
  | panic => trivial
  | hang => exact absurd rfl h

theorem NoHang.bind' {α β : Type} {r : R α} {f : α → R β} (h : NoHang r) (hf : ∀ a, NoHang (f a)) : NoHang (r.bind f) := by
  cases r with
  | ok a => exact hf a
  | eof d => intro h; cases h
  | err => intro h; cases h
  | panic => intro h; cases h
  | hang => exact absurd rfl h

theorem NoHang.ofOption {α : Type} (o : Option α) : NoHang (R.ofOption o) := by
  cases o <;> (intro h; cases h)

theorem NoHang.header (b : UInt8) (ts : Toks) : NoHang (header b ts) := by
  unfold HepMC.header
  split
  · intro h; cases h
  · split <;> (intro h; cases h)

theorem NoHang.pSlice {α : Type} (m : P α) (n : Int) (ts : Toks) : NoHang (pSlice m n ts) := by
  unfold HepMC.pSlice
  split
  · intro h; cases h
  · exact NoHang.ofOption _

theorem NoHang.rVtx (c : Fmt F G N) (ts : Toks) : NoHang (rVtx c ts) :=
  (NoHang.ofOption _).bind' fun _ => (NoHang.pSlice _ _ _).bind' fun _ h => by cases h

theorem NoHang.rEvt (c : Fmt F G N) (ts : Toks) : NoHang (rEvt c ts) :=
  (NoHang.ofOption _).bind' fun _ => (NoHang.pSlice _ _ _).bind' fun _ => (NoHang.ofOption _).bind' fun _ =>
    (NoHang.pSlice _ _ _).bind' fun _ h => by cases h

theorem NoHang.rASCII (c : Fmt F G N) (ts : Toks) : NoHang (rASCII c ts) :=
  (NoHang.ofOption _).bind' fun _ => (NoHang.pSlice _ _ _).bind' fun _ => (NoHang.ofOption _).bind' fun _ =>
    (NoHang.pSlice _ _ _).bind' fun _ h => by cases h

theorem Fine.atEnd {α : Type} {da : α → Dec} {d : Dec} (h : d.done = false) : Fine da (atEnd d : R α) := by
  unfold HepMC.atEnd
  rw [h]
  simp only [Bool.false_eq_true, if_false]
  split <;> trivial

theorem Fine.readline {d : Dec} (h : d.done = false) : Fine (fun q => q.2) (readline d) := by
  unfold HepMC.readline
  split
  · exact Fine.atEnd h
  · exact h

theorem Fine.readParts (c : Fmt F G N) (e : Nat) (prod : Option Nat) (n : Nat) (a : Acc F G N) (h : a.d.done = false) :
    Fine (fun q => q.2.d) (readParts c e prod n a) := by
  induction n generalizing a with
  | zero => exact h
  | succ n ih =>
    unfold HepMC.readParts
    refine (Fine.readline h).bind fun ld hld => ?_
    refine (NoHang.header _ _).bind fun ts => ?_
    refine (NoHang.ofOption _).bind fun q => ?_
    refine (ih (HepMC.addPart { a with d := ld.2 } e prod q.1) hld).bind fun r hr => ?_
    exact hr

theorem Fine.readVtx (c : Fmt F G N) (e : Nat) (a : Acc F G N) (ts : Toks) (h : a.d.done = false) :
    Fine (fun q => q.d) (readVtx c e a ts) := by
  unfold HepMC.readVtx
  refine (NoHang.header _ _).bind fun ts => ?_
  refine (NoHang.rVtx _ _).bind fun w => ?_
  refine (Fine.readParts c e none _ _ (by exact h)).bind fun r hr => ?_
  dsimp only
  split
  · trivial
  · refine (Fine.readParts c e _ _ _ hr).bind fun o ho => ?_
    exact ho

theorem Fine.readVtxs (c : Fmt F G N) (e n : Nat) (a : Acc F G N) (h : a.d.done = false) :
    Fine (fun q => q.d) (readVtxs c e n a) := by
  induction n generalizing a with
  | zero => exact h
  | succ n ih =>
    unfold HepMC.readVtxs
    refine (Fine.readline h).bind fun ld hld => ?_
    refine (Fine.readVtx c e _ _ hld).bind fun a ha => ih a ha

theorem Fine.readAllVtxs (c : Fmt F G N) (e : Nat) (n : Int) (a : Acc F G N) (ts : Toks) (h : a.d.done = false) :
    Fine (fun q => q.d) (readAllVtxs c e n a ts) := by
  unfold HepMC.readAllVtxs
  split
  · exact h
  · exact (Fine.readVtx c e _ _ h).bind fun a ha => Fine.readVtxs c e _ a ha

theorem NoHang.setSignal (d : Dec) (h : Heap F G N) (e : Nat) : NoHang (setSignal d h e) := by
  unfold HepMC.setSignal
  split
  · intro h; cases h
  · split
    · intro h; cases h
    · split <;> (intro h; cases h)

theorem NoHang.connect (d : Dec) (e : Nat) (qs : List (Int × Int)) (h : Heap F G N) : NoHang (connect d e qs h) := by
  induction qs generalizing h with
  | nil => intro h; cases h
  | cons q qs ih =>
    refine NoHang.bind' ?_ fun h => ih h
    unfold connect1
    split <;> (intro h; cases h)

variable [DecidableEq N]

theorem headStep_fine (c : Fmt F G N) (e : Nat) (a : HAcc F G N) (ts : Toks) :
    NoHang (headStep c e a ts) ∧ ∀ a', headStep c e a ts = .ok (some a') → a'.d.done = a.d.done := by
  have key : ∀ {α : Type} (r : R α) (f : α → HAcc F G N), NoHang r → (∀ x, (f x).d.done = a.d.done) →
      NoHang (r.bind fun x => .ok (some (f x))) ∧ ∀ a', r.bind (fun x => .ok (some (f x))) = .ok (some a') → a'.d.done = a.d.done := by
    intro α r f hr hf
    cases r with
    | ok x =>
      refine ⟨fun h => (by cases h), fun a' h => ?_⟩
      cases h
      exact hf x
    | eof d => exact ⟨fun h => (by cases h), fun a' h => (by cases h)⟩
    | err => exact ⟨fun h => (by cases h), fun a' h => (by cases h)⟩
    | panic => exact ⟨fun h => (by cases h), fun a' h => (by cases h)⟩
    | hang => exact absurd rfl hr
  have key2 : ∀ {α β : Type} (r : R α) (g : α → R β) (f : α → β → HAcc F G N), NoHang r → (∀ x, NoHang (g x)) →
      (∀ x y, (f x y).d.done = a.d.done) →
      NoHang (r.bind fun x => (g x).bind fun y => .ok (some (f x y))) ∧
      ∀ a', r.bind (fun x => (g x).bind fun y => .ok (some (f x y))) = .ok (some a') → a'.d.done = a.d.done := by
    intro α β r g f hr hg hf
    cases r with
    | ok x => exact key (g x) (f x) (hg x) (hf x)
    | eof d => exact ⟨fun h => (by cases h), fun a' h => (by cases h)⟩
    | err => exact ⟨fun h => (by cases h), fun a' h => (by cases h)⟩
    | panic => exact ⟨fun h => (by cases h), fun a' h => (by cases h)⟩
    | hang => exact absurd rfl hr
  have same : NoHang (R.ok (some a)) ∧ ∀ a', R.ok (some a) = .ok (some a') → a'.d.done = a.d.done :=
    ⟨fun h => (by cases h), fun a' h => (by cases h; rfl)⟩
  unfold headStep
  split
  · exact ⟨fun h => (by cases h), fun a' h => (by cases h)⟩
  · exact ⟨fun h => (by cases h), fun a' h => (by cases h)⟩
  · next b w ts' =>
    split
    · dsimp only
      refine key _ (fun w => ⟨{ a.d with sigBc := w.sigBc, bp1 := w.bp1, bp2 := w.bp2 }, a.h.modE e (fillEvt w), w.nVtx⟩) ?_
        fun _ => rfl
      split
      · exact NoHang.rEvt _ _
      · exact NoHang.rASCII _ _
      · exact NoHang.rEvt _ _
      · intro h; cases h
      · intro h; cases h
      · intro h; cases h
    · split
      · exact key2 _ _ (fun (n : Int × Toks) m => { a with h := a.h.modE e fun x => { x with wmap := m } })
          (NoHang.ofOption _) (fun _ => NoHang.ofOption _) fun _ _ => rfl
      · split
        · split
          · exact key2 _ _ (fun mu lu => { a with h := a.h.modE e fun x => { x with mu := mu, lu := lu } })
              (NoHang.ofOption _) (fun _ => NoHang.ofOption _) fun _ _ => rfl
          · exact same
        · split
          · exact key _ (fun (q : CrossSection F × Toks) => { a with h := a.h.modE e fun x => { x with cross := some q.1 } }) (NoHang.ofOption _) fun _ => rfl
          · split
            · split
              · exact key _ (fun (q : HeavyIon G × Toks) => { a with h := a.h.modE e fun x => { x with heavy := some q.1 } }) (NoHang.ofOption _)
                  fun _ => rfl
              · exact same
            · split
              · split
                · exact key _ (fun (q : PdfInfo F × Toks) => { a with h := a.h.modE e fun x => { x with pdf := some q.1 } }) (NoHang.ofOption _)
                    fun _ => rfl
                · exact same
              · split
                · exact ⟨fun h => (by cases h), fun a' h => (by cases h)⟩
                · exact ⟨fun h => (by cases h), fun a' h => (by cases h)⟩

theorem Fine.headLoop (c : Fmt F G N) (e : Nat) (ls : List (List UInt8)) (a : HAcc F G N) (ts : Toks) (h : a.d.done = false) :
    Fine (fun q => q.1.d) (headLoop c e a ts ls) := by
  induction ls generalizing a ts with
  | nil =>
    unfold HepMC.headLoop
    obtain ⟨k1, k2⟩ := headStep_fine c e a ts
    cases hr : headStep c e a ts with
    | ok r =>
      cases r with
      | none => exact h
      | some a' =>
        refine Fine.atEnd ?_
        show a'.d.done = false
        rw [k2 a' hr, h]
    | eof d => trivial
    | err => trivial
    | panic => trivial
    | hang => exact absurd hr k1
  | cons l ls ih =>
    unfold HepMC.headLoop
    obtain ⟨k1, k2⟩ := headStep_fine c e a ts
    cases hr : headStep c e a ts with
    | ok r =>
      cases r with
      | none => exact h
      | some a' => exact ih a' _ (by rw [k2 a' hr, h])
    | eof d => trivial
    | err => trivial
    | panic => trivial
    | hang => exact absurd hr k1

theorem findType_fine (d : Dec) (ls : List (List UInt8)) (h : d.done = false) : Fine id (findType d ls) := by
  induction ls with
  | nil => unfold findType; rw [h]; trivial
  | cons l ls ih =>
    unfold findType
    split
    · exact h
    · exact ih

/-- A decoder that has not yet returned an error never waits for ever, whatever bytes are read:
the call returns an event, end of file or an error (or panics), and after an event the same
holds for the next call.  A program that stops at the first error is safe.

Missing: calls after an end of file, see `C86_decode_after_end_counterexample`. -/
theorem C86_decode_returns_partial (c : Fmt F G N) (ord : List (Int × Int) → List (Int × Int)) (d : Dec) (hd : d.done = false)
    (h : Heap F G N) (k : Nat) :
    decode c ord d h k ≠ .hang ∧ ∀ d' h', decode c ord d h k = .ok (d', h') → d'.done = false := by
  have key : Fine (fun q => q.1) (decode c ord d h k) := by
    unfold decode
    refine Fine.bind (da := id) ?_ fun d1 h1 => ?_
    · split
      · exact hd
      · exact findType_fine d _ hd
    · refine (Fine.readline (by exact h1)).bind fun ld hld => ?_
      split
      · trivial
      · trivial
      · split
        · split
          · trivial
          · split <;> trivial
        · refine (Fine.headLoop c k _ _ _ hld).bind fun r hr => ?_
          refine (Fine.readAllVtxs c k _ _ _ hr).bind fun a ha => ?_
          refine (NoHang.setSignal _ _ _).bind fun h => ?_
          refine (NoHang.connect _ _ _ _).bind fun h => ?_
          exact ha
  constructor
  · intro he; rw [he] at key; exact key
  · intro d' h' he; rw [he] at key; exact key

/-- A new decoder, any bytes: reading events until the first error never waits for ever. -/
theorem C86_read_until_error_returns (c : Fmt F G N) (bs : List UInt8) (h : Heap F G N)
    (ks : List (Nat × (List (Int × Int) → List (Int × Int)))) : decodeAll c (newDecoder bs) h ks ≠ .hang := by
  have : ∀ (ks : List (Nat × (List (Int × Int) → List (Int × Int)))) (d : Dec) (h : Heap F G N), d.done = false →
      decodeAll c d h ks ≠ .hang := by
    intro ks
    induction ks with
    | nil => intro d h _ he; cases he
    | cons q ks ih =>
      obtain ⟨k, o⟩ := q
      intro d h hd
      obtain ⟨k1, k2⟩ := C86_decode_returns_partial c o d hd h k
      rw [decodeAll]
      cases hr : decode c o d h k with
      | ok q => exact ih q.1 q.2 (k2 q.1 q.2 hr)
      | eof d => intro h; cases h
      | err => intro h; cases h
      | panic => intro h; cases h
      | hang => exact absurd hr k1
  exact this ks _ h rfl

/-- After an end of file the decoder must not be called again for long: at the latest the
second further call waits for ever, because the goroutine that feeds the lines has ended.
Stated for every decoder at the end of a listing. -/
theorem C86_decode_after_end_counterexample (c : Fmt F G N) (ord : List (Int × Int) → List (Int × Int)) (d : Dec)
    (hs : d.seen = true) (ht : d.ftype = .genEvent) (hd : d.done = false) (hl : d.long = false)
    (hr : d.rest = [joinSp [endGenEvent]]) (h : Heap F G N) (k : Nat) :
    ∃ d1 d2, decode c ord d h k = .eof d1 ∧ decode c ord d1 h k = .eof d2 ∧ decode c ord d2 h k = .hang := by
  refine ⟨_, _, decode_end ord d hs ht hr h k,
    (show _ = R.eof { d with sigBc := 0, bp1 := 0, bp2 := 0, rest := [], done := true } from ?_), ?_⟩
  · unfold decode
    rw [if_pos hs]
    show R.bind (HepMC.readline _) _ = _
    unfold HepMC.readline
    dsimp only
    unfold HepMC.atEnd
    simp only [hd, hl]
    rfl
  · unfold decode
    rw [if_pos hs]
    rfl

/-- No event of a file in the `IO_Ascii` format can ever be read, whatever the file contains:
the line of an event is parsed from its first letter on, which is not a number. -/
theorem C86_ascii_never_read (c : Fmt F G N) (ord : List (Int × Int) → List (Int × Int)) (d : Dec) (hs : d.seen = true)
    (ht : d.ftype = .ascii) (h : Heap F G N) (k : Nat) : ∀ q, decode c ord d h k ≠ .ok q := by
  intro q
  unfold decode
  rw [if_pos hs, R.bind_ok rfl]
  unfold HepMC.readline
  dsimp only
  cases hr : d.rest with
  | nil =>
    dsimp only
    unfold HepMC.atEnd
    dsimp only
    split
    · intro h; cases h
    · split <;> (intro h; cases h)
  | cons l ls =>
    dsimp only [R.bind]
    split
    · intro h; cases h
    · intro h; cases h
    · next b w ts hsp =>
      split
      · split
        · intro h; cases h
        · split <;> (intro h; cases h)
      · next hb =>
        have hb : b = 69 := Decidable.of_not_not hb
        subst hb
        have hp : parseInt (69 :: w) = none := by
          simp [parseInt, parseNat, isDigit]
        have hstep : ∀ a : HAcc F G N, a.d.ftype = .ascii → headStep c k a ((69 :: w) :: ts) = .err := by
          intro a ha
          unfold headStep
          simp only [if_true]
          rw [ha]
          simp only [HepMC.rASCII, P.bind, pInt, tnext, hp, Option.map_none, R.ofOption, R.bind]
        have : headLoop c k ⟨{ d with sigBc := 0, bp1 := 0, bp2 := 0, rest := ls }, h, 0⟩ ((69 :: w) :: ts) ls = .err := by
          cases ls with
          | nil => rw [HepMC.headLoop, hstep _ ht]; rfl
          | cons l ls => rw [HepMC.headLoop, hstep _ ht]; rfl
        rw [hsp, this]
        intro h; cases h

end Verif.HepMC
