import Verif.Xrootd.Session

/-!
# What requests obtain, and when they are blocked (C39, C73)
-/

namespace Verif.Xrootd

variable {I : Type} [DecidableEq I]

/-! ## Specification -/

/-- What was received for the last request that claimed a stream id: the request, the connection, the data so
far, and whether the last response was data (`true`) or an error (`false`). -/
structure Track where
  r : Nat
  conn : Option Nat
  data : Bytes
  fin : Option Bool

/-- A response for the request. -/
def Track.add (x : Track) (c : Nat) : Reply → Track
  | .part d => { x with conn := some c, data := x.data ++ d }
  | .final d => { x with conn := some c, data := x.data ++ d, fin := some true }
  | .fail _ => { x with conn := some c, fin := some false }
  | .wait => x

/-- Only claims and responses with the stream id count. -/
def track (id : I) (t : Option Track) : Ev I → Option Track
  | .claim r id' => if id' = id then some ⟨r, none, [], none⟩ else t
  | .recv c id' a => if id' = id then t.map (·.add c a) else t
  | _ => t

/-- What was received for a stream id in a history. -/
def tracked (es : List (Ev I)) (id : I) : Option Track := es.foldl (track id) none

/-- The server answers requests which are outstanding (their last response was not yet received), each over
one connection; no connection is lost. -/
def Honest (es : List (Ev I)) : Prop :=
  (∀ c p cl l, Ev.lost c p cl l ∉ es) ∧
  ∀ before c id a after, es = before ++ Ev.recv c id a :: after →
    ∃ x, tracked before id = some x ∧ x.fin = none ∧ (x.conn = none ∨ x.conn = some c)

theorem tracked_snoc (es : List (Ev I)) (e : Ev I) (id : I) : tracked (es ++ [e]) id = track id (tracked es id) e := by
  simp [tracked]

theorem honest_prefix {es fs : List (Ev I)} (h : Honest (es ++ fs)) : Honest es :=
  ⟨fun c p cl l hm => h.1 c p cl l (List.mem_append_left _ hm), fun before c id a after he =>
    h.2 before c id a (after ++ fs) (by rw [he]; simp)⟩

/-! ## Invariant -/

def Act.id : Act I → I
  | .send id _ _ => id
  | .unclaim id => id

/-- The goroutine has something to do for the stream id. -/
def Handles (id : I) (p : List (Act I)) : Prop := ∃ a ∈ p, a.id = id

inductive ProgOk (T : I → Option Track) (σ : Net I) (c : Nat) : List (Act I) → Prop
  | nil : ProgOk T σ c []
  | part (id : I) (d : Bytes) (x : Track) : T id = some x → σ.owner id = some x.r → x.conn = some c → x.fin = none →
      (∀ acc, σ.req x.r = .waiting id acc → x.data = acc ++ d) → ProgOk T σ c [.send id (.data d) .panic]
  | final (id : I) (d : Bytes) (x : Track) : T id = some x → σ.owner id = some x.r → x.conn = some c → x.fin = some true →
      (∀ acc, σ.req x.r = .waiting id acc → x.data = acc ++ d) → ProgOk T σ c [.send id (.data d) .panic, .unclaim id]
  | fail (id : I) (y : Nat) (x : Track) : T id = some x → σ.owner id = some x.r → x.conn = some c → x.fin = some false →
      ProgOk T σ c [.send id (.stop y) .panic, .unclaim id]
  | unclaimOk (id : I) (x : Track) : T id = some x → σ.owner id = some x.r → x.conn = some c → x.fin = some true →
      (∀ acc, σ.req x.r = .waiting id acc → x.data = acc) → ProgOk T σ c [.unclaim id]
  | unclaimFail (id : I) (x : Track) : T id = some x → σ.owner id = some x.r → x.conn = some c → x.fin = some false →
      (∀ acc, σ.req x.r ≠ .waiting id acc) → ProgOk T σ c [.unclaim id]

omit [DecidableEq I] in
theorem ProgOk.handles {T : I → Option Track} {σ : Net I} {c : Nat} {p : List (Act I)} (h : ProgOk T σ c p) {id : I}
    (hh : Handles id p) : ∃ x, T id = some x ∧ σ.owner id = some x.r ∧ x.conn = some c := by
  obtain ⟨a, ha, he⟩ := hh
  cases h with
  | nil => cases ha
  | part i d x h1 h2 h3 =>
    simp only [List.mem_cons, List.not_mem_nil, or_false] at ha; subst ha; cases he; exact ⟨x, h1, h2, h3⟩
  | final i d x h1 h2 h3 =>
    simp only [List.mem_cons, List.not_mem_nil, or_false] at ha
    rcases ha with rfl | rfl <;> cases he <;> exact ⟨x, h1, h2, h3⟩
  | fail i d x h1 h2 h3 =>
    simp only [List.mem_cons, List.not_mem_nil, or_false] at ha
    rcases ha with rfl | rfl <;> cases he <;> exact ⟨x, h1, h2, h3⟩
  | unclaimOk i x h1 h2 h3 =>
    simp only [List.mem_cons, List.not_mem_nil, or_false] at ha; subst ha; cases he; exact ⟨x, h1, h2, h3⟩
  | unclaimFail i x h1 h2 h3 =>
    simp only [List.mem_cons, List.not_mem_nil, or_false] at ha; subst ha; cases he; exact ⟨x, h1, h2, h3⟩

omit [DecidableEq I] in
theorem ProgOk.mono {T T' : I → Option Track} {σ σ' : Net I} {c : Nat} {p : List (Act I)} (h : ProgOk T σ c p)
    (hT : ∀ id, Handles id p → T' id = T id) (hO : ∀ id, Handles id p → σ'.owner id = σ.owner id)
    (hR : ∀ id r acc, Handles id p → σ.owner id = some r → σ'.req r = .waiting id acc → σ.req r = .waiting id acc) :
    ProgOk T' σ' c p := by
  cases h with
  | nil => exact .nil
  | part i d x h1 h2 h3 h4 h5 =>
    have hh : Handles i [Act.send i (.data d) .panic] := ⟨_, List.mem_cons_self, rfl⟩
    exact .part i d x (by rw [hT i hh, h1]) (by rw [hO i hh, h2]) h3 h4 (fun acc ha => h5 acc (hR i _ _ hh h2 ha))
  | final i d x h1 h2 h3 h4 h5 =>
    have hh : Handles i [Act.send i (.data d) .panic, .unclaim i] := ⟨_, List.mem_cons_self, rfl⟩
    exact .final i d x (by rw [hT i hh, h1]) (by rw [hO i hh, h2]) h3 h4 (fun acc ha => h5 acc (hR i _ _ hh h2 ha))
  | fail i y x h1 h2 h3 h4 =>
    have hh : Handles i [Act.send i (.stop y) .panic, .unclaim i] := ⟨_, List.mem_cons_self, rfl⟩
    exact .fail i y x (by rw [hT i hh, h1]) (by rw [hO i hh, h2]) h3 h4
  | unclaimOk i x h1 h2 h3 h4 h5 =>
    have hh : Handles i [Act.unclaim i] := ⟨_, List.mem_cons_self, rfl⟩
    exact .unclaimOk i x (by rw [hT i hh, h1]) (by rw [hO i hh, h2]) h3 h4 (fun acc ha => h5 acc (hR i _ _ hh h2 ha))
  | unclaimFail i x h1 h2 h3 h4 h5 =>
    have hh : Handles i [Act.unclaim i] := ⟨_, List.mem_cons_self, rfl⟩
    exact .unclaimFail i x (by rw [hT i hh, h1]) (by rw [hO i hh, h2]) h3 h4 (fun acc ha => h5 acc (hR i _ _ hh h2 ha))

/-- `T` is what was received, `W r v` says that `r` was answered with `v`, `C r` that it was cancelled. -/
structure Inv (T : I → Option Track) (W : Nat → Bytes → Prop) (C : Nat → Prop) (σ : Net I) : Prop where
  own : OwnInv σ
  alive : σ.crashed = false
  locked : ∀ c, σ.lock = some c → ∃ id m rest, σ.prog c = .send id m .panic :: rest
  trackOwner : ∀ id r, σ.owner id = some r → ∃ x, T id = some x ∧ x.r = r
  openOwner : ∀ id x, T id = some x → x.fin = none → σ.owner id = some x.r
  trackLive : ∀ id x, T id = some x → σ.req x.r ≠ .idle
  trackOnce : ∀ id id' x x', T id = some x → T id' = some x' → x.r = x'.r → id = id'
  prog : ∀ c, ProgOk T σ c (σ.prog c)
  quiet : ∀ id x, T id = some x → σ.owner id = some x.r → (∀ c, ¬ Handles id (σ.prog c)) →
    x.fin = none ∧ ∀ acc, σ.req x.r = .waiting id acc → x.data = acc
  live : ∀ id r, σ.owner id = some r →
    (∃ acc, σ.req r = .waiting id acc) ∨ (∃ c x, σ.prog c = [.unclaim id] ∧ T id = some x ∧ x.fin = some false) ∨
    σ.req r = .done .cancelled
  finished : ∀ id x, T id = some x → x.fin = some true → (∃ c, Handles id (σ.prog c)) ∨ σ.req x.r = .closing x.data ∨
    σ.req x.r = .done (.full x.data) ∨ σ.req x.r = .done .cancelled
  result : ∀ r v, σ.req r = .closing v ∨ σ.req r = .done (.full v) → W r v
  cancelled : ∀ r, σ.req r = .done .cancelled → C r

omit [DecidableEq I] in
theorem Inv.noOther {T : I → Option Track} {W C} {σ : Net I} (h : Inv T W C σ) {c c' : Nat} {id : I} (h1 : Handles id (σ.prog c))
    (h2 : Handles id (σ.prog c')) : c = c' := by
  obtain ⟨x, hx, _, hc⟩ := (h.prog c).handles h1
  obtain ⟨x', hx', _, hc'⟩ := (h.prog c').handles h2
  rw [hx] at hx'; cases hx'
  rw [hc] at hc'; exact Option.some.inj hc'

theorem inv_claim {T : I → Option Track} {W C} {σ σ' : Net I} (h : Inv T W C σ) (hw : OwnInv σ') (r : Nat) (id : I)
    (he : σ.claimStep r id = some σ') : Inv (fun i => if i = id then some ⟨r, none, [], none⟩ else T i) W C σ' := by
  unfold Net.claimStep at he
  split at he
  rotate_left
  · cases he
  rename_i _ _ _ hl ho hq
  cases he
  have hno : ∀ c, ¬ Handles id (σ.prog c) := by
    intro c hc
    obtain ⟨x, _, hx, _⟩ := (h.prog c).handles hc
    rw [ho] at hx; cases hx
  have hr : ∀ i x, T i = some x → x.r ≠ r := by
    rintro i x hx rfl; exact h.trackLive i x hx hq
  have hro : ∀ i r', σ.owner i = some r' → r' ≠ r := by
    rintro i r' hx rfl; exact h.own.live i r' hx hq
  refine ⟨hw, h.alive, h.locked, ?_, ?_, ?_, ?_, ?_, ?_, ?_, ?_, ?_, ?_⟩
  · intro i r' hi
    simp only [setOwner] at hi ⊢
    by_cases hii : i = id
    · rw [if_pos hii] at hi ⊢; cases hi; exact ⟨_, rfl, rfl⟩
    · rw [if_neg hii] at hi ⊢; exact h.trackOwner i r' hi
  · intro i x hx hf
    simp only [setOwner] at hx ⊢
    by_cases hii : i = id
    · rw [if_pos hii] at hx ⊢; cases hx; rfl
    · rw [if_neg hii] at hx ⊢; exact h.openOwner i x hx hf
  · intro i x hx
    simp only [setReq] at hx ⊢
    by_cases hii : i = id
    · rw [if_pos hii] at hx; cases hx; simp
    · rw [if_neg hii] at hx
      rw [if_neg (hr i x hx)]; exact h.trackLive i x hx
  · intro i i' x x' hx hx' hxx
    by_cases hii : i = id <;> by_cases hii' : i' = id
    · rw [hii, hii']
    · rw [if_pos hii] at hx; rw [if_neg hii'] at hx'; cases hx; exact absurd hxx.symm (hr i' x' hx')
    · rw [if_neg hii] at hx; rw [if_pos hii'] at hx'; cases hx'; exact absurd hxx (hr i x hx)
    · rw [if_neg hii] at hx; rw [if_neg hii'] at hx'; exact h.trackOnce i i' x x' hx hx' hxx
  · intro c
    refine (h.prog c).mono ?_ ?_ ?_
    · intro i hi; rw [if_neg]; rintro rfl; exact hno c hi
    · intro i hi; simp only [setOwner]; rw [if_neg]; rintro rfl; exact hno c hi
    · intro i r' acc hi hro' hq'
      simp only [setReq] at hq'
      rw [if_neg (hro i r' hro')] at hq'; exact hq'
  · intro i x hx hxo hqu
    simp only [setOwner, setReq] at hx hxo hqu ⊢
    by_cases hii : i = id
    · rw [if_pos hii] at hx; cases hx
      refine ⟨rfl, ?_⟩
      intro acc ha
      rw [if_pos rfl] at ha; cases ha; rfl
    · rw [if_neg hii] at hx hxo
      rw [if_neg (hr i x hx)]
      exact h.quiet i x hx hxo hqu
  · intro i r' hi
    simp only [setOwner, setReq] at hi ⊢
    by_cases hii : i = id
    · rw [if_pos hii] at hi; cases hi; subst hii; exact .inl ⟨[], by rw [if_pos rfl]⟩
    · rw [if_neg hii] at hi
      rw [if_neg (hro i r' hi), if_neg hii]; exact h.live i r' hi
  · intro i x hx hf
    simp only [setReq] at hx ⊢
    by_cases hii : i = id
    · rw [if_pos hii] at hx; cases hx; cases hf
    · rw [if_neg hii] at hx
      rw [if_neg (hr i x hx)]; exact h.finished i x hx hf
  · intro r' v hv
    simp only [setReq] at hv
    split at hv
    · rcases hv with hv | hv <;> cases hv
    · exact h.result r' v hv
  · intro r' hv
    simp only [setReq] at hv
    split at hv
    · cases hv
    · exact h.cancelled r' hv

omit [DecidableEq I] in
theorem handles_replyActs (id i : I) (a : Reply) (h : Handles i (replyActs id a)) : i = id ∧ a ≠ .wait := by
  obtain ⟨b, hb, he⟩ := h
  cases a with
  | part d => simp only [replyActs, List.mem_cons, List.not_mem_nil, or_false] at hb; subst hb; exact ⟨he.symm, by simp⟩
  | final d =>
    simp only [replyActs, List.mem_cons, List.not_mem_nil, or_false] at hb
    rcases hb with rfl | rfl <;> exact ⟨he.symm, by simp⟩
  | fail d =>
    simp only [replyActs, List.mem_cons, List.not_mem_nil, or_false] at hb
    rcases hb with rfl | rfl <;> exact ⟨he.symm, by simp⟩
  | wait => cases hb

theorem inv_recv {T : I → Option Track} {W C} {σ σ' : Net I} (h : Inv T W C σ) (hw : OwnInv σ') (c : Nat) (id : I) (a : Reply)
    (x : Track) (hx : T id = some x) (hf : x.fin = none) (hc : x.conn = none ∨ x.conn = some c)
    (he : σ.readStep c (replyActs id a) = some σ') :
    Inv (fun i => if i = id then (T i).map (·.add c a) else T i) W C σ' := by
  unfold Net.readStep at he
  split at he
  rotate_left
  · cases he
  rename_i hp
  cases he
  have hxo := h.openOwner id x hx hf
  have hno : ∀ c', ¬ Handles id (σ.prog c') := by
    intro c' hh
    obtain ⟨y, hy, _, hyc⟩ := (h.prog c').handles hh
    rw [hx] at hy; cases hy
    rcases hc with hc | hc
    · rw [hc] at hyc; cases hyc
    · rw [hc] at hyc; cases hyc; rw [hp] at hh; obtain ⟨_, hb, _⟩ := hh; cases hb
  have hqd := (h.quiet id x hx hxo hno).2
  have hnew : (fun i => if i = id then (T i).map (·.add c a) else T i) id = some (x.add c a) := by simp [hx]
  have hr : (x.add c a).r = x.r := by cases a <;> rfl
  have hhd : ∀ i c', Handles i (σ.prog c') → Handles i (setProg σ c (replyActs id a) c') := by
    intro i c' hh
    unfold setProg
    rw [if_neg]
    · exact hh
    · rintro rfl; rw [hp] at hh; obtain ⟨_, hb, _⟩ := hh; cases hb
  have hT : ∀ i y', (fun i => if i = id then (T i).map (·.add c a) else T i) i = some y' →
      ∃ y, T i = some y ∧ y'.r = y.r ∧ (i ≠ id → y' = y) ∧ (i = id → y' = x.add c a) := by
    intro i y' hy
    by_cases hii : i = id
    · subst hii
      rw [hnew] at hy; cases hy
      exact ⟨x, hx, hr, fun hc => absurd rfl hc, fun _ => rfl⟩
    · simp only [if_neg hii] at hy
      exact ⟨y', hy, rfl, fun _ => rfl, fun hc => absurd hc hii⟩
  refine ⟨hw, h.alive, ?_, ?_, ?_, ?_, ?_, ?_, ?_, ?_, ?_, h.result, h.cancelled⟩
  · intro c' hl
    obtain ⟨i, m, rest, hh⟩ := h.locked c' hl
    refine ⟨i, m, rest, ?_⟩
    simp only [setProg]
    rw [if_neg]
    · exact hh
    · rintro rfl; rw [hp] at hh; cases hh
  · intro i r' hi
    obtain ⟨y, hy, hyr⟩ := h.trackOwner i r' hi
    by_cases hii : i = id
    · subst hii
      rw [hx] at hy; cases hy
      exact ⟨x.add c a, hnew, by rw [hr, hyr]⟩
    · exact ⟨y, by simp only [if_neg hii]; exact hy, hyr⟩
  · intro i y hy hyf
    obtain ⟨z, hz, hzr, hne, heq⟩ := hT i y hy
    by_cases hii : i = id
    · subst hii
      rw [hx] at hz; cases hz
      rw [hzr]; exact hxo
    · have := hne hii; subst this
      exact h.openOwner i y hz hyf
  · intro i y hy
    obtain ⟨z, hz, hzr, _, _⟩ := hT i y hy
    rw [hzr]; exact h.trackLive i z hz
  · intro i i' y y' hy hy' hyy
    obtain ⟨z, hz, hzr, _, _⟩ := hT i y hy
    obtain ⟨z', hz', hzr', _, _⟩ := hT i' y' hy'
    exact h.trackOnce i i' z z' hz hz' (by rw [← hzr, ← hzr', hyy])
  · intro c'
    by_cases hcc : c' = c
    · subst hcc
      simp only [setProg]
      cases a with
      | part d =>
        refine .part id d (x.add c' (.part d)) hnew hxo rfl hf ?_
        intro acc ha
        show x.data ++ d = acc ++ d
        rw [hqd acc ha]
      | final d =>
        refine .final id d (x.add c' (.final d)) hnew hxo rfl rfl ?_
        intro acc ha
        show x.data ++ d = acc ++ d
        rw [hqd acc ha]
      | fail y => exact .fail id y (x.add c' (.fail y)) hnew hxo rfl rfl
      | wait => exact .nil
    · have : setProg σ c (replyActs id a) c' = σ.prog c' := by simp [setProg, hcc]
      simp only [this]
      refine (h.prog c').mono ?_ (fun _ _ => rfl) (fun _ _ _ _ _ hq => hq)
      intro i hi
      rw [if_neg]
      rintro rfl; exact hno c' hi
  · intro i y hy hyo hqu
    obtain ⟨z, hz, hzr, hne, heq⟩ := hT i y hy
    by_cases hii : i = id
    · subst hii
      have hyx := heq rfl
      cases a with
      | wait => subst hyx; exact ⟨hf, hqd⟩
      | _ =>
        exfalso
        apply hqu c
        simp only [setProg, if_pos, replyActs]
        exact ⟨_, List.mem_cons_self, rfl⟩
    · have := hne hii; subst this
      exact h.quiet i y hz hyo (fun c' hh => hqu c' (hhd i c' hh))
  · intro i r' hi
    rcases h.live i r' hi with hl | ⟨c', y, hl, hy, hyf⟩ | hl
    · exact .inl hl
    · refine .inr (.inl ⟨c', y, ?_, ?_, hyf⟩)
      · simp only [setProg]
        rw [if_neg]
        · exact hl
        · rintro rfl; rw [hp] at hl; cases hl
      · rw [if_neg]
        · exact hy
        · rintro rfl; rw [hx] at hy; cases hy; rw [hf] at hyf; cases hyf
    · exact .inr (.inr hl)
  · intro i y hy hyf
    obtain ⟨z, hz, hzr, hne, heq⟩ := hT i y hy
    by_cases hii : i = id
    · subst hii
      have hyx := heq rfl
      cases a with
      | final d =>
        left
        exact ⟨c, .send i (.data d) .panic, by simp [setProg, replyActs], rfl⟩
      | part d => subst hyx; simp only [Track.add, hf] at hyf; cases hyf
      | fail d => subst hyx; cases hyf
      | wait => subst hyx; rw [hf] at hyf; cases hyf
    · have := hne hii; subst this
      rcases h.finished i y hz hyf with ⟨c', hl⟩ | hl
      · exact .inl ⟨c', hhd i c' hl⟩
      · exact .inr hl

omit [DecidableEq I] in
theorem inv_cancel {T : I → Option Track} {W} {C C' : Nat → Prop} {σ σ' : Net I} (h : Inv T W C σ) (hw : OwnInv σ') (r : Nat)
    (hC : ∀ r, C r → C' r) (hC' : C' r) (he : σ.cancelStep r = some σ') : Inv T W C' σ' := by
  have hs : σ' = { σ with req := setReq σ r (.done .cancelled) } := by
    unfold Net.cancelStep at he
    split at he <;> cases he <;> rfl
  subst hs
  have hreq : ∀ r' s, setReq σ r (.done .cancelled) r' = s → s ≠ .done .cancelled → σ.req r' = s := by
    intro r' s hq hne
    unfold setReq at hq
    split at hq
    · exact absurd hq.symm hne
    · exact hq
  refine ⟨hw, h.alive, h.locked, h.trackOwner, h.openOwner, ?_, h.trackOnce, ?_, ?_, ?_, ?_, ?_, ?_⟩
  · intro i x hx
    simp only [setReq]
    split
    · simp
    · exact h.trackLive i x hx
  · intro c
    exact (h.prog c).mono (fun _ _ => rfl) (fun _ _ => rfl) (fun _ _ _ _ _ hq => hreq _ _ hq (by simp))
  · intro i x hx ho hqu
    have := h.quiet i x hx ho hqu
    exact ⟨this.1, fun acc ha => this.2 acc (hreq _ _ ha (by simp))⟩
  · intro i r' ho
    simp only [setReq]
    split
    · exact .inr (.inr rfl)
    · exact h.live i r' ho
  · intro i x hx hf
    simp only [setReq]
    split
    · exact .inr (.inr (.inr rfl))
    · exact h.finished i x hx hf
  · intro r' v hv
    refine h.result r' v ?_
    rcases hv with hv | hv
    · exact .inl (hreq _ _ hv (by simp))
    · exact .inr (hreq _ _ hv (by simp))
  · intro r' hv
    simp only [setReq] at hv
    split at hv
    · rename_i hrr; rw [hrr]; exact hC'
    · exact hC r' (h.cancelled r' hv)

omit [DecidableEq I] in
theorem inv_weaken {T : I → Option Track} {W W' : Nat → Bytes → Prop} {C C' : Nat → Prop} {σ : Net I} (h : Inv T W C σ)
    (hW : ∀ r v, W r v → W' r v) (hC : ∀ r, C r → C' r) : Inv T W' C' σ :=
  ⟨h.own, h.alive, h.locked, h.trackOwner, h.openOwner, h.trackLive, h.trackOnce, h.prog, h.quiet, h.live, h.finished,
    fun r v hv => hW r v (h.result r v hv), fun r hv => hC r (h.cancelled r hv)⟩

omit [DecidableEq I] in
theorem inv_lock {T : I → Option Track} {W C} {σ σ' : Net I} (h : Inv T W C σ) (hw : OwnInv σ') (c : Nat)
    (he : σ.lockStep c = some σ') : Inv T W C σ' := by
  unfold Net.lockStep at he
  split at he
  rotate_left
  · cases he
  rename_i _ _ id m miss rest hl hp
  have hpo := h.prog c
  rw [hp] at hpo
  have hown : ∃ x : Track, σ.owner id = some x.r := by
    obtain ⟨x, _, hx, _⟩ := hpo.handles ⟨_, List.mem_cons_self, rfl⟩
    exact ⟨x, hx⟩
  have hmiss : miss = .panic := by cases hpo <;> rfl
  obtain ⟨x, hx⟩ := hown
  split at he
  · cases he
    refine ⟨hw, h.alive, ?_, h.trackOwner, h.openOwner, h.trackLive, h.trackOnce, ?_, h.quiet, h.live, h.finished, h.result, h.cancelled⟩
    · intro c' hc
      simp only [Option.some.injEq] at hc
      subst hc
      subst hmiss
      exact ⟨id, m, rest, hp⟩
    · intro c'
      exact (h.prog c').mono (fun _ _ => rfl) (fun _ _ => rfl) (fun _ _ _ _ _ hq => hq)
  · rename_i ho
    rw [hx] at ho; cases ho

omit [DecidableEq I] in
theorem inv_finish {T : I → Option Track} {W C} {σ σ' : Net I} (h : Inv T W C σ) (hw : OwnInv σ') (r : Nat)
    (he : σ.finishStep r = some σ') : Inv T W C σ' := by
  unfold Net.finishStep at he
  split at he
  rotate_left
  · cases he
  rename_i v hv
  cases he
  have hno : ∀ i r', σ.owner i = some r' → r' ≠ r := by
    rintro i r' ho rfl; exact (h.own.notClosing i r' v ho).1 hv
  refine ⟨hw, h.alive, h.locked, h.trackOwner, h.openOwner, ?_, h.trackOnce, ?_, ?_, ?_, ?_, ?_, ?_⟩
  · intro i x hx
    simp only [setReq]
    split
    · simp
    · exact h.trackLive i x hx
  · intro c
    refine (h.prog c).mono (fun _ _ => rfl) (fun _ _ => rfl) ?_
    intro i r' acc _ ho hq
    simp only [setReq] at hq
    rw [if_neg (hno i r' ho)] at hq; exact hq
  · intro i x hx ho hqu
    have := h.quiet i x hx ho hqu
    refine ⟨this.1, fun acc ha => this.2 acc ?_⟩
    simp only [setReq] at ha
    rw [if_neg (hno i _ ho)] at ha; exact ha
  · intro i r' ho
    simp only [setReq]
    rw [if_neg (hno i r' ho)]
    exact h.live i r' ho
  · intro i x hx hf
    simp only [setReq]
    by_cases hr : x.r = r
    · rw [if_pos hr]
      rcases h.finished i x hx hf with hl | hl | hl | hl
      · exact .inl hl
      · rw [hr, hv] at hl; cases hl; exact .inr (.inr (.inl rfl))
      · rw [hr, hv] at hl; cases hl
      · rw [hr, hv] at hl; cases hl
    · rw [if_neg hr]; exact h.finished i x hx hf
  · intro r' w hw'
    simp only [setReq] at hw'
    split at hw'
    · rename_i hr
      rcases hw' with hw' | hw'
      · cases hw'
      · cases hw'; rw [hr]; exact h.result r v (.inl hv)
    · exact h.result r' w hw'
  · intro r' hc
    simp only [setReq] at hc
    split at hc
    · cases hc
    · exact h.cancelled r' hc

omit [DecidableEq I] in
theorem handles_setProg {σ : Net I} {c c' : Nat} {p : List (Act I)} {i : I} (hne : c' ≠ c) :
    Handles i (setProg σ c p c') ↔ Handles i (σ.prog c') := by
  unfold setProg; rw [if_neg hne]

theorem inv_deliver {T : I → Option Track} {W C} {σ σ' : Net I} (h : Inv T W C σ) (hw : OwnInv σ') (c : Nat)
    (he : σ.deliverStep c = some σ') : Inv T W C σ' := by
  unfold Net.deliverStep at he
  split at he
  rotate_left
  · cases he
  rename_i hl
  split at he
  rotate_left
  · cases he
  rename_i _ id m miss rest hp
  split at he
  · cases he
  rename_i r ho
  split at he
  rotate_left
  · cases he
  rename_i id' acc hq
  cases he
  have hid := h.own.same id r id' acc ho hq
  subst hid
  have hpo := h.prog c
  rw [hp] at hpo
  obtain ⟨x, hx, hxo, hxc⟩ := hpo.handles ⟨_, List.mem_cons_self, rfl⟩
  have hxo0 : σ.owner id = some x.r := hxo
  rw [show Act.id (Act.send id m miss) = id from rfl] at hx hxo
  have hxr : x.r = r := by rw [hxo0] at ho; exact Option.some.inj ho
  have hhandle : Handles id (σ.prog c) := by rw [hp]; exact ⟨_, List.mem_cons_self, rfl⟩
  have hother : ∀ c', c' ≠ c → ¬ Handles id (σ.prog c') := fun c' hne hh => hne (h.noOther hh hhandle)
  -- other requests
  have hor : ∀ i r', i ≠ id → σ.owner i = some r' → r' ≠ r := by
    rintro i r' hne hi rfl; exact hne (h.own.once i id r' hi ho)
  have hot : ∀ i y, i ≠ id → T i = some y → y.r ≠ r := by
    intro i y hne hy hyr; exact hne (h.trackOnce i id y x hy hx (by rw [hyr, hxr]))
  have hrest : rest = [] ∨ rest = [.unclaim id] := by cases hpo <;> simp
  have hnh : ∀ i, i ≠ id → ¬ Handles i (σ.prog c) := by
    rintro i hne ⟨b, hb, hbi⟩
    rw [hp] at hb
    rcases List.mem_cons.mp hb with rfl | hb
    · exact hne hbi.symm
    · rcases hrest with rfl | rfl
      · cases hb
      · simp only [List.mem_cons, List.not_mem_nil, or_false] at hb; subst hb; exact hne hbi.symm
  have hnh' : ∀ i, i ≠ id → ¬ Handles i rest := by
    rintro i hne ⟨b, hb, hbi⟩
    exact hnh i hne ⟨b, by rw [hp]; exact List.mem_cons_of_mem _ hb, hbi⟩
  have hprogOther : ∀ c', c' ≠ c → ProgOk T { σ with lock := none, prog := setProg σ c rest, req := setReq σ r (receive id acc m) } c' (σ.prog c') := by
    intro c' hne
    refine (h.prog c').mono (fun _ _ => rfl) (fun _ _ => rfl) ?_
    intro i r' acc' hh ho' hq'
    have hi : i ≠ id := by rintro rfl; exact hother c' hne hh
    simp only [setReq] at hq'
    rw [if_neg (hor i r' hi ho')] at hq'; exact hq'
  refine ⟨hw, h.alive, (by intro c' hc; cases hc), h.trackOwner, h.openOwner, ?_, h.trackOnce, ?_, ?_, ?_, ?_, ?_, ?_⟩
  · intro i y hy
    simp only [setReq]
    split
    · cases m <;> simp [receive]
    · exact h.trackLive i y hy
  · intro c'
    by_cases hcc : c' = c
    · subst hcc
      simp only [setProg, if_pos]
      cases hpo with
      | part _ d y h1 h2 h3 h4 h5 => exact .nil
      | final _ d y h1 h2 h3 h4 h5 =>
        refine .unclaimOk id y h1 h2 h3 h4 ?_
        have hyx : y = x := by rw [h1] at hx; exact Option.some.inj hx
        subst hyx
        intro acc' ha
        simp only [setReq, if_pos hxr, receive] at ha
        cases ha
        exact h5 acc (by rw [hxr]; exact hq)
      | fail _ z y h1 h2 h3 h4 =>
        refine .unclaimFail id y h1 h2 h3 h4 ?_
        have hyx : y = x := by rw [h1] at hx; exact Option.some.inj hx
        subst hyx
        intro acc' ha
        simp only [setReq, if_pos hxr, receive] at ha
        cases ha
    · have : setProg σ c rest c' = σ.prog c' := by simp [setProg, hcc]
      rw [show ({ σ with lock := none, prog := setProg σ c rest, req := setReq σ r (receive id acc m) } : Net I).prog c' = σ.prog c' from this]
      exact hprogOther c' hcc
  · intro i y hy hyo hqu
    by_cases hi : i = id
    · subst hi
      rw [hx] at hy; cases hy
      have hr0 : rest = [] := by
        rcases hrest with hr | hr
        · exact hr
        · exfalso
          apply hqu c
          simp only [setProg, if_pos, hr]
          exact ⟨_, List.mem_cons_self, rfl⟩
      subst hr0
      cases hpo with
      | part _ d z h1 h2 h3 h4 h5 =>
        have hyx : z = x := by rw [h1] at hx; exact Option.some.inj hx
        subst hyx
        refine ⟨h4, ?_⟩
        intro acc' ha
        simp only [setReq, if_pos hxr, receive] at ha
        cases ha
        exact h5 acc (by rw [hxr]; exact hq)
    · have hqu' : ∀ c', ¬ Handles i (σ.prog c') := by
        intro c' hh
        by_cases hcc : c' = c
        · subst hcc; exact hnh i hi hh
        · exact hqu c' ((handles_setProg hcc).mpr hh)
      have := h.quiet i y hy hyo hqu'
      refine ⟨this.1, fun acc' ha => this.2 acc' ?_⟩
      simp only [setReq] at ha
      rw [if_neg (hot i y hi hy)] at ha; exact ha
  · intro i r' hi
    by_cases hii : i = id
    · subst hii
      have hrr : r' = r := by
        have hi' : σ.owner i = some r' := hi
        rw [ho] at hi'; exact (Option.some.inj hi').symm
      subst hrr
      cases m with
      | data d => exact .inl ⟨acc ++ d, by simp [setReq, receive]⟩
      | stop z =>
        right; left
        cases hpo with
        | fail _ _ y h1 h2 h3 h4 => exact ⟨c, y, by simp [setProg], h1, h4⟩
    · simp only [setReq]
      rw [if_neg (hor i r' hii hi)]
      rcases h.live i r' hi with hl' | ⟨c', y, hl', hy⟩ | hl'
      · exact .inl hl'
      · refine .inr (.inl ⟨c', y, ?_, hy⟩)
        simp only [setProg]
        rw [if_neg]
        · exact hl'
        · rintro rfl; rw [hp] at hl'; cases hl'
      · exact .inr (.inr hl')
  · intro i y hy hf
    by_cases hii : i = id
    · subst hii
      rw [hx] at hy; cases hy
      left
      refine ⟨c, ?_⟩
      simp only [setProg, if_pos]
      cases hpo with
      | part _ d z h1 h2 h3 h4 h5 => rw [h1] at hx; cases hx; rw [h4] at hf; cases hf
      | final _ d z h1 h2 h3 h4 h5 => exact ⟨_, List.mem_cons_self, rfl⟩
      | fail _ d z h1 h2 h3 h4 => exact ⟨_, List.mem_cons_self, rfl⟩
    · simp only [setReq]
      rw [if_neg (hot i y hii hy)]
      rcases h.finished i y hy hf with ⟨c', hh⟩ | hh
      · left
        refine ⟨c', ?_⟩
        have hcc : c' ≠ c := by rintro rfl; exact hnh i hii hh
        exact (handles_setProg hcc).mpr hh
      · exact .inr hh
  · intro r' v hv
    simp only [setReq] at hv
    split at hv
    · cases m with
      | data d => rcases hv with hv | hv <;> simp only [receive] at hv <;> cases hv
      | stop d => rcases hv with hv | hv <;> simp only [receive] at hv <;> cases hv
    · exact h.result r' v hv
  · intro r' hv
    simp only [setReq] at hv
    split at hv
    · cases m <;> simp only [receive] at hv <;> cases hv
    · exact h.cancelled r' hv

theorem inv_unclaim {T : I → Option Track} {W C} {σ σ' : Net I} (h : Inv T W C σ) (hw : OwnInv σ') (c : Nat)
    (hW : ∀ id x, T id = some x → x.fin = some true → W x.r x.data)
    (he : σ.unclaimStep c = some σ') : Inv T W C σ' := by
  unfold Net.unclaimStep at he
  split at he
  rotate_left
  · cases he
  rename_i _ _ id rest hl hp
  have hpo := h.prog c
  rw [hp] at hpo
  obtain ⟨x, hx, hxo, hxc⟩ := hpo.handles ⟨_, List.mem_cons_self, rfl⟩
  rw [show Act.id (Act.unclaim id) = id from rfl] at hx hxo
  rw [hxo] at he
  simp only [Option.some.injEq] at he
  subst he
  have hrest : rest = [] := by cases hpo <;> rfl
  subst hrest
  have hhandle : Handles id (σ.prog c) := by rw [hp]; exact ⟨_, List.mem_cons_self, rfl⟩
  have hother : ∀ c', c' ≠ c → ¬ Handles id (σ.prog c') := fun c' hne hh => hne (h.noOther hh hhandle)
  have hfin : (x.fin = some true ∧ ∀ acc, σ.req x.r = .waiting id acc → x.data = acc) ∨
      (x.fin = some false ∧ ∀ acc, σ.req x.r ≠ .waiting id acc) := by
    cases hpo with
    | unclaimOk _ y h1 h2 h3 h4 h5 => rw [h1] at hx; cases hx; exact .inl ⟨h4, h5⟩
    | unclaimFail _ y h1 h2 h3 h4 h5 => rw [h1] at hx; cases hx; exact .inr ⟨h4, h5⟩
  have hor : ∀ i r', i ≠ id → σ.owner i = some r' → r' ≠ x.r := by
    rintro i r' hne hi rfl; exact hne (h.own.once i id _ hi hxo)
  have hot : ∀ i y, i ≠ id → T i = some y → y.r ≠ x.r := by
    intro i y hne hy hyr; exact hne (h.trackOnce i id y x hy hx hyr)
  have hnh : ∀ i, i ≠ id → ¬ Handles i (σ.prog c) := by
    rintro i hne ⟨b, hb, hbi⟩
    rw [hp] at hb
    simp only [List.mem_cons, List.not_mem_nil, or_false] at hb; subst hb; exact hne hbi.symm
  refine ⟨hw, h.alive, ?_, ?_, ?_, ?_, h.trackOnce, ?_, ?_, ?_, ?_, ?_, ?_⟩
  · intro c' hc
    have hc' : σ.lock = some c' := hc
    rw [hl] at hc'; cases hc'
  · intro i r' hi
    simp only [setOwner] at hi
    split at hi
    · cases hi
    · exact h.trackOwner i r' hi
  · intro i y hy hf
    simp only [setOwner]
    rw [if_neg]
    · exact h.openOwner i y hy hf
    · rintro rfl
      rw [hx] at hy; cases hy
      rcases hfin with ⟨h1, _⟩ | ⟨h1, _⟩ <;> rw [h1] at hf <;> cases hf
  · intro i y hy
    simp only [setReq]
    split
    · have := h.trackLive id x hx
      cases hq : σ.req x.r <;> simp_all [closeReq]
    · exact h.trackLive i y hy
  · intro c'
    by_cases hcc : c' = c
    · subst hcc; simp only [setProg, if_pos]; exact .nil
    · have : setProg σ c [] c' = σ.prog c' := by simp [setProg, hcc]
      rw [show ({ σ with prog := setProg σ c [], owner := setOwner σ id none, req := setReq σ x.r (closeReq (σ.req x.r)) } : Net I).prog c'
        = σ.prog c' from this]
      refine (h.prog c').mono (fun _ _ => rfl) ?_ ?_
      · intro i hh
        simp only [setOwner]
        rw [if_neg]; rintro rfl; exact hother c' hcc hh
      · intro i r' acc' hh ho' hq'
        have hi : i ≠ id := by rintro rfl; exact hother c' hcc hh
        simp only [setReq] at hq'
        rw [if_neg (hor i r' hi ho')] at hq'; exact hq'
  · intro i y hy hyo hqu
    simp only [setOwner] at hyo
    split at hyo
    · cases hyo
    · rename_i hi
      have hqu' : ∀ c', ¬ Handles i (σ.prog c') := by
        intro c' hh
        by_cases hcc : c' = c
        · subst hcc; exact hnh i hi hh
        · exact hqu c' ((handles_setProg hcc).mpr hh)
      have := h.quiet i y hy hyo hqu'
      refine ⟨this.1, fun acc' ha => this.2 acc' ?_⟩
      simp only [setReq] at ha
      rw [if_neg (hot i y hi hy)] at ha; exact ha
  · intro i r' hi
    simp only [setOwner] at hi
    split at hi
    · cases hi
    · rename_i hii
      simp only [setReq]
      rw [if_neg (hor i r' hii hi)]
      rcases h.live i r' hi with hl' | ⟨c', y, hl', hy⟩ | hl'
      · exact .inl hl'
      · refine .inr (.inl ⟨c', y, ?_, hy⟩)
        simp only [setProg]
        rw [if_neg]
        · exact hl'
        · rintro rfl; rw [hp] at hl'; cases hl'; exact hii rfl
      · exact .inr (.inr hl')
  · intro i y hy hf
    by_cases hii : i = id
    · subst hii
      rw [hx] at hy; cases hy
      right
      simp only [setReq, if_pos]
      rcases hfin with ⟨h1, hd⟩ | ⟨h1, _⟩
      · rcases h.live i x.r hxo with ⟨acc, hq⟩ | ⟨c', y, _, hy, hyf⟩ | hq
        · left; rw [hq]; simp only [closeReq]; rw [hd acc hq]
        · rw [hx] at hy; cases hy; rw [h1] at hyf; cases hyf
        · right; right; rw [hq]; rfl
      · rw [h1] at hf; cases hf
    · simp only [setReq]
      rw [if_neg (hot i y hii hy)]
      rcases h.finished i y hy hf with ⟨c', hh⟩ | hh
      · left
        refine ⟨c', ?_⟩
        have hcc : c' ≠ c := by rintro rfl; exact hnh i hii hh
        exact (handles_setProg hcc).mpr hh
      · exact .inr hh
  · intro r' v hv
    simp only [setReq] at hv
    split at hv
    · rename_i hr
      subst hr
      cases hq : σ.req x.r with
      | idle => rw [hq] at hv; rcases hv with hv | hv <;> simp only [closeReq] at hv <;> cases hv
      | waiting j acc =>
        rw [hq] at hv
        rcases hv with hv | hv
        · simp only [closeReq] at hv
          have hv' : acc = v := by injection hv
          subst hv'
          have hj := h.own.same id x.r j acc hxo hq
          subst hj
          rcases hfin with ⟨hf, hd⟩ | ⟨_, hd⟩
          · rw [← hd acc hq]; exact hW id x hx hf
          · exact absurd hq (hd acc)
        · simp only [closeReq] at hv; cases hv
      | closing w => exact h.result _ v (by rw [hq] at hv ⊢; exact hv)
      | done o => exact h.result _ v (by rw [hq] at hv ⊢; exact hv)
    · exact h.result r' v hv
  · intro r' hv
    simp only [setReq] at hv
    split at hv
    · rename_i hr
      subst hr
      cases hq : σ.req x.r <;> rw [hq] at hv <;> simp only [closeReq] at hv
      · cases hv
      · cases hv
      · cases hv
      · rename_i o; cases hv; exact h.cancelled _ hq
    · exact h.cancelled r' hv

/-- The request `r` was answered completely with `v` in some part of the history. -/
def Answered (es : List (Ev I)) (r : Nat) (v : Bytes) : Prop :=
  ∃ before after id x, es = before ++ after ∧ tracked before id = some x ∧ x.r = r ∧ x.fin = some true ∧ x.data = v

theorem Answered.mono {es : List (Ev I)} {r : Nat} {v : Bytes} (h : Answered es r v) (fs : List (Ev I)) :
    Answered (es ++ fs) r v := by
  obtain ⟨b, a, id, x, he, hx⟩ := h
  exact ⟨b, a ++ fs, id, x, by rw [he]; simp, hx⟩

theorem inv_run (es : List (Ev I)) (σ : Net I) (h : Net.start.run es = some σ) (hh : Honest es) :
    Inv (tracked es) (Answered es) (fun r => Ev.cancel r ∈ es) σ := by
  refine run_induction (P := fun es σ => Honest es → Inv (tracked es) (Answered es) (fun r => Ev.cancel r ∈ es) σ)
    ?_ ?_ es σ h hh
  · intro _
    refine ⟨ownInv_start, rfl, ?_, ?_, ?_, ?_, ?_, fun _ => .nil, ?_, ?_, ?_, ?_, ?_⟩ <;> intros <;>
      simp_all [Net.start, tracked]
  · intro es e σ σ' hr ih hex hho
    have hi := ih (honest_prefix hho)
    have hown : OwnInv σ' := ownInv_exec hi.own hex
    have hT : tracked (es ++ [e]) = fun i => track i (tracked es i) e := funext fun i => tracked_snoc es e i
    have hi' : Inv (tracked es) (Answered (es ++ [e])) (fun r => Ev.cancel r ∈ es ++ [e]) σ :=
      inv_weaken hi (fun r v hv => hv.mono [e]) (fun r hr => List.mem_append_left _ hr)
    unfold Net.exec at hex
    rw [if_neg (by rw [hi.alive]; simp)] at hex
    rw [hT]
    cases e with
    | claim r id =>
      have e1 : (fun i => track i (tracked es i) (.claim r id))
          = fun i => if i = id then some ⟨r, none, [], none⟩ else tracked es i := by
        funext i; simp only [track, eq_comm]
      rw [e1]
      exact inv_claim hi' hown r id hex
    | recv c id a =>
      have e1 : (fun i => track i (tracked es i) (.recv c id a))
          = fun i => if i = id then (tracked es i).map (·.add c a) else tracked es i := by
        funext i; simp only [track, eq_comm]
      rw [e1]
      obtain ⟨x, hx, hf, hc⟩ := hho.2 es c id a [] rfl
      exact inv_recv hi' hown c id a x hx hf hc hex
    | lost c p cl l => exact absurd (by simp) (hho.1 c p cl l)
    | cancel r =>
      exact inv_cancel hi' hown r (fun _ h => h) (by simp) hex
    | lock c => exact inv_lock hi' hown c hex
    | deliver c => exact inv_deliver hi' hown c hex
    | unclaim c =>
      refine inv_unclaim hi' hown c ?_ hex
      intro id x hx hf
      exact ⟨es, [.unclaim c], id, x, rfl, hx, rfl, hf, rfl⟩
    | finish r => exact inv_finish hi' hown r hex

/-! ### C39 -/

/-- C39: if the server answers only outstanding requests, each over one connection, and no connection is lost,
then whatever the order of events (including cancellations): a request which succeeds obtains exactly the
data of the responses with its stream id received since it claimed it, in order, up to and including the final
one. -/
theorem C39_exact_partial (es : List (Ev I)) (σ : Net I) (h : Net.start.run es = some σ) (hh : Honest es) (r : Nat) (v : Bytes)
    (hd : σ.req r = .done (.full v)) :
    ∃ before after id x, es = before ++ after ∧ tracked before id = some x ∧ x.r = r ∧ x.fin = some true ∧ x.data = v :=
  (inv_run es σ h hh).result r v (.inr hd)

/-- No step of a goroutine is possible. -/
def Quiescent (σ : Net I) : Prop :=
  (∀ c, σ.exec (.lock c) = none ∧ σ.exec (.deliver c) = none ∧ σ.exec (.unclaim c) = none) ∧
  ∀ r, σ.exec (.finish r) = none

/-- The steps which a goroutine still has to make for what it read. -/
def work (σ : Net I) (c : Nat) : Nat :=
  ((σ.prog c).map fun a => match a with | .send .. => 2 | .unclaim _ => 1).sum - (if σ.lock = some c then 1 else 0)

/-- In a state which can be reached without cancellations, a goroutine with something to do can do it, unless
one is delivering, which then can go on. -/
theorem progress {T : I → Option Track} {W : Nat → Bytes → Prop} {C : Nat → Prop} {σ : Net I} (hi : Inv T W C σ) (hC : ∀ r, ¬ C r)
    (c : Nat) (hc : σ.prog c ≠ []) :
    σ.exec (.lock c) ≠ none ∨ σ.exec (.unclaim c) ≠ none ∨ ∃ c', σ.exec (.deliver c') ≠ none := by
  unfold Net.exec
  rw [if_neg (by rw [hi.alive]; simp)]
  cases hl : σ.lock with
  | none =>
    have hpo := hi.prog c
    cases hp : σ.prog c with
    | nil => exact absurd hp hc
    | cons a rest =>
      rw [hp] at hpo
      obtain ⟨x, _, ho, _⟩ := hpo.handles ⟨a, List.mem_cons_self, rfl⟩
      cases a with
      | send id m miss =>
        left
        simp only [Net.lockStep, hl, hp]
        rw [show σ.owner id = some x.r from ho]
        simp
      | unclaim id =>
        right; left
        simp only [Net.unclaimStep, hl, hp]
        rw [show σ.owner id = some x.r from ho]
        simp [hi.alive]
  | some c' =>
    right; right
    refine ⟨c', ?_⟩
    rw [if_neg (by rw [hi.alive]; simp)]
    obtain ⟨id, m, rest, hp⟩ := hi.locked c' hl
    have hpo := hi.prog c'
    rw [hp] at hpo
    obtain ⟨x, hx, ho, hxc⟩ := hpo.handles ⟨_, List.mem_cons_self, rfl⟩
    have ho' : σ.owner id = some x.r := ho
    simp only [Net.deliverStep, hp, if_pos hl]
    rw [ho']
    rcases hi.live id x.r ho' with ⟨acc, hq⟩ | ⟨c2, y, h2, _⟩ | hq
    · simp [hq]
    · have : c' = c2 := hi.noOther (id := id) (by rw [hp]; exact ⟨_, List.mem_cons_self, rfl⟩)
        (by rw [h2]; exact ⟨_, List.mem_cons_self, rfl⟩)
      subst this
      rw [hp] at h2; cases h2
    · exact absurd (hi.cancelled _ hq) (hC _)

/-- C39: under the same conditions and without cancellations, when the goroutines have done what they can, every
request whose final response was received has returned all its data. -/
theorem C39_delivered_partial (es : List (Ev I)) (σ : Net I) (h : Net.start.run es = some σ) (hh : Honest es)
    (hn : ∀ r, Ev.cancel r ∉ es) (hq : Quiescent σ) (id : I) (x : Track) (hx : tracked es id = some x) (hf : x.fin = some true) :
    σ.req x.r = .done (.full x.data) := by
  have hi := inv_run es σ h hh
  have hidle : ∀ c, σ.prog c = [] := by
    intro c
    by_cases hp : σ.prog c = []
    · exact hp
    · rcases progress hi hn c hp with h1 | h1 | ⟨c', h1⟩
      · exact absurd (hq.1 c).1 h1
      · exact absurd (hq.1 c).2.2 h1
      · exact absurd (hq.1 c').2.1 h1
  rcases hi.finished id x hx hf with ⟨c, hc⟩ | hc | hc | hc
  · rw [hidle c] at hc
    obtain ⟨_, hb, _⟩ := hc; cases hb
  · have := hq.2 x.r
    unfold Net.exec at this
    rw [if_neg (by rw [hi.alive]; simp)] at this
    simp only [Net.finishStep, hc] at this
    cases this
  · exact hc
  · exact absurd (hi.cancelled _ hc) (hn _)

/-- `Honest`, computed. -/
def okEv (es : List (Ev I)) : Ev I → Bool
  | .lost .. => false
  | .recv c id _ =>
    match tracked es id with
    | some x => x.fin.isNone && (x.conn.isNone || x.conn == some c)
    | none => false
  | _ => true

def honestFrom (pre : List (Ev I)) : List (Ev I) → Bool
  | [] => true
  | e :: es => okEv pre e && honestFrom (pre ++ [e]) es

theorem honest_of_check (es : List (Ev I)) (h : honestFrom [] es = true) : Honest es := by
  have key : ∀ (es pre before after : List (Ev I)) (e : Ev I), honestFrom pre es = true → es = before ++ e :: after →
      okEv (pre ++ before) e = true := by
    intro es
    induction es with
    | nil => intro pre before after e _ he; simp at he
    | cons f fs ih =>
      intro pre before after e hc he
      simp only [honestFrom, Bool.and_eq_true] at hc
      cases before with
      | nil => simp only [List.nil_append, List.cons.injEq] at he; rw [List.append_nil, ← he.1]; exact hc.1
      | cons b bs =>
        simp only [List.cons_append, List.cons.injEq] at he
        have := ih (pre ++ [f]) bs after e hc.2 he.2
        rw [← he.1]
        simpa using this
  constructor
  · intro c p cl l hm
    obtain ⟨before, after, he⟩ := List.append_of_mem hm
    have := key es [] before after _ h he
    simp [okEv] at this
  · intro before c id a after he
    have := key es [] before after _ h he
    simp only [okEv, List.nil_append] at this
    split at this
    · rename_i x hx
      simp only [Bool.and_eq_true, Option.isNone_iff_eq_none, Bool.or_eq_true, beq_iff_eq] at this
      exact ⟨x, hx, this.1, this.2⟩
    · cases this

/-- Two requests over one connection; the responses are interleaved. -/
def twoRequests : List (Ev Nat) :=
  [.claim 0 5, .claim 1 6, .recv 9 5 (.part [1]), .lock 9, .deliver 9, .recv 9 6 (.final [2]), .lock 9, .deliver 9,
    .unclaim 9, .recv 9 5 (.final [3]), .lock 9, .deliver 9, .unclaim 9, .finish 0, .finish 1]

example : Honest twoRequests ∧
    ∃ σ, (Net.start.run twoRequests) = some σ ∧ σ.req 0 = .done (.full [1, 3]) ∧ σ.req 1 = .done (.full [2]) :=
  ⟨honest_of_check _ (by decide), _, rfl, rfl, rfl⟩

/-- C39 fails when a connection is lost in the middle of a response: the final response is not received, but
the request succeeds with the data so far. -/
theorem C39_cut_counterexample : ∃ (es : List (Ev Nat)) (σ : Net Nat), Net.start.run es = some σ ∧
    (∀ c id d, Ev.recv c id (.final d) ∉ es) ∧ σ.req 0 = .done (.full [1]) := by
  refine ⟨[.claim 0 5, .recv 9 5 (.part [1]), .lock 9, .deliver 9, .lost 9 [] [] (some (5, true)), .lock 9, .deliver 9,
    .unclaim 9, .finish 0], _, rfl, ?_, rfl⟩
  intro c id d hm
  simp at hm

/-! ### C73 -/

/-- C73: if the server answers only outstanding requests, each over one connection, and no request is cancelled
and no connection lost: the client does not panic, and as long as some goroutine has something to do, a step
is possible; each such step reduces the work. -/
theorem C73_progress_partial (es : List (Ev I)) (σ : Net I) (h : Net.start.run es = some σ) (hh : Honest es)
    (hn : ∀ r, Ev.cancel r ∉ es) : σ.crashed = false ∧ ∀ c, σ.prog c ≠ [] →
      σ.exec (.lock c) ≠ none ∨ σ.exec (.unclaim c) ≠ none ∨ ∃ c', σ.exec (.deliver c') ≠ none := by
  have hi := inv_run es σ h hh
  exact ⟨hi.alive, fun c hc => progress hi hn c hc⟩

/-- C73: a step of a goroutine which does not panic reduces its work, and leaves that of the others. -/
theorem C73_terminates (σ σ' : Net I) (c : Nat) (e : Ev I) (he : e = .lock c ∨ e = .deliver c ∨ e = .unclaim c)
    (h : σ.exec e = some σ') (hc : σ'.crashed = false) : work σ' c < work σ c ∧ ∀ c', c' ≠ c → work σ' c' = work σ c' := by
  unfold Net.exec at h
  split at h
  · cases h
  rcases he with rfl | rfl | rfl
  · simp only [Net.lockStep] at h
    split at h
    · rename_i id m miss rest hl hp
      split at h
      · cases h
        refine ⟨?_, fun c' hne => ?_⟩
        · simp [work, hl, hp]
        · simp [work, hl, Ne.symm hne]
      · split at h
        · cases h; cases hc
        · cases h
          refine ⟨?_, fun c' hne => ?_⟩
          · simp only [work, setProg, if_pos, hl, hp, List.map_cons, List.sum_cons]; simp
          · simp [work, setProg, hne, hl]
        · cases h
          refine ⟨?_, fun c' hne => ?_⟩
          · simp only [work, setProg, if_pos, hl, hp, List.map_cons, List.sum_cons]; simp; omega
          · simp [work, setProg, hne, hl]
    · cases h
  · simp only [Net.deliverStep] at h
    split at h
    · rename_i hl
      split at h
      · rename_i id m miss rest hp
        split at h
        · cases h
        · split at h
          · cases h
            refine ⟨?_, fun c' hne => ?_⟩
            · simp only [work, setProg, if_pos, hl, hp, List.map_cons, List.sum_cons]; simp
            · simp [work, setProg, hne, hl, Ne.symm hne]
          · cases h
      · cases h
    · cases h
  · simp only [Net.unclaimStep] at h
    split at h
    · rename_i id rest hl hp
      split at h
      · cases h
        refine ⟨?_, fun c' hne => ?_⟩
        · simp only [work, setProg, if_pos, hl, hp, List.map_cons, List.sum_cons]; simp
        · simp [work, setProg, hne, hl]
      · cases h
        refine ⟨?_, fun c' hne => ?_⟩
        · simp only [work, setProg, if_pos, hl, hp, List.map_cons, List.sum_cons]; simp
        · simp [work, setProg, hne, hl]
    · cases h

/-- A goroutine holds the multiplexer and waits for a request which has returned. -/
def Stuck (σ : Net I) : Prop := ∃ c id m miss rest r o,
  σ.lock = some c ∧ σ.prog c = .send id m miss :: rest ∧ σ.owner id = some r ∧ σ.req r = .done o

theorem stuck_exec {σ σ' : Net I} (hs : Stuck σ) {e : Ev I} (h : σ.exec e = some σ') :
    Stuck σ' ∧ (∀ r id, e ≠ .claim r id) ∧
    ∀ r id acc, σ.req r = .waiting id acc → σ'.req r = .waiting id acc ∨ σ'.req r = .done .cancelled := by
  obtain ⟨c, id, m, miss, rest, r, o, hl, hp, ho, hq⟩ := hs
  unfold Net.exec at h
  split at h
  · cases h
  cases e with
  | claim r' i => simp [Net.claimStep, hl] at h
  | recv c' i a =>
    simp only [Net.readStep] at h
    split at h
    · rename_i hp'
      cases h
      refine ⟨⟨c, id, m, miss, rest, r, o, hl, ?_, ho, hq⟩, by simp, fun _ _ _ hw => .inl hw⟩
      simp only [setProg]
      rw [if_neg]
      · exact hp
      · rintro rfl; rw [hp] at hp'; cases hp'
    · cases h
  | lost c' pe cl la =>
    simp only [Net.readStep] at h
    split at h
    · rename_i hp'
      cases h
      refine ⟨⟨c, id, m, miss, rest, r, o, hl, ?_, ho, hq⟩, by simp, fun _ _ _ hw => .inl hw⟩
      simp only [setProg]
      rw [if_neg]
      · exact hp
      · rintro rfl; rw [hp] at hp'; cases hp'
    · cases h
  | cancel r' =>
    have hs : σ' = { σ with req := setReq σ r' (.done .cancelled) } ∧ r ≠ r' := by
      simp only [Net.cancelStep] at h
      split at h
      · rename_i h1; cases h; exact ⟨rfl, by rintro rfl; rw [hq] at h1; cases h1⟩
      · rename_i h1; cases h; exact ⟨rfl, by rintro rfl; rw [hq] at h1; cases h1⟩
      · cases h
    obtain ⟨rfl, hne⟩ := hs
    refine ⟨⟨c, id, m, miss, rest, r, o, hl, hp, ho, by simp [setReq, hne, hq]⟩, by simp, ?_⟩
    intro r'' i acc hw
    simp only [setReq]
    split
    · exact .inr rfl
    · exact .inl hw
  | lock c' => simp [Net.lockStep, hl] at h
  | deliver c' =>
    simp only [Net.deliverStep] at h
    split at h
    · rename_i hl'
      rw [hl] at hl'; cases hl'
      rw [hp] at h
      simp only [ho, hq] at h
      cases h
    · cases h
  | unclaim c' => simp [Net.unclaimStep, hl] at h
  | finish r' =>
    simp only [Net.finishStep] at h
    split at h
    · rename_i acc h1
      cases h
      refine ⟨⟨c, id, m, miss, rest, r, o, hl, hp, ho, ?_⟩, by simp, ?_⟩
      · simp only [setReq]
        rw [if_neg]
        · exact hq
        · rintro rfl; rw [hq] at h1; cases h1
      · intro r'' i acc' hw
        simp only [setReq]
        split
        · rename_i hr; rw [hr, h1] at hw; cases hw
        · exact .inl hw
    · cases h

/-- Once stuck, no request can be started any more and no waiting request ever obtains anything: it can only be
cancelled. -/
theorem stuck_forever {σ : Net I} (hs : Stuck σ) : ∀ (es : List (Ev I)) (σ' : Net I), σ.run es = some σ' →
    Stuck σ' ∧ (∀ r id, Ev.claim r id ∉ es) ∧
    ∀ r id acc, σ.req r = .waiting id acc → σ'.req r = .waiting id acc ∨ σ'.req r = .done .cancelled := by
  intro es
  induction es generalizing σ with
  | nil => intro σ' h; cases h; exact ⟨hs, by simp, fun _ _ _ h => .inl h⟩
  | cons e es ih =>
    intro σ' h
    simp only [Net.run] at h
    split at h
    · cases h
    rename_i σ1 he
    obtain ⟨s1, n1, w1⟩ := stuck_exec hs he
    obtain ⟨s2, n2, w2⟩ := ih s1 σ' h
    refine ⟨s2, ?_, ?_⟩
    · intro r id hm
      rcases List.mem_cons.mp hm with hm | hm
      · exact n1 r id hm.symm
      · exact n2 r id hm
    · intro r id acc hw
      rcases w1 r id acc hw with h1 | h1
      · exact w2 r id acc h1
      · right
        -- a cancelled request does not change
        clear ih s2 n2 w2 w1 n1 hs he hw
        induction es generalizing σ1 with
        | nil => cases h; exact h1
        | cons f fs ih2 =>
          simp only [Net.run] at h
          split at h
          · cases h
          rename_i σ2 hf
          have s' := (stuck_exec s1 hf).1
          refine ih2 σ2 h s' ?_
          unfold Net.exec at hf
          split at hf
          · cases hf
          obtain ⟨c, id', m, miss, rest, r', o, hl, hp, ho, hq⟩ := s1
          cases f with
          | claim r'' i => simp [Net.claimStep, hl] at hf
          | recv c' i a =>
            simp only [Net.readStep] at hf
            split at hf <;> cases hf; exact h1
          | lost c' pe cl la =>
            simp only [Net.readStep] at hf
            split at hf <;> cases hf; exact h1
          | cancel r'' =>
            simp only [Net.cancelStep] at hf
            split at hf <;> cases hf <;> simp only [setReq] <;> split <;> first | rfl | exact h1
          | lock c' => simp [Net.lockStep, hl] at hf
          | deliver c' =>
            simp only [Net.deliverStep] at hf
            split at hf
            · rename_i hl'
              rw [hl] at hl'; cases hl'
              rw [hp] at hf
              simp only [ho, hq] at hf
              cases hf
            · cases hf
          | unclaim c' => simp [Net.unclaimStep, hl] at hf
          | finish r'' =>
            simp only [Net.finishStep] at hf
            split at hf
            · rename_i acc' h2
              cases hf
              simp only [setReq]
              split
              · rename_i hr; rw [← hr, h1] at h2; cases h2
              · exact h1
            · cases hf

/-- C73 fails after a cancellation: when the response to the cancelled request arrives, the goroutine reading it waits
for ever, holding the multiplexer; no request can be started, and the other waiting ones never complete. -/
theorem C73_cancel_counterexample : ∃ (es : List (Ev Nat)) (σ : Net Nat), Honest es ∧ Net.start.run es = some σ ∧
    σ.req 1 = .waiting 6 [] ∧ ∀ es' σ', σ.run es' = some σ' → (∀ r id, Ev.claim r id ∉ es') ∧
      (σ'.req 1 = .waiting 6 [] ∨ σ'.req 1 = .done .cancelled) := by
  refine ⟨[.claim 0 5, .claim 1 6, .cancel 0] ++ Ev.recv 9 5 (.final [1]) :: [.lock 9], _, ⟨?_, ?_⟩, rfl, rfl, ?_⟩
  · intro c p cl l hm; simp at hm
  · intro before c id a after he
    match before, he with
    | [], he => cases he
    | [_], he => cases he
    | [_, _], he => cases he
    | [_, _, _], he => cases he; exact ⟨_, rfl, rfl, .inl rfl⟩
    | [_, _, _, _], he => cases he
    | _ :: _ :: _ :: _ :: _ :: _, he => simp at he
  · intro es' σ' hr
    have := stuck_forever ⟨9, 5, .data [1], .panic, [.unclaim 5], 0, .cancelled, rfl, rfl, rfl, rfl⟩ es' σ' hr
    exact ⟨this.2.1, this.2.2 1 6 [] rfl⟩

/-- C73 fails when the connection of a session other than the first one is lost while a request waits: the request
is redirected, but the goroutine which closes the session then waits for ever, holding the multiplexer of the session. -/
theorem C73_lost_counterexample : ∃ (es : List (Ev Nat)) (σ : Net Nat), Net.start.run (.claim 0 5 :: .lost 9 [5] [5] none :: es) = some σ ∧
    σ.req 0 = .done (.stopped 0) ∧ ∀ es' σ', σ.run es' = some σ' → (∀ r id, Ev.claim r id ∉ es') ∧ Stuck σ' := by
  refine ⟨[.lock 9, .deliver 9, .lock 9], _, rfl, rfl, ?_⟩
  intro es' σ' hr
  have := stuck_forever ⟨9, 5, .stop 1, .skip, [.unclaim 5], 0, .stopped 0, rfl, rfl, rfl, rfl⟩ es' σ' hr
  exact ⟨this.2.1, this.1⟩

/-- C73 fails for a response with a stream id which no request has: the client panics. -/
theorem C73_stray_counterexample (id : I) (a : Reply) (ha : a ≠ .wait) (c : Nat) :
    ∃ σ : Net I, Net.start.run [.recv c id a, .lock c] = some σ ∧ σ.crashed = true := by
  cases a with
  | wait => exact absurd rfl ha
  | part d =>
    refine ⟨_, by simp [Net.run, Net.exec, Net.start, Net.readStep, Net.lockStep, setProg, replyActs]; rfl, rfl⟩
  | final d =>
    refine ⟨_, by simp [Net.run, Net.exec, Net.start, Net.readStep, Net.lockStep, setProg, replyActs]; rfl, rfl⟩
  | fail d =>
    refine ⟨_, by simp [Net.run, Net.exec, Net.start, Net.readStep, Net.lockStep, setProg, replyActs]; rfl, rfl⟩

end Verif.Xrootd
