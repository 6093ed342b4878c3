/-!
# Output and input streams (fwk/outputstream.go, fwk/inputstream.go)

Each output stream has a goroutine which writes the events; the tasks (one call of `Process` for each event, several of
them at the same time when there are several workers) hand the event over and wait for the result.
-/

namespace Verif.Fwk

variable {R : Type}

/-- A call of `Process`, fwk/outputstream.go:86-96 (`Process`): before it has sent its context; waiting for the
result; returned. -/
inductive Caller (R : Type)
  | before
  | waiting
  | returned (r : R)
deriving DecidableEq

/-- The goroutine of a stream, fwk/outputstream.go:71-82 (`write`): waiting for a context; writing the context of call `p`;
about to send the result of call `p`. -/
inductive Writer (R : Type)
  | idle
  | writing (p : Nat)
  | answer (p : Nat) (r : R)
deriving DecidableEq

/-- The streams of a run: `caller p` is call `p` of `Process`, `writer s` the goroutine of stream `s`. All streams share the two
channels of the same `StreamControl`, fwk/app.go:749-771 (`startOutputStreams`). `log` records what was written: stream,
call and result. -/
structure OutSt (R : Type) where
  caller : Nat → Caller R
  writer : Nat → Writer R
  log : List (Nat × Nat × R)

/-- What can happen; the channels have no buffer. -/
inductive OutEv (R : Type)
  /-- Call `p` sends its context, and the goroutine of stream `s` receives it. -/
  | hand (p s : Nat)
  /-- The goroutine of stream `s` has written, with result `r`. -/
  | wrote (s : Nat) (r : R)
  /-- The goroutine of stream `s` sends its result, and call `p` receives it. -/
  | reply (s p : Nat)

/-- `nc` calls and `ns` streams. -/
def OutSt.exec (nc ns : Nat) (σ : OutSt R) : OutEv R → Option (OutSt R)
  | .hand p s =>
    if p < nc ∧ s < ns then
      match σ.caller p, σ.writer s with
      | .before, .idle => some { σ with caller := fun q => if q = p then .waiting else σ.caller q,
                                        writer := fun t => if t = s then .writing p else σ.writer t }
      | _, _ => none
    else none
  | .wrote s r =>
    if s < ns then
      match σ.writer s with
      | .writing p => some { σ with writer := fun t => if t = s then .answer p r else σ.writer t, log := σ.log ++ [(s, p, r)] }
      | _ => none
    else none
  | .reply s p =>
    if p < nc ∧ s < ns then
      match σ.caller p, σ.writer s with
      | .waiting, .answer _ r => some { σ with caller := fun q => if q = p then .returned r else σ.caller q,
                                               writer := fun t => if t = s then .idle else σ.writer t }
      | _, _ => none
    else none

def OutSt.run (nc ns : Nat) (σ : OutSt R) : List (OutEv R) → Option (OutSt R)
  | [] => some σ
  | e :: es => (σ.exec nc ns e).bind fun σ' => σ'.run nc ns es

def OutSt.start (R : Type) : OutSt R := ⟨fun _ => .before, fun _ => .idle, []⟩

/-- The state of the goroutine of the only stream agrees with the calls and with what was written. -/
structure OutInv (nc : Nat) (σ : OutSt R) : Prop where
  wait : ∀ p, σ.caller p = .waiting ↔ (σ.writer 0 = .writing p ∨ ∃ r, σ.writer 0 = .answer p r)
  ans : ∀ p r, σ.writer 0 = .answer p r → (0, p, r) ∈ σ.log
  ret : ∀ p r, σ.caller p = .returned r → (0, p, r) ∈ σ.log
  logged : ∀ s p r, (s, p, r) ∈ σ.log → s = 0 ∧ (σ.caller p = .returned r ∨ σ.writer 0 = .answer p r)
  nodup : (σ.log.map fun x => x.2.1).Nodup
  bound : ∀ p, σ.caller p ≠ .before → p < nc

theorem OutInv.step {nc : Nat} {σ σ' : OutSt R} {e : OutEv R} (h : OutInv nc σ) (hx : σ.exec nc 1 e = some σ') : OutInv nc σ' := by
  cases e with
  | hand p s =>
    simp only [OutSt.exec] at hx
    split at hx
    · rename_i hb
      obtain rfl : s = 0 := by omega
      split at hx
      · rename_i hc hw
        cases hx
        have hnw : ∀ q, σ.caller q ≠ .waiting := by
          intro q hq
          rcases (h.wait q).mp hq with h1 | ⟨r, h1⟩ <;> rw [hw] at h1 <;> cases h1
        have hnl : ∀ s r, (s, p, r) ∉ σ.log := by
          intro s r hl
          rcases (h.logged s p r hl).2 with h1 | h1
          · rw [hc] at h1; cases h1
          · rw [hw] at h1; cases h1
        refine ⟨?_, ?_, ?_, ?_, h.nodup, ?_⟩
        · intro q
          by_cases hq : q = p
          · subst hq; simp
          · simp only [hq, if_false, if_true]
            constructor
            · intro hh; exact absurd hh (hnw q)
            · rintro (hh | ⟨r, hh⟩)
              · cases hh; exact absurd rfl hq
              · cases hh
        · intro q r hh; simp at hh
        · intro q r hh
          by_cases hq : q = p
          · subst hq; simp at hh
          · simp only [hq, if_false] at hh
            exact h.ret q r hh
        · intro s q r hl
          obtain ⟨h1, h2⟩ := h.logged s q r hl
          have hq : q ≠ p := fun e => hnl s r (e ▸ hl)
          refine ⟨h1, Or.inl ?_⟩
          simp only [hq, if_false]
          rcases h2 with h2 | h2
          · exact h2
          · rw [hw] at h2; cases h2
        · intro q hh
          by_cases hq : q = p
          · subst hq; exact hb.1
          · simp only [hq, if_false] at hh
            exact h.bound q hh
      · cases hx
    · cases hx
  | wrote s r =>
    simp only [OutSt.exec] at hx
    split at hx
    · rename_i hb
      obtain rfl : s = 0 := by omega
      split at hx
      · rename_i p hw
        cases hx
        have hc : σ.caller p = .waiting := (h.wait p).mpr (Or.inl hw)
        have hnl : ∀ s r, (s, p, r) ∉ σ.log := by
          intro s r hl
          rcases (h.logged s p r hl).2 with h1 | h1
          · rw [hc] at h1; cases h1
          · rw [hw] at h1; cases h1
        refine ⟨?_, ?_, ?_, ?_, ?_, h.bound⟩
        · intro q
          rw [h.wait q]
          simp only [hw, if_true]
          constructor
          · rintro (hh | ⟨x, hh⟩)
            · cases hh; exact Or.inr ⟨r, rfl⟩
            · cases hh
          · rintro (hh | ⟨x, hh⟩)
            · cases hh
            · cases hh; exact Or.inl rfl
        · intro q x hh
          simp only [if_true] at hh
          cases hh
          exact List.mem_append_right _ (by simp)
        · intro q x hh
          exact List.mem_append_left _ (h.ret q x hh)
        · intro s q x hl
          rcases List.mem_append.mp hl with hl | hl
          · obtain ⟨h1, h2⟩ := h.logged s q x hl
            refine ⟨h1, Or.inl ?_⟩
            rcases h2 with h2 | h2
            · exact h2
            · rw [hw] at h2; cases h2
          · simp only [List.mem_singleton, Prod.mk.injEq] at hl
            obtain ⟨rfl, rfl, rfl⟩ := hl
            exact ⟨rfl, Or.inr (by simp)⟩
        · simp only [List.map_append, List.map_cons, List.map_nil]
          rw [List.nodup_append]
          refine ⟨h.nodup, by simp, ?_⟩
          intro a ha b hb' hab
          simp only [List.mem_singleton] at hb'
          obtain ⟨⟨s, q, x⟩, hm, rfl⟩ := List.mem_map.mp ha
          simp only at hab
          rw [hab, hb'] at hm
          exact hnl s x hm
      · cases hx
    · cases hx
  | reply s p =>
    simp only [OutSt.exec] at hx
    split at hx
    · rename_i hb
      obtain rfl : s = 0 := by omega
      split at hx
      · rename_i p' r hc hw
        cases hx
        have hpp : p' = p := by
          rcases (h.wait p).mp hc with h1 | ⟨x, h1⟩
          · rw [hw] at h1; cases h1
          · rw [hw] at h1; cases h1; rfl
        subst hpp
        have hlog := h.ans p' r hw
        refine ⟨?_, ?_, ?_, ?_, h.nodup, ?_⟩
        · intro q
          by_cases hq : q = p'
          · subst hq; simp
          · simp only [hq, if_false, if_true]
            constructor
            · intro hh
              rcases (h.wait q).mp hh with h1 | ⟨x, h1⟩
              · rw [hw] at h1; cases h1
              · rw [hw] at h1; cases h1; exact absurd rfl hq
            · rintro (hh | ⟨x, hh⟩) <;> cases hh
        · intro q x hh; simp at hh
        · intro q x hh
          by_cases hq : q = p'
          · subst hq; simp only [if_true] at hh; cases hh; exact hlog
          · simp only [hq, if_false] at hh
            exact h.ret q x hh
        · intro s q x hl
          obtain ⟨h1, h2⟩ := h.logged s q x hl
          refine ⟨h1, Or.inl ?_⟩
          by_cases hq : q = p'
          · subst hq
            simp only [if_true]
            rcases h2 with h2 | h2
            · rw [hc] at h2; cases h2
            · rw [hw] at h2; cases h2; rfl
          · simp only [hq, if_false]
            rcases h2 with h2 | h2
            · exact h2
            · rw [hw] at h2; cases h2; exact absurd rfl hq
        · intro q hh
          by_cases hq : q = p'
          · subst hq; exact hb.1
          · simp only [hq, if_false] at hh
            exact h.bound q hh
      · cases hx
    · cases hx

theorem OutInv.run {nc : Nat} : ∀ (es : List (OutEv R)) {σ σ' : OutSt R}, OutInv nc σ → σ.run nc 1 es = some σ' → OutInv nc σ'
  | [], σ, σ', h, hx => by cases hx; exact h
  | e :: es, σ, σ', h, hx => by
    simp only [OutSt.run] at hx
    cases he : σ.exec nc 1 e with
    | none => rw [he] at hx; cases hx
    | some τ => rw [he] at hx; exact OutInv.run es (h.step he) hx

theorem OutInv.init (nc : Nat) : OutInv nc (OutSt.start R) := by
  constructor <;> simp [OutSt.start]

/-- C76: with one output stream (or for the input stream), and any number of concurrent calls: nothing is written twice, a call
which returned has had its own event written, and returns the result of that; and as long as a call
has not returned, something can happen. -/
theorem C76_one_stream_partial (nc : Nat) (es : List (OutEv R)) (σ : OutSt R) (hx : (OutSt.start R).run nc 1 es = some σ) :
    (σ.log.map fun x => x.2.1).Nodup ∧ (∀ x ∈ σ.log, x.2.1 < nc) ∧
    (∀ p r, σ.caller p = .returned r → (0, p, r) ∈ σ.log) ∧
    (∀ _ : R, ∀ p < nc, (∀ r, σ.caller p ≠ .returned r) → ∃ e, (σ.exec nc 1 e).isSome = true) := by
  have h := OutInv.run es (OutInv.init nc) hx
  refine ⟨h.nodup, ?_, h.ret, ?_⟩
  · rintro ⟨s, p, r⟩ hl
    apply h.bound p
    rcases (h.logged s p r hl).2 with h1 | h1
    · rw [h1]; simp
    · rw [(h.wait p).mpr (Or.inr ⟨r, h1⟩)]; simp
  · intro r0 p hp hnr
    cases hw : σ.writer 0 with
    | writing q => exact ⟨.wrote 0 r0, by simp [OutSt.exec, hw]⟩
    | answer q r =>
      have hq := (h.wait q).mpr (Or.inr ⟨r, hw⟩)
      have hlt : q < nc := h.bound q (by rw [hq]; simp)
      exact ⟨.reply 0 q, by simp [OutSt.exec, hw, hq, hlt]⟩
    | idle =>
      cases hc : σ.caller p with
      | before => exact ⟨.hand p 0, by simp [OutSt.exec, hw, hc, hp]⟩
      | waiting =>
        rcases (h.wait p).mp hc with h1 | ⟨r, h1⟩ <;> rw [hw] at h1 <;> cases h1
      | returned r => exact absurd hc (hnr r)

/-- Two calls, one stream. -/
example : ∃ σ, (OutSt.start Bool).run 2 1 [.hand 1 0, .wrote 0 false, .reply 0 1, .hand 0 0, .wrote 0 true, .reply 0 0] = some σ ∧
    σ.log = [(0, 1, false), (0, 0, true)] ∧ σ.caller 0 = .returned true ∧ σ.caller 1 = .returned false := ⟨_, rfl, rfl, rfl, rfl⟩

/-- C76 fails with two output streams: all streams share the same channels. Here call 0 is that of stream 0 and call 1 that
of stream 1; both are served by the goroutine of stream 1, which writes the event twice, while stream 0 writes nothing;
both calls return without error. -/
theorem C76_two_streams_counterexample :
    ∃ σ, (OutSt.start Bool).run 2 2 [.hand 0 1, .wrote 1 true, .reply 1 0, .hand 1 1, .wrote 1 true, .reply 1 1] = some σ ∧
      σ.log = [(1, 0, true), (1, 1, true)] ∧ σ.caller 0 = .returned true ∧ σ.caller 1 = .returned true := ⟨_, rfl, rfl, rfl, rfl⟩

/-- C76, results are exchanged too: the failure of writing call 1 is reported to call 0. -/
theorem C76_exchanged_counterexample :
    ∃ σ, (OutSt.start Bool).run 2 2 [.hand 0 0, .hand 1 1, .wrote 0 true, .wrote 1 false, .reply 1 0, .reply 0 1] = some σ ∧
      σ.log = [(0, 0, true), (1, 1, false)] ∧ σ.caller 0 = .returned false ∧ σ.caller 1 = .returned true := ⟨_, rfl, rfl, rfl, rfl⟩

end Verif.Fwk
