import Verif.Fwk.Streamer
import Verif.Rio.Props
import Batteries.Data.List.Perm
import Mathlib.Data.List.Forall2

/-!
# Events written to a rio file by one job are read by another one (C167)
-/

namespace Verif.Fwk.Streamer

open Verif.Rio

variable {T V : Type} {E : Vals T V}

/-! ## Specification -/

/-- The values of an event for the ports `ps`: each of them once, under its name. -/
def Holds (ps : List (Port T)) (e : Bytes → Option V) (l : List (Bytes × V)) : Prop :=
  (l.map (·.1)).Nodup ∧ ∀ name v, (name, v) ∈ l ↔ (∃ p ∈ ps, p.name = name) ∧ e name = some v

/-- An event that can be written for the ports `ps`: it has a value of the right type for each, which can be encoded. -/
def Complete (E : Vals T V) (ps : List (Port T)) (e : Bytes → Option V) : Prop :=
  ∀ p ∈ ps, ∃ v d, e p.name = some v ∧ E.typeOf v = p.ty ∧ E.enc v = some d

/-- What is encoded is decoded again. -/
def Vals.Lossless (E : Vals T V) : Prop := ∀ v d, E.enc v = some d → E.dec (E.typeOf v) d = some v

/-! ## Any stream -/

theorem put_event {ports : List (Port T)} {puts l : List (Bytes × V)} {st : Scn}
    (h : put E ports puts st = .event l) :
    ∃ n v, l = puts ++ [(n, v)] ∧ n ∉ puts.map (·.1) ∧ ∃ p ∈ ports, p.name = n := by
  unfold put at h
  split at h
  · rename_i p b hp hb
    split at h
    · cases h
    · split at h
      · cases h
      · rename_i v hv hn
        cases h
        refine ⟨_, _, rfl, hn, p, List.mem_of_find?_eq_some hp, ?_⟩
        simpa using List.find?_some hp
  · cases h

theorem readLoop_event (C : Codec) (sel : List (Bytes × Bool)) (ports : List (Port T)) (n : Nat)
    (puts l : List (Bytes × V)) (i j : In) (hp : (puts.map (·.1)).Nodup)
    (hs : ∀ x ∈ puts.map (·.1), x ∈ ports.map (·.name)) (h : readLoop E C sel ports n puts i = (.event l, j)) :
    (l.map (·.1)).Nodup ∧ (∀ x ∈ l.map (·.1), x ∈ ports.map (·.name)) ∧ l.length = ports.length := by
  induction n generalizing puts i with
  | zero =>
    simp only [readLoop] at h
    split at h
    · cases h
    · rename_i hl
      cases h
      exact ⟨hp, hs, by simpa using hl⟩
  | succ n ih =>
    simp only [readLoop] at h
    split at h
    · cases h
    · rename_i k _
      split at h
      · cases h
      · generalize hput : put E ports puts k.st = f at h
        cases f with
        | event l' =>
          obtain ⟨m, v, rfl, hm, p, hpm, rfl⟩ := put_event hput
          refine ih _ _ ?_ ?_ h
          · rw [List.map_append, List.nodup_append]
            refine ⟨hp, by simp, ?_⟩
            intro a ha b hb e
            simp only [List.map_cons, List.map_nil, List.mem_singleton] at hb
            subst hb e
            exact hm ha
          · intro x hx
            rw [List.map_append, List.mem_append] at hx
            rcases hx with hx | hx
            · exact hs x hx
            · simp only [List.map_cons, List.map_nil, List.mem_singleton] at hx
              subst hx
              exact List.mem_map.2 ⟨p, hpm, rfl⟩
        | _ => cases h

/-- **C167** (every stream): whatever the bytes of the file are, and after any errors, an event that is read
without error has exactly one value for every port. -/
theorem C167_each_once (C : Codec) (ports : List (Port T)) (i j : In) (l : List (Bytes × V))
    (h : read E C ports i = (.event l, j)) :
    (l.map (·.1)).Perm (ports.map (·.name)) := by
  obtain ⟨h1, h2, h3⟩ := readLoop_event C _ ports _ [] l i j (by simp) (by simp) h
  exact List.Subperm.perm_of_length_le (List.subperm_of_subset h1 (fun x hx => h2 x hx)) (by simp [h3])

/-- **C167** (refusal): writing an event succeeds only if the store has a value of the type of the port, that can be
encoded, for every port. -/
theorem C167_refused [DecidableEq T] (options : BitVec 32) (e : Bytes → Option V) (ps : List (Port T)) :
    (write E options e ps).2 = true ↔
      ∀ p ∈ ps, ∃ v d, e p.name = some v ∧ E.typeOf v = p.ty ∧ E.enc v = some d := by
  induction ps with
  | nil => simp [write]
  | cons p ps ih =>
    have hp : (∃ r, portRec E options p e = some r) ↔
        ∃ v d, e p.name = some v ∧ E.typeOf v = p.ty ∧ E.enc v = some d := by
      cases hv : e p.name with
      | none => simp [portRec, hv]
      | some v =>
        by_cases ht : E.typeOf v = p.ty
        · cases hd : E.enc v <;> simp [portRec, hv, ht, hd]
        · simp [portRec, hv, ht]
    rw [List.forall_mem_cons, ← hp, ← ih, write]
    cases portRec E options p e with
    | none => simp
    | some r => simp [more]

/-- Two ports of two types, and an event whose second value has the wrong type. -/
example : (write (⟨fun v => v % 2, fun v => some [UInt8.ofNat v], fun _ _ => none⟩ : Vals Nat Nat) 0#32
    (fun _ => some 3) [⟨[97], 1⟩, ⟨[98], 0⟩]).2 = false := by
  decide

/-! ## Scanning in sequence -/

/-- The records that successive calls of `Scan` find, up to the end. -/
def Follows (C : Codec) (sel : List (Bytes × Bool)) : List Seen → Scn → Prop
  | [], st => scan C sel (st.input.length + 1) st = .done
  | x :: xs, st => ∃ s, scan C sel (st.input.length + 1) st = .found s ∧ s.raw.name = x.name ∧
      s.blocks = x.blocks ∧ Follows C sel xs s

theorem follows_of_scanAll (C : Codec) (sel : List (Bytes × Bool)) (fuel : Nat) (st : Scn) (seen : List Seen)
    (h : scanAll C sel fuel st = some (seen, true)) : Follows C sel seen st := by
  induction fuel generalizing st seen with
  | zero => simp [scanAll] at h
  | succ n ih =>
    simp only [scanAll] at h
    split at h
    · rename_i s hs
      split at h
      · cases h
      · rename_i l e hl
        simp only [Option.some.injEq, Prod.mk.injEq] at h
        obtain ⟨rfl, rfl⟩ := h
        exact ⟨s, hs, rfl, rfl, ih s l hl⟩
    · rename_i hd
      simp only [Option.some.injEq, Prod.mk.injEq] at h
      obtain ⟨rfl, -⟩ := h
      exact hd
    · simp at h
    · cases h

/-- The value shown by a record, for the ports `ports`. -/
def Gives (E : Vals T V) (ports : List (Port T)) (x : Seen) (nv : Bytes × V) : Prop :=
  x.name = nv.1 ∧ ∃ p b, ports.find? (fun p => p.name = x.name) = some p ∧ findBlock x.blocks x.name = some b ∧
    E.dec p.ty b.data = some nv.2

theorem readLoop_follows (C : Codec) (sel : List (Bytes × Bool)) (ports : List (Port T)) (xs rest : List Seen)
    (nvs puts : List (Bytes × V)) (hg : List.Forall₂ (Gives E ports) xs nvs)
    (hnd : ((puts ++ nvs).map (·.1)).Nodup) (hlen : (puts ++ nvs).length = ports.length) (st : Scn)
    (hf : Follows C sel (xs ++ rest) st) :
    ∃ st', readLoop E C sel ports xs.length puts ⟨st, .no⟩ = (.event (puts ++ nvs), ⟨st', .no⟩) ∧
      Follows C sel rest st' := by
  induction hg generalizing puts st with
  | nil =>
    refine ⟨st, ?_, hf⟩
    simp only [List.append_nil] at hlen
    simp [readLoop, hlen]
  | @cons x nv xs nvs hx hg ih =>
    obtain ⟨s, hs, hn, hb, hrest⟩ := hf
    obtain ⟨h1, p, b, h2, h3, h4⟩ := hx
    have hput : put E ports puts s = .event (puts ++ [nv]) := by
      unfold put
      rw [hn, hb, h2, h3]
      simp only [h4]
      rw [if_neg, h1]
      intro hc
      rw [List.map_append, List.nodup_append] at hnd
      exact hnd.2.2 _ hc _ (List.mem_map.2 ⟨nv, List.mem_cons_self .., rfl⟩) h1
    obtain ⟨st', e1, e2⟩ := ih (puts ++ [nv]) (by simpa using hnd) (by simpa using hlen) s hrest
    refine ⟨st', ?_, e2⟩
    have hsc : scanNext C sel ⟨st, .no⟩ = some ⟨s, .no⟩ := by
      simp [scanNext, hs]
    simp only [List.length_cons, readLoop, hsc, hput]
    rw [if_neg (by simp), e1]
    simp

theorem readMany_eof (C : Codec) (ports : List (Port T)) (hne : ports ≠ []) (m : Nat) (st : Scn) :
    readMany E C ports m ⟨st, .eof⟩ = List.replicate m .eof := by
  have hr : read E C ports ⟨st, .eof⟩ = (.eof, ⟨st, .eof⟩) := by
    unfold read
    cases ports with
    | nil => exact absurd rfl hne
    | cons p ps => simp [readLoop, scanNext]
  induction m with
  | zero => rfl
  | succ m ih => simp only [readMany, hr, ih, List.replicate_succ]

theorem readMany_done (C : Codec) (ports : List (Port T)) (hne : ports ≠ []) (m : Nat) (st : Scn)
    (h : Follows C (selectors ports) [] st) :
    readMany E C ports m ⟨st, .no⟩ = List.replicate m .eof := by
  cases m with
  | zero => rfl
  | succ m =>
    have h : scan C (selectors ports) (st.input.length + 1) st = .done := h
    have hr : ∃ st', read E C ports ⟨st, .no⟩ = (.eof, ⟨st', .eof⟩) := by
      refine ⟨scanLeft C (selectors ports) (st.input.length + 1) st, ?_⟩
      have hs : scanNext C (selectors ports) ⟨st, .no⟩ =
          some ⟨scanLeft C (selectors ports) (st.input.length + 1) st, .eof⟩ := by
        simp [scanNext, h]
      unfold read
      generalize selectors ports = sel at *
      cases ports with
      | nil => exact absurd rfl hne
      | cons p ps => simp [readLoop, hs]
    obtain ⟨st', hr⟩ := hr
    simp only [readMany, hr, readMany_eof C ports hne, List.replicate_succ]

theorem readMany_events (C : Codec) (ports : List (Port T)) (hne : ports ≠ []) (xss : List (List Seen))
    (nvss : List (List (Bytes × V)))
    (hg : List.Forall₂ (fun xs nvs => List.Forall₂ (Gives E ports) xs nvs ∧ (nvs.map (·.1)).Nodup ∧
      nvs.length = ports.length) xss nvss) (m : Nat) (st : Scn)
    (hf : Follows C (selectors ports) xss.flatten st) :
    readMany E C ports (nvss.length + m) ⟨st, .no⟩ = nvss.map .event ++ List.replicate m .eof := by
  induction hg generalizing st with
  | nil => simpa using readMany_done C ports hne m st hf
  | @cons xs nvs xss nvss hx hg ih =>
    rw [List.flatten_cons] at hf
    obtain ⟨st', h1, h2⟩ := readLoop_follows C _ ports xs _ nvs [] hx.1 (by simpa using hx.2.1)
      (by simpa using hx.2.2) st hf
    have hl : xs.length = ports.length := by rw [hx.1.length_eq, hx.2.2]
    have hr : read E C ports ⟨st, .no⟩ = (.event nvs, ⟨st', .no⟩) := by
      unfold read
      rw [← hl, h1]; rfl
    rw [List.length_cons, show nvss.length + 1 + m = (nvss.length + m) + 1 by omega]
    simp only [readMany, hr, ih st' h2, List.map_cons, List.cons_append]

/-! ## What is written -/

section

variable [DecidableEq T]

/-- The record of a value. -/
def recOf (E : Vals T V) (options : BitVec 32) (e : Bytes → Option V) (p : Port T) : Rec :=
  ⟨options, p.name, [⟨0, p.name, ((e p.name).bind E.enc).getD []⟩]⟩

theorem write_complete (options : BitVec 32) (e : Bytes → Option V) (ps : List (Port T)) (h : Complete E ps e) :
    write E options e ps = (ps.map (recOf E options e), true) := by
  induction ps with
  | nil => rfl
  | cons p ps ih =>
    obtain ⟨v, d, h1, h2, h3⟩ := h p (List.mem_cons_self ..)
    have hr : portRec E options p e = some (recOf E options e p) := by
      simp [portRec, recOf, h1, h2, h3]
    simp only [write, hr, ih (fun q hq => h q (List.mem_cons_of_mem _ hq)), more, List.map_cons]

theorem writeAll_complete (options : BitVec 32) (ps : List (Port T)) (es : List (Bytes → Option V))
    (h : ∀ e ∈ es, Complete E ps e) :
    writeAll E options ps es = (es.map fun e => ps.map (recOf E options e)).flatten := by
  induction es with
  | nil => rfl
  | cons e es ih =>
    rw [writeAll, write_complete options e ps (h e (List.mem_cons_self ..)),
      ih (fun x hx => h x (List.mem_cons_of_mem _ hx))]
    rfl

omit [DecidableEq T] in
theorem selected_ports (Q : List (Port T)) (hne : Q ≠ []) (r : Rec) :
    Selected (selectors Q) r ↔ ∃ q ∈ Q, q.name = r.name := by
  unfold Selected selectors
  constructor
  · rintro (h | ⟨p, hp, h⟩)
    · exact absurd (List.map_eq_nil_iff.1 h) hne
    · obtain ⟨q, hq, rfl⟩ := List.mem_map.1 hp
      exact ⟨q, hq, h⟩
  · rintro ⟨q, hq, h⟩
    exact .inr ⟨_, List.mem_map.2 ⟨q, hq, rfl⟩, h⟩

omit [DecidableEq T] in
theorem unpacked_ports (Q : List (Port T)) (r : Rec) (h : ∃ q ∈ Q, q.name = r.name) :
    Unpacked (selectors Q) r := by
  rw [unpacked_iff]
  unfold lookup selectors
  obtain ⟨q, hq, hn⟩ := h
  cases hf : (Q.map fun p => (p.name, true)).reverse.find? fun p => p.1 = r.name with
  | none =>
    have := List.find?_eq_none.1 hf (q.name, true) (List.mem_reverse.2 (List.mem_map.2 ⟨q, hq, rfl⟩))
    exact absurd hn (by simpa using this)
  | some x =>
    have hm := List.mem_reverse.1 (List.mem_of_find?_eq_some hf)
    obtain ⟨p, -, rfl⟩ := List.mem_map.1 hm
    rfl

theorem forall₂_append_left {α β : Type} {R : α → β → Prop} (xs xs' : List α) (ys : List β)
    (h : List.Forall₂ R (xs ++ xs') ys) :
    ∃ y y', ys = y ++ y' ∧ List.Forall₂ R xs y ∧ List.Forall₂ R xs' y' := by
  induction xs generalizing ys with
  | nil => exact ⟨[], ys, rfl, .nil, h⟩
  | cons x xs ih =>
    cases h with
    | cons h1 h2 =>
      obtain ⟨y, y', rfl, h3, h4⟩ := ih _ h2
      exact ⟨_ :: y, y', rfl, .cons h1 h3, h4⟩

theorem forall₂_split {α β : Type} {R : α → β → Prop} (xss : List (List α)) (ys : List β)
    (h : List.Forall₂ R xss.flatten ys) :
    ∃ yss : List (List β), ys = yss.flatten ∧ List.Forall₂ (List.Forall₂ R) xss yss := by
  induction xss generalizing ys with
  | nil => cases h; exact ⟨[], rfl, .nil⟩
  | cons xs xss ih =>
    rw [List.flatten_cons] at h
    obtain ⟨y, y', rfl, h1, h2⟩ := forall₂_append_left _ _ _ h
    obtain ⟨yss, rfl, h3⟩ := ih _ h2
    exact ⟨y :: yss, rfl, .cons h1 h3⟩

theorem forall₂_pick {α β γ : Type} {R : α → β → Prop} {S : α → β → γ → Prop} (l : List α) (l' : List β)
    (h : List.Forall₂ R l l') (hp : ∀ a ∈ l, ∀ b, R a b → ∃ c, S a b c) :
    ∃ l'' : List γ, List.Forall₂ (fun b c => ∃ a ∈ l, S a b c) l' l'' ∧ List.Forall₂ (fun a c => ∃ b, S a b c) l l'' := by
  induction h with
  | nil => exact ⟨[], .nil, .nil⟩
  | @cons a b l l' h1 h2 ih =>
    obtain ⟨c, hc⟩ := hp a (List.mem_cons_self ..) b h1
    obtain ⟨l'', h3, h4⟩ := ih (fun x hx => hp x (List.mem_cons_of_mem _ hx))
    refine ⟨c :: l'', .cons ⟨a, List.mem_cons_self .., hc⟩ ?_, .cons ⟨b, hc⟩ h4⟩
    exact h3.imp fun _ _ ⟨x, hx, hs⟩ => ⟨x, List.mem_cons_of_mem _ hx, hs⟩

omit [DecidableEq T] in
theorem name_inj {ps : List (Port T)} (h : (ps.map (·.name)).Nodup) {p q : Port T} (hp : p ∈ ps) (hq : q ∈ ps)
    (hn : p.name = q.name) : p = q := by
  induction ps with
  | nil => cases hp
  | cons x ps ih =>
    rw [List.map_cons, List.nodup_cons] at h
    rcases List.mem_cons.1 hp with e1 | h1 <;> rcases List.mem_cons.1 hq with e2 | h2
    · rw [e1, e2]
    · subst e1; exact absurd (List.mem_map.2 ⟨q, h2, hn.symm⟩) h.1
    · subst e2; exact absurd (List.mem_map.2 ⟨p, h1, hn⟩) h.1
    · exact ih h.2 h1 h2

omit [DecidableEq T] in
theorem find_port {ps : List (Port T)} (h : (ps.map (·.name)).Nodup) {p : Port T} (hp : p ∈ ps) :
    ps.find? (fun q => q.name = p.name) = some p := by
  cases hf : ps.find? (fun q => q.name = p.name) with
  | none => exact absurd (decide_eq_true rfl) (List.find?_eq_none.1 hf p hp)
  | some q =>
    have := name_inj h (List.mem_of_find?_eq_some hf) hp (by simpa using List.find?_some hf)
    rw [this]

omit [DecidableEq T] in
theorem gives_list (options : BitVec 32) (hE : E.Lossless) (Q : List (Port T)) (hQ : (Q.map (·.name)).Nodup)
    (e : Bytes → Option V) (ps : List (Port T)) (hps : ∀ p ∈ ps, p ∈ Q) (hc : Complete E ps e) (xs : List Seen)
    (h : List.Forall₂ (Shows (selectors Q)) (ps.map (recOf E options e)) xs) :
    ∃ nvs, List.Forall₂ (Gives E Q) xs nvs ∧ nvs.map (·.1) = ps.map (·.name) ∧ ∀ nv ∈ nvs, e nv.1 = some nv.2 := by
  induction ps generalizing xs with
  | nil =>
    cases h
    exact ⟨[], .nil, rfl, by simp⟩
  | cons p ps ih =>
    rw [List.map_cons] at h
    cases h with
    | @cons _ x _ xs h1 h2 =>
      obtain ⟨nvs, g1, g2, g3⟩ := ih (fun q hq => hps q (List.mem_cons_of_mem _ hq))
        (fun q hq => hc q (List.mem_cons_of_mem _ hq)) xs h2
      obtain ⟨v, d, v1, v2, v3⟩ := hc p (List.mem_cons_self ..)
      have hp := hps p (List.mem_cons_self ..)
      refine ⟨(p.name, v) :: nvs, .cons ⟨h1.name, p, ⟨0, p.name, d⟩, ?_, ?_, ?_⟩ g1, by simp [g2], ?_⟩
      · rw [h1.name]; exact find_port hQ hp
      · have := h1.blocks (unpacked_ports Q _ ⟨p, hp, rfl⟩) ⟨0, p.name, d⟩ (by simp [recOf, v1, v3])
        rw [h1.name]; exact this
      · rw [← v2]; exact hE v d v3
      · intro nv hnv
        rcases List.mem_cons.1 hnv with rfl | hnv
        · exact v1
        · exact g3 nv hnv

omit [DecidableEq T] in
theorem read_event (options : BitVec 32) (hE : E.Lossless) (P Q : List (Port T)) (hP : (P.map (·.name)).Nodup)
    (hQ : (Q.map (·.name)).Nodup) (hsub : ∀ q ∈ Q, q ∈ P) (e : Bytes → Option V) (hc : Complete E P e)
    (xs : List Seen)
    (h : List.Forall₂ (Shows (selectors Q)) ((P.filter fun p => ∃ q ∈ Q, q.name = p.name).map (recOf E options e)) xs) :
    ∃ nvs, (List.Forall₂ (Gives E Q) xs nvs ∧ (nvs.map (·.1)).Nodup ∧ nvs.length = Q.length) ∧ Holds Q e nvs := by
  have hin : ∀ p, p ∈ P.filter (fun p => ∃ q ∈ Q, q.name = p.name) ↔ p ∈ Q := by
    intro p
    rw [List.mem_filter]
    constructor
    · rintro ⟨hp, hd⟩
      obtain ⟨q, hq, hn⟩ := of_decide_eq_true hd
      rw [← name_inj hP (hsub q hq) hp hn]; exact hq
    · intro hp
      exact ⟨hsub p hp, decide_eq_true ⟨p, hp, rfl⟩⟩
  have hnd : ((P.filter fun p => ∃ q ∈ Q, q.name = p.name).map (·.name)).Nodup :=
    hP.sublist (List.Sublist.map _ List.filter_sublist)
  generalize P.filter (fun p => ∃ q ∈ Q, q.name = p.name) = ps at *
  obtain ⟨nvs, g1, g2, g3⟩ := gives_list options hE Q hQ e ps (fun p hp => (hin p).1 hp)
    (fun p hp => hc p (hsub p ((hin p).1 hp))) xs h
  have hl : nvs.length = Q.length := by
    have h1 : (ps.map (·.name)).Perm (Q.map (·.name)) := by
      rw [List.perm_ext_iff_of_nodup hnd hQ]
      intro n
      simp only [List.mem_map, hin]
    have h2 := congrArg List.length g2
    have h3 := h1.length_eq
    simp only [List.length_map] at h2 h3
    omega
  refine ⟨nvs, ⟨g1, g2 ▸ hnd, hl⟩, g2 ▸ hnd, ?_⟩
  intro name v
  constructor
  · intro hm
    have : name ∈ nvs.map (·.1) := List.mem_map.2 ⟨_, hm, rfl⟩
    rw [g2] at this
    obtain ⟨p, hp, rfl⟩ := List.mem_map.1 this
    exact ⟨⟨p, (hin p).1 hp, rfl⟩, g3 _ hm⟩
  · rintro ⟨⟨p, hp, rfl⟩, hv⟩
    have : p.name ∈ nvs.map (·.1) := by
      rw [g2]; exact List.mem_map.2 ⟨p, (hin p).2 hp, rfl⟩
    obtain ⟨nv, hnv, hn⟩ := List.mem_map.1 this
    have h5 := g3 nv hnv
    rw [hn, hv] at h5
    have : nv = (p.name, v) := Prod.ext hn (Option.some.inj h5).symm
    rwa [← this]

theorem filter_flatten {α : Type} (q : α → Bool) (l : List (List α)) :
    l.flatten.filter q = (l.map fun x => x.filter q).flatten := by
  induction l with
  | nil => rfl
  | cons x l ih => simp [List.filter_append, ih]

/-- **C167** (part): events written with the ports `P` and closed are read by a streamer with the ports `Q`, some of
those, one by one in the same order: the `n`-th `Read` puts in the store exactly the values of the `n`-th event for `Q`, and after the
last event every `Read` says `io.EOF`. Missing: no input ports, files that were cut, and files with an incomplete event,
see the counterexamples. -/
theorem C167_events_partial (C : Codec) (M : MetaCodec) (options : BitVec 32) (P Q : List (Port T))
    (hE : E.Lossless) (hP : (P.map (·.name)).Nodup) (hQ : (Q.map (·.name)).Nodup) (hne : Q ≠ [])
    (hsub : ∀ q ∈ Q, q ∈ P) (hmeta : ∀ p ∈ P, p.name ≠ metaRecord)
    (es : List (Bytes → Option V)) (hes : ∀ e ∈ es, Complete E P e)
    (hfit : ∀ r ∈ writeAll E options P es, r.Fits C) (hgood : C.Good options)
    (hm : (metaRec C M options (writeAll E options P es)).Fits C) :
    ∃ i, connect Q (mkFile C M options (writeAll E options P es)) = some i ∧
      ∀ m, ∃ ls : List (List (Bytes × V)), readMany E C Q (es.length + m) i = ls.map .event ++ List.replicate m .eof ∧
        List.Forall₂ (Holds Q) es ls := by
  have hRS := writeAll_complete options P es hes
  obtain ⟨seen, hs1, hs2⟩ := C32_scan_partial C (selectors Q)
    (writeAll E options P es ++ [metaRec C M options (writeAll E options P es)])
    (by
      intro r hr
      rcases List.mem_append.1 hr with hr | hr
      · exact hfit r hr
      · rw [List.mem_singleton] at hr; subst hr; exact hm)
    (compressorKind options)
    (by
      intro r hr _
      rcases List.mem_append.1 hr with hr | hr
      · rw [hRS, List.mem_flatten] at hr
        obtain ⟨l, hl, hr⟩ := hr
        obtain ⟨e, -, rfl⟩ := List.mem_map.1 hl
        obtain ⟨p, -, rfl⟩ := List.mem_map.1 hr
        rfl
      · rw [List.mem_singleton] at hr; subst hr; rfl)
    hgood (encFooter (rioMagic ++ encRecs C (writeAll E options P es)).length) (.closed _)
  have hfile : mkFile C M options (writeAll E options P es) = rioMagic ++
      (encRecs C (writeAll E options P es ++ [metaRec C M options (writeAll E options P es)]) ++
        encFooter (rioMagic ++ encRecs C (writeAll E options P es)).length) := by
    rw [mkFile_eq, encRecs_append]
    simp [encRecs]
  have hfil : (writeAll E options P es ++ [metaRec C M options (writeAll E options P es)]).filter
      (fun r => Selected (selectors Q) r) =
      (es.map fun e => (P.filter fun p => ∃ q ∈ Q, q.name = p.name).map (recOf E options e)).flatten := by
    rw [List.filter_append, List.filter_cons_of_neg, List.filter_nil, List.append_nil, hRS, filter_flatten, List.map_map]
    · congr 1
      apply List.map_congr_left
      intro e _
      simp only [Function.comp, List.filter_map]
      congr 1
      apply List.filter_congr
      intro p _
      simp only [Function.comp, selected_ports Q hne]
      rfl
    · simp only [selected_ports Q hne, decide_eq_true_eq, not_exists, not_and]
      intro q hq
      exact hmeta q (hsub q hq)
  rw [hfil] at hs2
  rw [hfile]
  generalize encRecs C (writeAll E options P es ++ [metaRec C M options (writeAll E options P es)]) ++
        encFooter (rioMagic ++ encRecs C (writeAll E options P es)).length = rest at *
  unfold scanStream at hs1
  rw [readFull_append _ (show rioMagic.length = 4 from rfl)] at hs1
  simp only [if_true] at hs1
  have hfol := follows_of_scanAll C _ _ _ _ hs1
  refine ⟨⟨newScanner rest, .no⟩, ?_, ?_⟩
  · unfold connect
    rw [readFull_append _ (show rioMagic.length = 4 from rfl)]
    simp only [true_and]
    rw [if_pos hQ]
  · intro m
    obtain ⟨xss, rfl, hx⟩ := forall₂_split _ _ hs2
    rw [List.forall₂_map_left_iff] at hx
    obtain ⟨nvss, g1, g2⟩ := forall₂_pick (S := fun e xs nvs => (List.Forall₂ (Gives E Q) xs nvs ∧
      (nvs.map (·.1)).Nodup ∧ nvs.length = Q.length) ∧ Holds Q e nvs) es xss hx
      (fun e he xs h => read_event options hE P Q hP hQ hsub e (hes e he) xs h)
    refine ⟨nvss, ?_, g2.imp fun _ _ ⟨_, h⟩ => h.2⟩
    rw [g2.length_eq]
    exact readMany_events C Q hne xss nvss (g1.imp fun _ _ ⟨_, _, h⟩ => h.1) m _ hfol

end

/-! ## Examples and counterexamples -/

/-- Values are bytes, of one type. -/
def bytesVals : Vals Unit Bytes := ⟨fun _ => (), some, fun _ d => some d⟩

/-- Compressors that are not used. -/
def plain : Codec := ⟨fun _ x => x, fun _ x => x, fun _ x _ => x.length⟩

def noMeta : MetaCodec := ⟨fun _ => [], fun _ => some []⟩

/-- No compression. -/
def opts0 : BitVec 32 := 0x0001f000#32

def portA : Port Unit := ⟨[97], ()⟩

def portB : Port Unit := ⟨[98], ()⟩

/-- An event with two values. -/
def ev (a b : UInt8) : Bytes → Option Bytes := fun n => if n = [97] then some [a] else if n = [98] then some [b] else none

/-- An event without the second value. -/
def evA (a : UInt8) : Bytes → Option Bytes := fun n => if n = [97] then some [a] else none

def fileOf (P : List (Port Unit)) (es : List (Bytes → Option Bytes)) : Bytes :=
  mkFile plain noMeta opts0 (writeAll bytesVals opts0 P es)

/-- What `n` reads with the ports `Q` give. -/
def reads (Q : List (Port Unit)) (file : Bytes) (n : Nat) : List (Fate Bytes) :=
  match connect Q file with
  | none => []
  | some i => readMany bytesVals plain Q n i

-- The hypotheses of `C167_events_partial` hold for two events with two ports, read with one or with both.
example : bytesVals.Lossless ∧ (∀ e ∈ [ev 1 10, ev 2 20], Complete bytesVals [portA, portB] e) ∧
    (∀ p ∈ [portA, portB], p.name ≠ metaRecord) ∧ plain.Good opts0 ∧
    (writeAll bytesVals opts0 [portA, portB] [ev 1 10, ev 2 20]).length = 4 := by
  refine ⟨?_, ?_, by decide, ?_, by decide⟩
  · intro v d h
    simpa [bytesVals] using h.symm
  · intro e he p hp
    simp only [List.mem_cons, List.not_mem_nil, or_false] at he hp
    rcases he with rfl | rfl <;> rcases hp with rfl | rfl <;> exact ⟨_, _, rfl, rfl, rfl⟩
  · intro h
    exact absurd (by decide) h

example (r : Rec) (hr : r ∈ writeAll bytesVals opts0 [portA, portB] [ev 1 10, ev 2 20]) : r.Fits plain := by
  have : writeAll bytesVals opts0 [portA, portB] [ev 1 10, ev 2 20] =
      [⟨opts0, [97], [⟨0, [97], [1]⟩]⟩, ⟨opts0, [98], [⟨0, [98], [10]⟩]⟩, ⟨opts0, [97], [⟨0, [97], [2]⟩]⟩,
        ⟨opts0, [98], [⟨0, [98], [20]⟩]⟩] := by decide
  rw [this] at hr
  simp only [List.mem_cons, List.not_mem_nil, or_false] at hr
  rcases hr with rfl | rfl | rfl | rfl <;>
    exact ⟨by decide, by simp only [List.mem_singleton, forall_eq]; exact ⟨by decide, by decide, by decide⟩, by decide, by decide +kernel, by decide +kernel⟩

example : reads [portB] (fileOf [portA, portB] [ev 1 10, ev 2 20]) 4 =
    [.event [([98], [10])], .event [([98], [20])], .eof, .eof] := by
  decide +kernel

example : reads [portB, portA] (fileOf [portA, portB] [ev 1 10, ev 2 20]) 3 =
    [.event [([97], [1]), ([98], [10])], .event [([97], [2]), ([98], [20])], .eof] := by
  decide +kernel

/-- **C167** fails for a file that was cut: with one port, the last event before the cut is read again and again, and
there is no end. -/
theorem C167_cut_counterexample (n : Nat) :
    reads [portA] ((fileOf [portA] [ev 1 10, ev 2 20]).take 80) n = List.replicate n (.event [([97], [1])]) := by
  have key : ∃ i j, connect [portA] ((fileOf [portA] [ev 1 10, ev 2 20]).take 80) = some i ∧
      read bytesVals plain [portA] i = (.event [([97], [1])], j) ∧
      ∃ k, read bytesVals plain [portA] j = (.event [([97], [1])], k) ∧
        read bytesVals plain [portA] k = (.event [([97], [1])], k) := by
    refine ⟨_, _, rfl, rfl, _, rfl, ?_⟩
    decide +kernel
  obtain ⟨i, j, h1, h2, k, h3, h4⟩ := key
  have hk : ∀ n, readMany bytesVals plain [portA] n k = List.replicate n (.event [([97], [1])]) := by
    intro n
    induction n with
    | zero => rfl
    | succ n ih => rw [readMany, h4, ih, List.replicate_succ]
  unfold reads
  rw [h1]
  match n with
  | 0 => rfl
  | 1 => simp [readMany, h2]
  | n + 2 =>
    simp only [readMany, h2, h3, hk, List.replicate_succ]

/-- With two ports, the event that was cut has the second value of the event before it, and the next one waits. -/
theorem C167_mixed_counterexample :
    reads [portA, portB] ((fileOf [portA, portB] [ev 1 10, ev 2 20]).take 190) 3 =
      [.event [([97], [1]), ([98], [10])], .event [([97], [2]), ([98], [10])], .blocked] := by
  decide +kernel

/-- If the first record was cut, `Read` panics. -/
theorem C167_panic_counterexample :
    reads [portA] ((fileOf [portA] [ev 1 10]).take 40) 1 = [.panic] := by
  decide +kernel

/-- An event that could not be written completely leaves a part of it in the file, which then is not read as events any more. -/
theorem C167_incomplete_counterexample :
    (write bytesVals opts0 (evA 2) [portA, portB]).2 = false ∧
    reads [portA, portB] (fileOf [portA, portB] [ev 1 10, evA 2, ev 3 30]) 2 =
      [.event [([97], [1]), ([98], [10])], .blocked] := by
  decide +kernel

/-- If it is the last one, its values are lost without an error. -/
theorem C167_lost_counterexample :
    reads [portA, portB] (fileOf [portA, portB] [ev 1 10, evA 2]) 2 =
      [.event [([97], [1]), ([98], [10])], .eof] := by
  decide +kernel

/-- Without ports there is no end. -/
theorem C167_noports_counterexample (es : List (Bytes → Option Bytes)) (n : Nat) :
    reads [] (fileOf [] es) n = List.replicate n (.event []) := by
  have hw : writeAll bytesVals opts0 [] es = [] := by
    induction es with
    | nil => rfl
    | cons e es ih => rw [writeAll, ih]; rfl
  have hr : ∀ n i, readMany bytesVals plain ([] : List (Port Unit)) n i = List.replicate n (.event []) := by
    intro n
    induction n with
    | zero => intro i; rfl
    | succ n ih => intro i; rw [readMany, ih, List.replicate_succ]; rfl
  unfold reads fileOf
  rw [hw]
  have hc : ∃ i, connect ([] : List (Port Unit)) (mkFile plain noMeta opts0 []) = some i := ⟨_, rfl⟩
  obtain ⟨i, hi⟩ := hc
  rw [hi]
  exact hr n i

end Verif.Fwk.Streamer
