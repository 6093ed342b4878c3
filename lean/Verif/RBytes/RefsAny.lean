import Verif.RBytes.RefsRead

/-!
# Reading back an object: new classes, known classes, repeated objects
-/

namespace Verif.RBytes.Refs

section
variable {G : Nat → Node} {rank : Nat → Nat}

/-- Recording the object `i` once its content has been read. -/
theorem finish {r i pos posI posE : Nat} {st st1 stI stF : St}
    {refs refs1 refsI refsF : List (Nat × Ent)} {heap heapI : List Node} {stub : Node}
    {φ φ1 φI φF : Nat → Nat}
    (hrel : Rel G rank r st refs heap φ pos) (hi : rank i < r) (hl : st.objs.lookup i = none)
    (hS : Step G rank (rank i) st1 refs1 (heap ++ [stub]) φ1 posI stI refsI heapI φI posE)
    (hposI : pos + 8 ≤ posI)
    (hst1 : ∀ j, j ≠ i → st1.objs.lookup j = st.objs.lookup j ∧ φ1 j = φ j)
    (hcl1 : ∀ c q, st1.classes.lookup c = some q → st.classes.lookup c = some q ∨
      (q = (pos + 6) ||| 2 ^ 31 ∧ refs1.lookup (pos + 6) = some (.cls c)))
    (hfr1 : ∀ k, k < pos + 2 → refs1.lookup k = refs.lookup k)
    (hFi : stF.objs.lookup i = some (pos + 2))
    (hFj : ∀ j, j ≠ i → stF.objs.lookup j = stI.objs.lookup j)
    (hFc : stF.classes = stI.classes)
    (hRi : refsF.lookup (pos + 2) = some (.obj heap.length))
    (hRj : ∀ k, k ≠ pos + 2 → refsF.lookup k = refsI.lookup k)
    (hφi : φF i = heap.length)
    (hφ : ∀ j, (stI.objs.lookup j).isSome → φF j = φI j)
    (htg : ∀ j ∈ (G i).parts.targets, (stI.objs.lookup j).isSome) :
    Step G rank r st refs heap φ pos stF refsF
      (heapI.set heap.length ⟨(G i).cls, (G i).parts.rename φI⟩) φF posE := by
  have hhl : heap.length + 1 ≤ heapI.length := by
    have := hS.hlen; simpa using this
  have hle := hS.le
  have domF : ∀ k, (stI.objs.lookup k).isSome → (stF.objs.lookup k).isSome := by
    intro k hk
    by_cases e : k = i
    · rw [e, hFi]; rfl
    · rw [hFj k e]; exact hk
  have old : ∀ j p, st.objs.lookup j = some p →
      j ≠ i ∧ stI.objs.lookup j = some p ∧ stF.objs.lookup j = some p ∧ φF j = φ j := by
    intro j p hj
    have hne : j ≠ i := by intro e; subst e; rw [hl] at hj; cases hj
    have h1 := hst1 j hne
    obtain ⟨a, b⟩ := hS.ext j p (by rw [h1.1, hj])
    refine ⟨hne, a, by rw [hFj j hne, a], ?_⟩
    rw [hφ j (by simp [a]), b, h1.2]
  have cases : ∀ j p, j ≠ i → stF.objs.lookup j = some p →
      (st.objs.lookup j = some p ∧ φF j = φ j) ∨
      (stI.objs.lookup j = some p ∧ posI + 2 ≤ p ∧ rank j < rank i ∧ heap.length + 1 ≤ φF j ∧
        φF j = φI j) := by
    intro j p hne hj
    rw [hFj j hne] at hj
    rcases hS.new j p hj with a | ⟨a, b, c⟩
    · rw [(hst1 j hne).1] at a
      exact Or.inl ⟨a, (old j p a).2.2.2⟩
    · refine Or.inr ⟨hj, a, b, ?_, hφ j (by simp [hj])⟩
      rw [hφ j (by simp [hj])]
      simpa using c
  have hset : ∀ n, n ≠ heap.length →
      (heapI.set heap.length ⟨(G i).cls, (G i).parts.rename φI⟩)[n]? = heapI[n]? := by
    intro n hn
    exact List.getElem?_set_ne (fun e => hn e.symm)
  have hkeep : ∀ n, n < heap.length →
      (heapI.set heap.length ⟨(G i).cls, (G i).parts.rename φI⟩)[n]? = heap[n]? := by
    intro n hn
    rw [hset n (by omega), hS.hframe n (by simp; omega), List.getElem?_append_left hn]
  have hfr : ∀ k, k < pos + 2 → refsF.lookup k = refs.lookup k := by
    intro k hk
    rw [hRj k (by omega), hS.frame k (by omega), hfr1 k hk]
  have oldlt : ∀ j p, st.objs.lookup j = some p → rank j < r → φ j < heap.length := by
    intro j p hj hr
    have := (hrel.obj j p hj hr).2.1
    exact (List.getElem?_eq_some_iff.mp this).1
  refine { rel := ?_, le := by omega, ext := ?_, new := ?_, frame := hfr, newcls := ?_, hlen := ?_,
           hframe := hkeep }
  · refine { obj := ?_, bnd := ?_, cls := ?_, inj := ?_ }
    · intro j p hj hr
      by_cases e : j = i
      · subst e
        rw [hFi] at hj
        cases hj
        refine ⟨by rw [hφi, hRi], ?_, fun k hk => domF k (htg k hk)⟩
        rw [hφi, List.getElem?_set_self (by omega)]
        rw [rename_congr (φ := φF) (ψ := φI) _ (fun k hk => hφ k (htg k hk))]
      · rcases cases j p e hj with ⟨a, b⟩ | ⟨a, b, c, d, f⟩
        · obtain ⟨x, y, z⟩ := hrel.obj j p a hr
          have hp := (hrel.bnd j p a).2
          refine ⟨by rw [b, hfr p (by omega), x], ?_, ?_⟩
          · rw [b, hkeep _ (oldlt j p a hr), y]
            rw [rename_congr (φ := φF) (ψ := φ)]
            intro k hk
            obtain ⟨pk, hpk⟩ := Option.isSome_iff_exists.mp (z k hk)
            exact (old k pk hpk).2.2.2
          · intro k hk
            obtain ⟨pk, hpk⟩ := Option.isSome_iff_exists.mp (z k hk)
            rw [(old k pk hpk).2.2.1]; rfl
        · obtain ⟨x, y, z⟩ := hS.rel.obj j p a c
          refine ⟨by rw [f, hRj p (by omega), x], ?_, fun k hk => domF k (z k hk)⟩
          rw [hset _ (by omega), f, y]
          rw [rename_congr (φ := φF) (ψ := φI) _ (fun k hk => hφ k (z k hk))]
    · intro j p hj
      by_cases e : j = i
      · subst e; rw [hFi] at hj; cases hj; omega
      · rw [hFj j e] at hj; exact hS.rel.bnd j p hj
    · intro c q hq
      rw [hFc] at hq
      rcases hS.newcls c q hq with a | ⟨p, a, b, d, f⟩
      · rcases hcl1 c q a with a | ⟨a, b⟩
        · obtain ⟨p, x, y, z⟩ := hrel.cls c q a
          exact ⟨p, x, by rw [hfr p (by omega), y], by omega⟩
        · exact ⟨pos + 6, a, by rw [hRj _ (by omega), hS.frame _ (by omega), b], by omega⟩
      · exact ⟨p, a, by rw [hRj p (by omega), b], d⟩
    · intro j k hj hk rj rk hjk
      obtain ⟨pj, hpj⟩ := Option.isSome_iff_exists.mp hj
      obtain ⟨pk, hpk⟩ := Option.isSome_iff_exists.mp hk
      by_cases ej : j = i <;> by_cases ek : k = i
      · rw [ej, ek]
      · exfalso
        rw [ej, hφi] at hjk
        rcases cases k pk ek hpk with ⟨a, b⟩ | ⟨a, b, c, d, f⟩
        · have := oldlt k pk a rk; omega
        · omega
      · exfalso
        rw [ek, hφi] at hjk
        rcases cases j pj ej hpj with ⟨a, b⟩ | ⟨a, b, c, d, f⟩
        · have := oldlt j pj a rj; omega
        · omega
      · rcases cases j pj ej hpj with ⟨a, b⟩ | ⟨a, b, c, d, f⟩ <;>
          rcases cases k pk ek hpk with ⟨a', b'⟩ | ⟨a', b', c', d', f'⟩
        · exact hrel.inj j k (by simp [a]) (by simp [a']) rj rk (by rw [← b, ← b', hjk])
        · have := oldlt j pj a rj; omega
        · have := oldlt k pk a' rk; omega
        · exact hS.rel.inj j k (by simp [a]) (by simp [a']) c c' (by rw [← f, ← f', hjk])
  · intro j p hj
    exact ⟨(old j p hj).2.2.1, (old j p hj).2.2.2⟩
  · intro j p hj
    by_cases e : j = i
    · subst e; rw [hFi] at hj; cases hj
      exact Or.inr ⟨by omega, hi, by omega⟩
    · rcases cases j p e hj with ⟨a, b⟩ | ⟨a, b, c, d, f⟩
      · exact Or.inl a
      · exact Or.inr ⟨by omega, by omega, by omega⟩
  · intro c q hq
    rw [hFc] at hq
    rcases hS.newcls c q hq with a | ⟨p, a, b, d, f⟩
    · rcases hcl1 c q a with a | ⟨a, b⟩
      · exact Or.inl a
      · exact Or.inr ⟨pos + 6, a, by rw [hRj _ (by omega), hS.frame _ (by omega), b], by omega, by omega⟩
    · exact Or.inr ⟨p, a, by rw [hRj p (by omega), b], d, by omega⟩
  · simp; omega

theorem readAny_spec {dec : List UInt8 → Option Dec} {P : Nat → Prop} (hg : Good G dec P rank) :
    ∀ fuel, Reads G rank P (encAny G fuel) (readAny dec fuel) := by
  intro fuel
  induction fuel with
  | zero => intro r o pos st bs st' _ he; simp [encAny] at he
  | succ fuel ih =>
    intro r o pos st bs st' hP he hlt pre post hid off refs heap φ hpos hrel
    cases o with
    | none =>
      simp only [encAny, Option.some.injEq, Prod.mk.injEq] at he
      obtain ⟨rfl, rfl⟩ := he
      refine ⟨refs, heap, φ, ?_, Step.refl hrel (by omega), by simp⟩
      have h1 := readBE_parses_enc (k := 4) (n := 0) (by decide) pre post hid off
      simp only [readAny, Bool.false_eq_true, if_false]
      rw [h1, Option.bind_some]
      simp [readRef]
    | some i =>
      obtain ⟨hPi, hri⟩ := hP i rfl
      simp only [encAny] at he
      cases hl : st.objs.lookup i with
      | some ref =>
        simp only [hl, Option.some.injEq, Prod.mk.injEq] at he
        obtain ⟨rfl, rfl⟩ := he
        obtain ⟨hb1, hb2⟩ := hrel.bnd i ref hl
        simp only [List.length_append, length_beEnc] at hlt
        refine ⟨refs, heap, φ, ?_, Step.refl hrel (by omega), fun j hj => by cases hj; rw [hl]; rfl⟩
        have h1 := readBE_parses_enc (k := 4) (n := 2 ^ 30 + 4) (by decide) pre
          (beEnc 4 ref ++ post) hid off
        have h2 := readBE_parses_enc (k := 4) (n := ref) (by omega) (pre ++ beEnc 4 (2 ^ 30 + 4))
          post hid off
        simp only [List.append_assoc, List.length_append, length_beEnc] at h1 h2 ⊢
        simp only [readAny, Bool.false_eq_true, if_false]
        rw [h1, Option.bind_some]
        have hv : (!((2 ^ 30 + 4) &&& 2 ^ 30 == 0 || 2 ^ 30 + 4 == 2 ^ 32 - 1)) = true := by decide
        simp only [hv, if_true]
        rw [h2, Option.bind_some]
        dsimp only
        rw [if_pos (and31_small (by omega))]
        simp only [readRef]
        rw [if_neg (by omega), if_neg (by omega), (hrel.obj i ref hl hri).1]
        rfl
      | none =>
        simp only [hl] at he
        obtain ⟨d, hd, hfol⟩ := hg.readable i hPi
        have hnul := hg.name_nul i hPi
        have htP : ∀ j ∈ (G i).parts.targets, P j ∧ rank j < rank i := fun j hj =>
          ⟨hg.closed i j hPi hj, hg.acyclic i j hPi hj⟩
        cases hc : st.classes.lookup (G i).cls with
        | none =>
          simp only [hc, Option.bind_eq_some_iff, Option.some.injEq, Prod.mk.injEq] at he
          obtain ⟨q, hq, rfl, rfl⟩ := he
          rw [cname_eq hnul] at hq hlt ⊢
          simp only [List.length_append, length_beEnc, List.length_singleton] at hlt
          have hrel1 : Rel G rank (rank i)
              ⟨(i, pos + 2) :: st.objs, ((G i).cls, (pos + 6) ||| 2 ^ 31) :: st.classes⟩
              (put refs (pos + 6) (.cls (G i).cls)) (heap ++ [⟨(G i).cls, .nil⟩])
              (fun j => if j = i then heap.length else φ j) (pos + 8 + ((G i).cls.length + 1)) := by
            have hk : ∀ k, (st.objs.lookup k).isSome →
                (if k = i then heap.length else φ k) = φ k := by
              intro k hk
              rw [if_neg]
              intro e; subst e; rw [hl] at hk; cases hk
            refine { obj := ?_, bnd := ?_, cls := ?_, inj := ?_ }
            · intro j p hj hr
              have hne : j ≠ i := by intro e; subst e; omega
              dsimp only at hj
              rw [lookup_miss _ _ hne] at hj
              obtain ⟨x, y, z⟩ := hrel.obj j p hj (by omega)
              have := (hrel.bnd j p hj).2
              refine ⟨?_, ?_, ?_⟩
              · rw [put_other _ _ (by omega), x, if_neg hne]
              · rw [if_neg hne, List.getElem?_append_left (List.getElem?_eq_some_iff.mp y).1, y]
                congr 2
                exact (rename_congr _ (fun k hk' => hk k (z k hk'))).symm
              · intro k hk'
                by_cases e : k = i
                · subst e; simp
                · rw [lookup_miss _ _ e]; exact z k hk'
            · intro j p hj
              by_cases e : j = i
              · subst e; dsimp only at hj; rw [lookup_hit] at hj; cases hj; omega
              · dsimp only at hj; rw [lookup_miss _ _ e] at hj
                have := hrel.bnd j p hj; omega
            · intro c qq hcq
              by_cases e : c = (G i).cls
              · subst e; dsimp only at hcq; rw [lookup_hit] at hcq; cases hcq
                exact ⟨pos + 6, rfl, put_self _ _ _, by omega⟩
              · dsimp only at hcq; rw [lookup_miss _ _ e] at hcq
                obtain ⟨p, x, y, z⟩ := hrel.cls c qq hcq
                exact ⟨p, x, by rw [put_other _ _ (by omega), y], by omega⟩
            · intro j k hj hk' rj rk hjk
              have hnj : j ≠ i := by intro e; subst e; omega
              have hnk : k ≠ i := by intro e; subst e; omega
              dsimp only at hj hk' hjk
              rw [lookup_miss _ _ hnj] at hj
              rw [lookup_miss _ _ hnk] at hk'
              rw [if_neg hnj, if_neg hnk] at hjk
              exact hrel.inj j k hj hk' (by omega) (by omega) hjk
          obtain ⟨refsI, heapI, φI, e, hS, ht⟩ := readDec_spec ih hfol (rank i) _ _ q.1 q.2 htP hq
            (by omega)
            (pre ++ beEnc 4 (2 ^ 30 + (4 + ((G i).cls.length + 1) + q.1.length)) ++
              (beEnc 4 (2 ^ 32 - 1) ++ ((G i).cls ++ [0]))) post hid off _ _ _
            (by simp; omega) hrel1
          have hφI : φI i = heap.length := by
            rw [(hS.ext i (pos + 2) (lookup_hit _ _ _)).2]; simp
          have hqi : q.2.objs.lookup i = some (pos + 2) := (hS.ext i (pos + 2) (lookup_hit _ _ _)).1
          have hfin := finish (stF := q.2) (refsF := put refsI (pos + 2) (.obj heap.length)) (φF := φI)
            hrel hri hl hS (by omega)
            (fun j hj => ⟨by dsimp only; rw [lookup_miss _ _ hj], by rw [if_neg hj]⟩)
            (fun c qq hcq => by
              by_cases e : c = (G i).cls
              · subst e; dsimp only at hcq; rw [lookup_hit] at hcq; cases hcq
                exact Or.inr ⟨rfl, put_self _ _ _⟩
              · dsimp only at hcq; rw [lookup_miss _ _ e] at hcq
                exact Or.inl hcq)
            (fun k hk => put_other _ _ (by omega)) hqi (fun j _ => rfl) rfl (put_self _ _ _)
            (fun k hk => put_other _ _ hk) hφI (fun _ _ => rfl) ht
          refine ⟨put refsI (pos + 2) (.obj heap.length),
            heapI.set heap.length ⟨(G i).cls, (G i).parts.rename φI⟩, φI, ?_, ?_,
            fun j hj => by cases hj; rw [hqi]; rfl⟩
          rotate_left
          · simp only [List.length_append, length_beEnc, List.length_singleton]
            rw [show pos + (4 + (4 + ((G i).cls.length + 1) + q.1.length))
              = pos + 8 + ((G i).cls.length + 1) + q.1.length by omega]
            exact hfin
          have h1 := readBE_parses_enc (k := 4)
            (n := 2 ^ 30 + (4 + ((G i).cls.length + 1) + q.1.length)) (by omega) pre
            (beEnc 4 (2 ^ 32 - 1) ++ (((G i).cls ++ [0]) ++ (q.1 ++ post))) hid off
          have h2 := readBE_parses_enc (k := 4) (n := 2 ^ 32 - 1) (by decide)
            (pre ++ beEnc 4 (2 ^ 30 + (4 + ((G i).cls.length + 1) + q.1.length)))
            (((G i).cls ++ [0]) ++ (q.1 ++ post)) hid off
          have h3 := readCString_parses (hg.name_len i hPi) hnul
            (pre ++ beEnc 4 (2 ^ 30 + (4 + ((G i).cls.length + 1) + q.1.length)) ++
              beEnc 4 (2 ^ 32 - 1)) (q.1 ++ post) hid off
          have hv : (!((2 ^ 30 + (4 + ((G i).cls.length + 1) + q.1.length)) &&& 2 ^ 30 == 0 ||
              2 ^ 30 + (4 + ((G i).cls.length + 1) + q.1.length) == 2 ^ 32 - 1)) = true := by
            have := and30_cnt (n := 4 + ((G i).cls.length + 1) + q.1.length) (by omega)
            simp only [Bool.not_eq_true', Bool.or_eq_false_iff, beq_eq_false_iff_ne]
            exact ⟨this, by omega⟩
          generalize hN : 2 ^ 30 + (4 + ((G i).cls.length + 1) + q.1.length) = N at *
          simp only [List.append_assoc, List.length_append, length_beEnc,
            List.length_singleton] at h1 h2 h3 e ⊢
          simp only [readAny, Bool.false_eq_true, if_false]
          rw [h1, Option.bind_some]
          simp only [hv, if_true]
          rw [h2, Option.bind_some]
          dsimp only
          rw [if_neg (by decide), if_pos rfl]
          simp only [readNew]
          rw [Nat.add_assoc] at h3 ⊢
          rw [h3, Option.bind_some, hd, Option.bind_some]
          simp only [if_true]
          have hp : RBuf.pos ⟨pre ++ (beEnc 4 N ++ (beEnc 4 (2 ^ 32 - 1) ++ ((G i).cls ++ ([0] ++
              (q.1 ++ post))))), hid, pre.length + 4, off, false⟩ + 2 = pos + 6 := by
            simp only [RBuf.pos]; omega
          have hp0 : RBuf.pos ⟨pre ++ (beEnc 4 N ++ (beEnc 4 (2 ^ 32 - 1) ++ ((G i).cls ++ ([0] ++
              (q.1 ++ post))))), hid, pre.length, off, false⟩ = pos := hpos
          rw [hp, hp0]
          have hlen : pre.length + (4 + 4 + ((G i).cls.length + 1))
            = pre.length + (4 + (4 + ((G i).cls.length + 1))) := by omega
          rw [hlen, e, Option.bind_some]
          dsimp only
          simp [hφI]
          omega
        | some ref =>
          simp only [hc, Option.bind_eq_some_iff, Option.some.injEq, Prod.mk.injEq] at he
          obtain ⟨q, hq, rfl, rfl⟩ := he
          simp only [List.length_append, length_beEnc] at hlt
          obtain ⟨p, rfl, hpl, hpp⟩ := hrel.cls _ _ hc
          have htag : (p ||| 2 ^ 31) ||| 2 ^ 31 = 2 ^ 31 + p := by
            rw [Nat.or_assoc, Nat.or_self, or31 (by omega)]
          rw [htag] at *
          have hrel1 : Rel G rank (rank i) st (put refs (pos + 2) (.obj heap.length))
              (heap ++ [⟨(G i).cls, .nil⟩]) φ (pos + 8) := by
            refine { obj := ?_, bnd := ?_, cls := ?_, inj := ?_ }
            · intro j p hj hr
              obtain ⟨x, y, z⟩ := hrel.obj j p hj (by omega)
              have := (hrel.bnd j p hj).2
              exact ⟨by rw [put_other _ _ (by omega), x],
                by rw [List.getElem?_append_left (List.getElem?_eq_some_iff.mp y).1, y], z⟩
            · intro j p hj
              have := hrel.bnd j p hj; omega
            · intro c qq hcq
              obtain ⟨p, x, y, z⟩ := hrel.cls c qq hcq
              exact ⟨p, x, by rw [put_other _ _ (by omega), y], by omega⟩
            · intro j k hj hk' rj rk hjk
              exact hrel.inj j k hj hk' (by omega) (by omega) hjk
          obtain ⟨refsI, heapI, φI, e, hS, ht⟩ := readDec_spec ih hfol (rank i) _ _ q.1 q.2 htP hq
            (by omega)
            (pre ++ beEnc 4 (2 ^ 30 + (4 + q.1.length)) ++ beEnc 4 (2 ^ 31 + p)) post hid off _ _ _
            (by simp; omega) hrel1
          have hqi : q.2.objs.lookup i = none := by
            cases h : q.2.objs.lookup i with
            | none => rfl
            | some x =>
              rcases hS.new i x h with a | ⟨_, a, _⟩
              · rw [hl] at a; cases a
              · omega
          have hRi : refsI.lookup (pos + 2) = some (.obj heap.length) := by
            rw [hS.frame _ (by omega), put_self]
          have hfin := finish (stF := { q.2 with objs := (i, pos + 2) :: q.2.objs })
            (refsF := refsI) (φF := fun j => if j = i then heap.length else φI j)
            hrel hri hl hS (by omega) (fun j hj => ⟨rfl, rfl⟩) (fun c qq hcq => Or.inl hcq)
            (fun k hk => put_other _ _ (by omega)) (lookup_hit _ _ _)
            (fun j hj => lookup_miss _ _ hj) rfl hRi (fun k hk => rfl) (by simp)
            (fun j hj => by
              rw [if_neg]
              intro e; subst e; rw [hqi] at hj; cases hj) ht
          refine ⟨refsI, heapI.set heap.length ⟨(G i).cls, (G i).parts.rename φI⟩,
            fun j => if j = i then heap.length else φI j, ?_, ?_,
            fun j hj => by cases hj; simp⟩
          rotate_left
          · simp only [List.length_append, length_beEnc]
            rw [show pos + (4 + (4 + q.1.length)) = pos + 8 + q.1.length by omega]
            exact hfin
          have h1 := readBE_parses_enc (k := 4) (n := 2 ^ 30 + (4 + q.1.length)) (by omega) pre
            (beEnc 4 (2 ^ 31 + p) ++ (q.1 ++ post)) hid off
          have h2 := readBE_parses_enc (k := 4) (n := 2 ^ 31 + p) (by omega)
            (pre ++ beEnc 4 (2 ^ 30 + (4 + q.1.length))) (q.1 ++ post) hid off
          have hv : (!((2 ^ 30 + (4 + q.1.length)) &&& 2 ^ 30 == 0 ||
              2 ^ 30 + (4 + q.1.length) == 2 ^ 32 - 1)) = true := by
            have := and30_cnt (n := 4 + q.1.length) (by omega)
            simp only [Bool.not_eq_true', Bool.or_eq_false_iff, beq_eq_false_iff_ne]
            exact ⟨this, by omega⟩
          generalize hN : 2 ^ 30 + (4 + q.1.length) = N at *
          simp only [List.append_assoc, List.length_append, length_beEnc] at h1 h2 e ⊢
          simp only [readAny, Bool.false_eq_true, if_false]
          rw [h1, Option.bind_some]
          simp only [hv, if_true]
          rw [h2, Option.bind_some]
          dsimp only
          rw [if_neg (and31_big (by omega)), if_neg (by omega)]
          rw [show (2 ^ 31 + p) % 2 ^ 31 = p by rw [Nat.add_mod_left, Nat.mod_eq_of_lt (by omega)]]
          simp only [readKnown]
          rw [hpl]
          dsimp only
          rw [hd, Option.bind_some]
          simp only [if_true]
          have hp0 : RBuf.pos ⟨pre ++ (beEnc 4 N ++ (beEnc 4 (2 ^ 31 + p) ++ (q.1 ++ post))),
              hid, pre.length, off, false⟩ = pos := hpos
          rw [hp0, Nat.add_assoc pre.length 4 4, e, Option.bind_some]
          simp
          omega

end

end Verif.RBytes.Refs
