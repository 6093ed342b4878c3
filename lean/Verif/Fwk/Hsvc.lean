/-!
# The histogram service (fwk/hbooksvc/hsvc.go)

Histograms are booked in the service with a name, made of a stream and an identifier, and are filled by identifier.
`N` is what a fill adds to a histogram.
-/

namespace Verif.Fwk

/-- `strings.Split(n, "/")`. -/
def splitSlash : List Char → List (List Char)
  | [] => [[]]
  | c :: cs =>
    if c = '/' then [] :: splitSlash cs
    else
      match splitSlash cs with
      | [] => [[c]]
      | w :: ws => (c :: w) :: ws

/-- `strings.Join(o, "/")`. -/
def joinSlash : List (List Char) → List Char
  | [] => []
  | [w] => w
  | w :: ws => w ++ '/' :: joinSlash ws

/-- `strings.TrimPrefix(n, "/")`. -/
def trimPrefix : List Char → List Char
  | '/' :: cs => cs
  | cs => cs

/-- `strings.TrimSuffix(n, "/")`. -/
def trimSuffix (cs : List Char) : List Char := (trimPrefix cs.reverse).reverse

/-- fwk/hbooksvc/hsvc.go:386-402 (`split`). -/
def splitName (n : List Char) : List Char × List Char :=
  match splitSlash (trimSuffix (trimPrefix n)) with
  | [] => ([], [])
  | [h] => ([], h)
  | s :: rest => (s, joinSlash rest)

/-- The service: `objs` are the histograms which were booked (in the order of booking, with the stream they are saved
to and what they were filled with), `ids` the map of identifiers, fwk/hbooksvc/hsvc.go:39-51 (`hsvc`). -/
structure Hsvc (N : Type) where
  objs : List (List Char × List N)
  ids : List Char → Option Nat

/-- fwk/hbooksvc/hsvc.go:151-204 (`BookH1D`), for a temporary histogram or a write stream which exists: returns the
identifier. -/
def Hsvc.book {N : Type} (s : Hsvc N) (name : List Char) : Hsvc N × List Char :=
  let (stream, hid) := splitName name
  (⟨s.objs ++ [(stream, [])], fun i => if i = hid then some s.objs.length else s.ids i⟩, hid)

/-- fwk/hbooksvc/hsvc.go:404-409 (`FillH1D`): `none` is the panic for an unknown identifier. Fills are serialized by a mutex. -/
def Hsvc.fill {N : Type} (s : Hsvc N) (hid : List Char) (x : N) : Option (Hsvc N) :=
  (s.ids hid).map fun i => { s with objs := s.objs.modify i fun o => (o.1, o.2 ++ [x]) }

/-- Booking a list of names, in order. -/
def Hsvc.bookAll {N : Type} (s : Hsvc N) : List (List Char) → Hsvc N × List (List Char)
  | [] => (s, [])
  | n :: ns => let r := s.book n; let r' := r.1.bookAll ns; (r'.1, r.2 :: r'.2)

def Hsvc.fillAll {N : Type} (s : Hsvc N) : List (List Char × N) → Option (Hsvc N)
  | [] => some s
  | (h, x) :: fs => (s.fill h x).bind fun s' => s'.fillAll fs

def Hsvc.new (N : Type) : Hsvc N := ⟨[], fun _ => none⟩

theorem bookAll_spec {N : Type} : ∀ (ns : List (List Char)) (s : Hsvc N),
    (s.bookAll ns).1.objs = s.objs ++ ns.map (fun n => ((splitName n).1, [])) ∧ (s.bookAll ns).2 = ns.map (fun n => (splitName n).2) ∧
    (∀ h, h ∉ ns.map (fun n => (splitName n).2) → (s.bookAll ns).1.ids h = s.ids h) ∧
    ((ns.map (fun n => (splitName n).2)).Nodup → ∀ i (hi : i < ns.length),
      (s.bookAll ns).1.ids (splitName ns[i]).2 = some (s.objs.length + i)) := by
  intro ns
  induction ns with
  | nil => intro s; simp [Hsvc.bookAll]
  | cons n ns ih =>
    intro s
    obtain ⟨h1, h2, h3, h4⟩ := ih (s.book n).1
    simp only [Hsvc.bookAll]
    refine ⟨?_, ?_, ?_, ?_⟩
    · rw [h1]; simp [Hsvc.book]
    · rw [h2]; simp [Hsvc.book]
    · intro h hh
      simp only [List.map_cons, List.mem_cons, not_or] at hh
      rw [h3 h hh.2]
      simp [Hsvc.book, hh.1]
    · intro hnd i hi
      simp only [List.map_cons, List.nodup_cons] at hnd
      cases i with
      | zero =>
        simp only [List.getElem_cons_zero]
        rw [h3 _ hnd.1]
        simp [Hsvc.book]
      | succ i =>
        simp only [List.getElem_cons_succ]
        rw [h4 hnd.2 i (by simpa using hi)]
        simp only [Hsvc.book, List.length_append, List.length_singleton]
        congr 1; omega

theorem fillAll_spec {N : Type} (hids : List (List Char)) : ∀ (fs : List (List Char × N)) (s : Hsvc N),
    (∀ i (hi : i < hids.length), s.ids hids[i] = some i) → hids.Nodup → s.objs.length = hids.length → (∀ f ∈ fs, f.1 ∈ hids) →
    ∃ s', s.fillAll fs = some s' ∧ s'.objs.length = hids.length ∧ ∀ i (hi : i < hids.length),
      s'.objs[i]? = (s.objs[i]?).map fun o => (o.1, o.2 ++ (fs.filter fun f => f.1 = hids[i]).map Prod.snd) := by
  intro fs
  induction fs with
  | nil =>
    intro s _ _ hl _
    refine ⟨s, rfl, hl, ?_⟩
    intro i hi
    simp
  | cons f fs ih =>
    intro s hid hnd hl hmem
    obtain ⟨h, x⟩ := f
    have hm : h ∈ hids := hmem (h, x) (by simp)
    obtain ⟨j, hj, rfl⟩ := List.getElem_of_mem hm
    have hfill : s.fill hids[j] x = some { s with objs := s.objs.modify j fun o => (o.1, o.2 ++ [x]) } := by
      simp [Hsvc.fill, hid j hj]
    obtain ⟨s', h1, h2, h3⟩ := ih { s with objs := s.objs.modify j fun o => (o.1, o.2 ++ [x]) } hid hnd (by simp [hl])
      (fun f hf => hmem f (List.mem_cons_of_mem _ hf))
    refine ⟨s', ?_, h2, ?_⟩
    · simp only [Hsvc.fillAll, hfill, Option.bind_some, h1]
    · intro i hi
      rw [h3 i hi, List.getElem?_modify]
      by_cases hij : j = i
      · subst hij
        cases s.objs[j]? <;> simp
      · have hne : hids[j] ≠ hids[i] := by
          intro e
          have hp := List.pairwise_iff_getElem.mp hnd
          rcases Nat.lt_trichotomy j i with hlt | heq | hlt
          · exact hp j i hj hi hlt e
          · exact hij heq
          · exact hp i j hi hj hlt e.symm
        cases s.objs[i]? <;> simp [hij, hne]

/-- C77: if the histograms have distinct identifiers (the part of the name after the stream), each of them holds in the
end exactly what was filled with its identifier, in order, and is saved to the stream of its name. -/
theorem C77_fills_partial {N : Type} (ns : List (List Char)) (hd : (ns.map fun n => (splitName n).2).Nodup)
    (fs : List (List Char × N)) (hf : ∀ f ∈ fs, f.1 ∈ ((Hsvc.new N).bookAll ns).2) :
    ∃ s, ((Hsvc.new N).bookAll ns).1.fillAll fs = some s ∧ s.objs.length = ns.length ∧ ∀ i (hi : i < ns.length),
      s.objs[i]? = some ((splitName ns[i]).1, (fs.filter fun f => f.1 = (splitName ns[i]).2).map Prod.snd) := by
  obtain ⟨h1, h2, _, h4⟩ := bookAll_spec ns (Hsvc.new N)
  rw [h2] at hf
  obtain ⟨s, a, b, c⟩ := fillAll_spec (ns.map fun n => (splitName n).2) fs ((Hsvc.new N).bookAll ns).1
    (by
      intro i hi
      have := h4 hd i (by simpa using hi)
      simpa [Hsvc.new] using this)
    hd (by rw [h1]; simp [Hsvc.new]) hf
  refine ⟨s, a, by simpa using b, ?_⟩
  intro i hi
  rw [c i (by simpa using hi), h1]
  simp [Hsvc.new, hi]

/-- C77 fails if two streams have a histogram of the same name: the second is filled instead of the first, which stays
empty. -/
theorem C77_same_name_counterexample :
    (((Hsvc.new Nat).bookAll ["/a/pt".toList, "/b/pt".toList]).1.fillAll [("pt".toList, 1), ("pt".toList, 2)]).map Hsvc.objs =
      some [("a".toList, []), ("b".toList, [1, 2])] ∧
    ((Hsvc.new Nat).bookAll ["/a/pt".toList, "/b/pt".toList]).2 = ["pt".toList, "pt".toList] := by
  constructor <;> rfl

theorem splitSlash_noslash : ∀ (s : List Char), '/' ∉ s → splitSlash s = [s]
  | [], _ => rfl
  | c :: cs, h => by
    simp only [List.mem_cons, not_or] at h
    simp only [splitSlash, if_neg (Ne.symm h.1), splitSlash_noslash cs h.2]

theorem splitSlash_append : ∀ (s rest : List Char), '/' ∉ s → splitSlash (s ++ '/' :: rest) = s :: splitSlash rest
  | [], rest, _ => by simp [splitSlash]
  | c :: cs, rest, h => by
    simp only [List.mem_cons, not_or] at h
    simp only [List.cons_append, splitSlash, if_neg (Ne.symm h.1), splitSlash_append cs rest h.2]

theorem splitSlash_ne : ∀ s : List Char, splitSlash s ≠ []
  | [] => by simp [splitSlash]
  | c :: cs => by
    simp only [splitSlash]
    split
    · simp
    · split <;> simp

theorem join_split : ∀ s : List Char, joinSlash (splitSlash s) = s
  | [] => rfl
  | c :: cs => by
    simp only [splitSlash]
    have ih := join_split cs
    have hne := splitSlash_ne cs
    split
    · rename_i hc
      match hs : splitSlash cs with
      | [] => exact absurd hs hne
      | w :: ws => rw [hs] at ih; simp only [joinSlash, ih, List.nil_append, hc]
    · match hs : splitSlash cs with
      | [] => exact absurd hs hne
      | [w] => rw [hs] at ih; simp only [joinSlash] at ih ⊢; rw [ih]
      | w :: w' :: ws => rw [hs] at ih; simp only [joinSlash] at ih ⊢; rw [List.cons_append, ih]

theorem trimSuffix_id (s : List Char) (h : s.getLast? ≠ some '/') : trimSuffix s = s := by
  unfold trimSuffix
  have : trimPrefix s.reverse = s.reverse := by
    cases hs : s.reverse with
    | nil => rfl
    | cons c cs =>
      have hc : c ≠ '/' := by
        intro e
        apply h
        rw [← List.head?_reverse, hs, e]; rfl
      unfold trimPrefix
      split
      · rename_i heq; cases heq; exact absurd rfl hc
      · rfl
  rw [this, List.reverse_reverse]

/-- C77: the name `/stream/path` designates the histogram `path` of the stream. -/
theorem C77_name (stream path : List Char) (h1 : '/' ∉ stream) (h3 : path ≠ []) (h4 : path.getLast? ≠ some '/') :
    splitName ('/' :: (stream ++ '/' :: path)) = (stream, path) := by
  unfold splitName
  have hl : (stream ++ '/' :: path).getLast? ≠ some '/' := by
    rw [List.getLast?_append]
    cases path with
    | nil => exact absurd rfl h3
    | cons c cs =>
      have : ('/' :: c :: cs).getLast? = (c :: cs).getLast? := rfl
      rw [this]
      cases hg : (c :: cs).getLast? with
      | none => simp at hg
      | some x => rw [hg] at h4; simpa using h4
  rw [show trimPrefix ('/' :: (stream ++ '/' :: path)) = stream ++ '/' :: path from rfl, trimSuffix_id _ hl, splitSlash_append _ _ h1]
  have hne := splitSlash_ne path
  have hj := join_split path
  match hs : splitSlash path with
  | [] => exact absurd hs hne
  | w :: ws => rw [hs] at hj; simp [hj]

example : splitName "/out/jets/pt".toList = ("out".toList, "jets/pt".toList) := C77_name "out".toList "jets/pt".toList (by decide) (by decide) (by decide)

example : ∃ s, ((Hsvc.new Nat).bookAll ["/a/pt".toList, "/b/eta".toList]).1.fillAll [("eta".toList, 1), ("pt".toList, 2), ("eta".toList, 3)] =
    some s ∧ s.objs = [("a".toList, [2]), ("b".toList, [1, 3])] := ⟨_, rfl, rfl⟩

end Verif.Fwk
