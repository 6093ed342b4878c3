import Verif.Rdict.OpsProps
import Verif.Rdict.GoType

/-!
# Streamer infos compiled for reading and writing
-/

namespace Verif.Rdict

open Verif.RBytes

/-! ## The readers do not look at the versions inside maps -/

mutual
/-- The operation without the versions written inside maps. -/
def Op.erase : Op → Op
  | .prim k => .prim k
  | .str => .str
  | .array n o => .array n o.erase
  | .slice o => .slice o.erase
  | .typed o => .typed o.erase
  | .map kh _ k vh _ o => .map kh 0 k vh 0 o.erase
  | .bitset n => .bitset n
  | .cat vers fs => .cat vers fs.erase
def Flds.erase : Flds → Flds
  | .nil => .nil
  | .plain o rest => .plain o.erase rest.erase
  | .varr k path rest => .varr k path rest.erase
  | .loop path o rest => .loop path o.erase rest.erase
end

mutual
theorem zero_erase : ∀ o : Op, o.erase.zero = o.zero
  | .prim _ => rfl
  | .str => rfl
  | .array n o => by simp only [Op.erase, Op.zero, zero_erase o]
  | .slice o => rfl
  | .typed o => by simp only [Op.erase, Op.zero, zero_erase o]
  | .map .. => rfl
  | .bitset _ => rfl
  | .cat _ fs => by simp only [Op.erase, Op.zero, zeros_erase fs]
theorem zeros_erase : ∀ fs : Flds, fs.erase.zeros = fs.zeros
  | .nil => rfl
  | .plain o rest => by simp only [Flds.erase, Flds.zeros, zero_erase o, zeros_erase rest]
  | .varr _ _ rest => by simp only [Flds.erase, Flds.zeros, zeros_erase rest]
  | .loop _ _ rest => by simp only [Flds.erase, Flds.zeros, zeros_erase rest]
end

mutual
theorem rrun_erase : ∀ o : Op, rrun o.erase = rrun o
  | .prim _ => rfl
  | .str => rfl
  | .array n o => by funext v r; simp only [Op.erase, rrun, rrun_erase o]
  | .slice o => by funext v r; simp only [Op.erase, rrun, rrun_erase o, zero_erase o]
  | .typed o => by funext v r; simp only [Op.erase, rrun, rrun_erase o]
  | .map kh _ k vh _ o => by funext v r; simp only [Op.erase, rrun, rrun_erase o, zero_erase o]
  | .bitset _ => rfl
  | .cat _ fs => by funext v r; simp only [Op.erase, rrun, rflds_erase fs]
theorem rflds_erase : ∀ fs : Flds, rflds fs.erase = rflds fs
  | .nil => rfl
  | .plain o rest => by funext i v r; simp only [Flds.erase, rflds, rrun_erase o, rflds_erase rest]
  | .varr _ _ rest => by funext i v r; simp only [Flds.erase, rflds, rflds_erase rest]
  | .loop _ o rest => by funext i v r; simp only [Flds.erase, rflds, rrun_erase o, zero_erase o, rflds_erase rest]
end

theorem keyOp_erase (o : Op) : keyOp o.erase = keyOp o := by cases o <;> rfl

theorem stdMap_agree (k v : List Char) (kq vq : Op × BitVec 16) :
    stdMapR k v kq.1.erase vq.1.erase = (stdMapW k v kq vq).map Op.erase := by
  simp only [stdMapR, stdMapW, keyOp_erase, Option.map_map]
  rfl

/-- The two ways to look up the operation of a type. -/
def Agree (w : FromW) (r : FromR) : Prop := ∀ n v e, r n v e = (w n v e).map fun q => q.1.erase

theorem makeSTL_agree {w : FromW} {r : FromR} (h : Agree w r) (st : STL) (ct : Option Enum) (ename : List Char) :
    makeSTLR r st ct ename = (makeSTLW w st ct ename).map Op.erase := by
  simp only [makeSTLR, makeSTLW]
  cases cxxTemplateFrom ename with
  | none => rfl
  | some t =>
    obtain ⟨hd, args⟩ := t
    simp only [Option.bind_some]
    match st, args with
    | .seq, [] => rfl
    | .seq, a :: _ => simp only [h a, Option.map_map]; rfl
    | .set, [] => rfl
    | .set, a :: _ => simp only [h a, Option.map_map]; rfl
    | .map, [] => rfl
    | .map, [_] => rfl
    | .map, k :: v :: _ =>
      simp only [h k, h v]
      cases w k (-1) ct with
      | none => rfl
      | some kq =>
        cases w v (-1) ct with
        | none => rfl
        | some vq => exact stdMap_agree k v kq vq
    | .bitset, [] => rfl
    | .bitset, a :: _ => simp only [Option.map_map]; rfl

theorem make_agree {w : FromW} {r : FromR} (h : Agree w r) (path : List Nat) (rest : Flds) (e : Elem) :
    makeR r path rest.erase e = (makeW w path rest e).map Flds.erase := by
  cases e with
  | base n v => simp only [makeR, makeW, h n, Option.map_map]; rfl
  | basic n k => rfl
  | counter n s => simp only [makeR, makeW]; split <;> [rfl; split <;> rfl]
  | str n => rfl
  | stlstr n => rfl
  | stl n st ct en => simp only [makeR, makeW, makeSTL_agree h, Option.map_map]; rfl
  | arrBasic n m k => rfl
  | arrStr n m => rfl
  | arrAny n m en => simp only [makeR, makeW, h en, Option.map_map]; rfl
  | any n en => simp only [makeR, makeW, h en, Option.map_map]; rfl
  | varr n k c => rfl
  | loop n en c cc => simp only [makeR, makeW, h (trimStars en), Option.map_map]; rfl

theorem buildElems_agree {w : FromW} {r : FromR} (h : Agree w r) (ctx : Ctx) (fuel : Nat) (si : Streamer) :
    ∀ es : List Elem, buildElemsR r ctx fuel si es = (buildElemsW w ctx fuel si es).map Flds.erase
  | [] => rfl
  | e :: es => by
    simp only [buildElemsR, buildElemsW, buildElems_agree h ctx fuel si es]
    cases (methodOf ctx fuel si e).bind id with
    | none => rfl
    | some path =>
      cases buildElemsW w ctx fuel si es with
      | none => rfl
      | some rest => exact make_agree h path rest e

theorem func_agree (e : Enum) : ropFuncFor e = ((wopFuncFor e).map fun o => (o, (-1 : BitVec 16))).map fun q => q.1.erase := by
  cases e <;> rfl

theorem from_agree (ctx : Ctx) : ∀ f : Nat, Agree (wopFrom ctx f) (ropFrom ctx f)
  | 0 => fun _ _ _ => rfl
  | f + 1 => by
    have ih := from_agree ctx f
    intro n v e
    simp only [wopFrom, ropFrom]
    cases typeName2Enum n with
    | some e => exact func_agree e
    | none =>
      cases e with
      | some e => exact func_agree e
      | none =>
        simp only []
        split
        · cases cxxTemplateFrom n with
          | none => rfl
          | some t =>
            simp only [Option.bind_some]
            cases t.2.head? with
            | none => rfl
            | some a => simp only [Option.bind_some, ih a, Option.map_map]; rfl
        split
        · cases cxxTemplateFrom n with
          | none => rfl
          | some t =>
            simp only [Option.bind_some]
            cases t.2.head? with
            | none => rfl
            | some a => simp only [Option.bind_some, ih a, Option.map_map]; rfl
        split
        · cases cxxTemplateFrom n with
          | none => rfl
          | some t =>
            simp only [Option.bind_some]
            cases t.2.head? with
            | none => rfl
            | some k =>
              simp only [Option.bind_some]
              cases t.2[1]? with
              | none => rfl
              | some v =>
                simp only [Option.bind_some, ih k, ih v]
                cases wopFrom ctx f k (-1) none with
                | none => rfl
                | some kq =>
                  cases wopFrom ctx f v (-1) none with
                  | none => rfl
                  | some vq =>
                    simp only [Option.bind_some, Option.map_some, stdMap_agree, Option.map_map]
                    rfl
        split
        · cases cxxTemplateFrom n with
          | none => rfl
          | some t =>
            simp only [Option.bind_some]
            cases t.2.head? with
            | none => rfl
            | some a => simp only [Option.bind_some, Option.map_map]; rfl
        · cases ctx.db n v with
          | none => rfl
          | some esi =>
            simp only [Option.bind_some]
            split
            · rfl
            · simp only [buildElems_agree ih, Option.map_map]; rfl

/-- Reader and writer of one streamer info are compiled for the same types, and
the reader has the operations of the writer. -/
theorem build_agree (ctx : Ctx) (fuel : Nat) (si : Streamer) :
    buildR ctx fuel si = (buildW ctx fuel si).map fun i => ⟨i.vers, i.fs.erase⟩ := by
  simp only [buildR, buildW, buildElems_agree (from_agree ctx fuel), Option.map_map]
  rfl

/-! ## Claims: encoders and decoders of one streamer info -/

variable (range : (Key → Option Val) → List (Key × Val))

theorem countersFound_of {w : FromW} {ctx : Ctx} {fuel : Nat} {si : Streamer} :
    ∀ {es : List Elem} {fs : Flds}, buildElemsW w ctx fuel si es = some fs →
      (es.all fun e => ((methodOf ctx fuel si e).bind id).isSome) = true
  | [], _, _ => rfl
  | e :: es, fs, h => by
    simp only [buildElemsW] at h
    cases hm : (methodOf ctx fuel si e).bind id with
    | none => rw [hm] at h; cases h
    | some path =>
      rw [hm] at h
      simp only [Option.bind_some] at h
      cases hb : buildElemsW w ctx fuel si es with
      | none => rw [hb] at h; cases h
      | some rest => simp only [List.all_cons, hm, Option.isSome_some, Bool.true_and, countersFound_of hb]

/-- A streamer info that has not been used yet. -/
def SI.fresh (si : Streamer) : SI := ⟨si, false, .nil, .nil⟩

/-- A streamer info that can be compiled for writing at all gives an encoder and
a decoder, in whatever order they are asked for and however often, and what
the encoder writes is what the decoder reads: every value of the type, into any
receiver with empty maps and counted object arrays. -/
theorem C99_codec_roundtrip_partial (ctx : Ctx) (fuel : Nat) (si : Streamer) (enc : Info)
    (h : buildW ctx fuel si = some enc) :
    ∃ dec s, (SI.fresh si).newEncoder ctx fuel = some (some enc, s) ∧
      (SI.fresh si).newDecoder ctx fuel = some (some dec, s) ∧
      s.newEncoder ctx fuel = some (some enc, s) ∧ s.newDecoder ctx fuel = some (some dec, s) ∧
      enc.vers = si.vers ∧
      ∀ v old, Has range (.cat enc.vers enc.fs) v → Recv (.cat enc.vers enc.fs) old →
        RoundTrip (encode range enc v) (decode dec old) v := by
  have hc : countersFound ctx fuel si = true := by
    simp only [buildW] at h
    cases hb : buildElemsW (wopFrom ctx fuel) ctx fuel si si.elems with
    | none => rw [hb] at h; cases h
    | some fs => exact countersFound_of hb
  have hv : enc.vers = si.vers := by
    simp only [buildW] at h
    cases hb : buildElemsW (wopFrom ctx fuel) ctx fuel si si.elems with
    | none => rw [hb] at h; cases h
    | some fs => rw [hb] at h; cases h; rfl
  have hr := build_agree ctx fuel si
  rw [h] at hr
  have hb : (SI.fresh si).buildStreamers ctx fuel = some (true, ⟨si, true, enc.fs, enc.fs.erase⟩) := by
    simp only [SI.buildStreamers, SI.fresh]
    simp only [hc, h, hr]
    rfl
  have hb' : (SI.mk si true enc.fs enc.fs.erase).buildStreamers ctx fuel =
      some (true, ⟨si, true, enc.fs, enc.fs.erase⟩) := rfl
  have he : (⟨si.vers, enc.fs⟩ : Info) = enc := by cases enc; cases hv; rfl
  refine ⟨⟨si.vers, enc.fs.erase⟩, ⟨si, true, enc.fs, enc.fs.erase⟩, ?_, ?_, ?_, ?_, hv, ?_⟩
  · simp only [SI.newEncoder, hb, Option.map_some, if_true, he]
  · simp only [SI.newDecoder, hb, Option.map_some, if_true]
  · simp only [SI.newEncoder, hb', Option.map_some, if_true, he]
  · simp only [SI.newDecoder, hb', Option.map_some, if_true]
  · intro v old hv' ho
    have hd : decode ⟨si.vers, enc.fs.erase⟩ old = decode enc old := by
      funext r
      have := rrun_erase (.cat si.vers enc.fs)
      simp only [Op.erase] at this
      simp only [decode, this, hv]
    rw [hd]
    exact (C97_struct_roundtrip_partial range enc v old hv' ho).1

theorem wopFrom_known (ctx : Ctx) (g : Nat) (name : List Char) (e : Enum) (o : Op) (v : Int) (ct : Option Enum)
    (h : typeName2Enum name = some e) (ho : wopFuncFor e = some o) :
    wopFrom ctx (g + 1) name v ct = some (o, -1) := by
  simp only [wopFrom, h, ho, Option.map_some]

/-- A streamer info with a counter, an array counted by it, and a map from strings to vectors. -/
def mapStreamer : Streamer := ⟨['E'], 3, [.basic ['N'] .i32, .varr ['A'] .f64 ['N'],
  .stl ['M'] .map none "map<string,vector<int> >".toList]⟩

theorem mapStreamer_build : buildW ⟨fun _ _ => none, fun _ => false⟩ 5 mapStreamer =
    some ⟨3, .plain (.prim .i32) <| .varr .f64 [0] <| .plain (.map true (-1) .str true 9 (.slice (.prim .i32))) .nil⟩ := by
  have h : cxxTemplateFrom "map<string,vector<int> >".toList = some ("map".toList, ["string".toList, "vector<int>".toList]) := by
    decide +kernel
  have h' : cxxTemplateFrom "vector<int>".toList = some ("vector".toList, ["int".toList]) := by decide +kernel
  have hk := wopFrom_known ⟨fun _ _ => none, fun _ => false⟩ 4 "string".toList .str .str (-1) none (by decide +kernel) rfl
  have hi := wopFrom_known ⟨fun _ _ => none, fun _ => false⟩ 3 "int".toList (.prim .i32) (.prim .i32) (-1) none
    (by decide +kernel) rfl
  have hn : typeName2Enum "vector<int>".toList = none := by decide +kernel
  have hp : hasStdPrefix "vector<int>".toList ["vector", "list", "deque"] = true := by decide +kernel
  have hv : wopFrom ⟨fun _ _ => none, fun _ => false⟩ 5 "vector<int>".toList (-1) none =
      some (.slice (.prim .i32), stlVers) := by
    rw [wopFrom]
    simp only [hn, hp, h', hi, if_true, Option.bind_some, List.head?_cons, Option.map_some]
  have hs : hasHeaderW "string".toList = true := by decide +kernel
  have hs' : hasHeaderW "vector<int>".toList = true := by decide +kernel
  have hf : findField ⟨fun _ _ => none, fun _ => false⟩ 5 mapStreamer.elems ['N'] = some (some [0]) := by rfl
  simp only [buildW, mapStreamer] at hf ⊢
  simp only [buildElemsW, methodOf, hf, Option.bind_some, id, makeW, makeSTLW, h, hk, hv, stdMapW, keyOp,
    Option.map_some, hs, hs', stlVers]

example : ∃ dec s, (SI.fresh mapStreamer).newEncoder ⟨fun _ _ => none, fun _ => false⟩ 5 = some (some ⟨3,
      .plain (.prim .i32) <| .varr .f64 [0] <| .plain (.map true (-1) .str true 9 (.slice (.prim .i32))) .nil⟩, s) ∧
    (SI.fresh mapStreamer).newDecoder ⟨fun _ _ => none, fun _ => false⟩ 5 = some (some dec, s) := by
  obtain ⟨dec, s, h1, h2, -⟩ := C99_codec_roundtrip_partial range _ _ _ _ mapStreamer_build
  exact ⟨dec, s, h1, h2⟩

/-- The full claim fails for a streamer info one of whose counters is missing: the
first encoder is refused with an error, the second one is handed out, and it
writes a header and none of the fields. -/
theorem C99_second_encoder_counterexample :
    ∃ (ctx : Ctx) (si : Streamer) (s : SI) (enc : Info),
      (SI.fresh si).newEncoder ctx 5 = some (none, s) ∧
      s.newEncoder ctx 5 = some (some enc, s) ∧
      ∀ x y : BitVec 32,
        (encode range enc (.struct [.prim (.i32 x)]) w0).isSome = true ∧
        encode range enc (.struct [.prim (.i32 x)]) w0 = encode range enc (.struct [.prim (.i32 y)]) w0 := by
  refine ⟨⟨fun _ _ => none, fun _ => false⟩,
    ⟨"Event".toList, 1, [.basic "x".toList .i32, .varr "a".toList .f64 "n".toList]⟩,
    ⟨⟨"Event".toList, 1, [.basic "x".toList .i32, .varr "a".toList .f64 "n".toList]⟩, true, .nil, .nil⟩,
    ⟨1, .nil⟩, by rfl, by rfl, ?_⟩
  intro x y
  exact ⟨by rfl, by rfl⟩

/-! ## Go types -/

/-- The struct types of a program: the fields of each. -/
abbrev Env := List Char → Option (List (List Char × FieldT))

mutual
/-- How values of a Go type are stored. A string inside a slice or an array is
stored plainly, a struct is preceded by its version (which is 1). -/
inductive OpOf (env : Env) : GoT → Op → Prop
  | prim (k : Kind) : OpOf env (.prim k) (.prim k)
  | str : OpOf env .str .str
  | slice {t : GoT} {o : Op} : OpOf env t o → OpOf env (.slice t) (.slice o)
  | struct {n : List Char} {fs : List (List Char × FieldT)} {ops : Flds} :
      env n = some fs → FldsOf env fs fs ops → OpOf env (.struct n) (.cat 1 ops)
/-- How the fields `fs` of a struct with the fields `all` are stored. Fields that are
strings or slices are preceded by a header. A counted slice refers to the first
field with the name of its counter. -/
inductive FldsOf (env : Env) : List (List Char × FieldT) → List (List Char × FieldT) → Flds → Prop
  | nil {all : List (List Char × FieldT)} : FldsOf env all [] .nil
  | prim {nm : List Char} (k : Kind) {all fs : List (List Char × FieldT)} {r : Flds} :
      FldsOf env all fs r → FldsOf env all ((nm, .plain (.prim k)) :: fs) (.plain (.prim k) r)
  | str {nm : List Char} {all fs : List (List Char × FieldT)} {r : Flds} :
      FldsOf env all fs r → FldsOf env all ((nm, .plain .str) :: fs) (.plain (.typed .str) r)
  | struct {nm s : List Char} {o : Op} {all fs : List (List Char × FieldT)} {r : Flds} :
      OpOf env (.struct s) o → FldsOf env all fs r →
      FldsOf env all ((nm, .plain (.struct s)) :: fs) (.plain o r)
  | slice {nm : List Char} {t : GoT} {o : Op} {all fs : List (List Char × FieldT)} {r : Flds} :
      OpOf env t o → FldsOf env all fs r →
      FldsOf env all ((nm, .plain (.slice t)) :: fs) (.plain (.typed (.slice o)) r)
  | array {nm : List Char} {n : Nat} {t : GoT} {o : Op} {all fs : List (List Char × FieldT)} {r : Flds} :
      (∀ u, t ≠ .slice u) → OpOf env t o → FldsOf env all fs r →
      FldsOf env all ((nm, .array n t) :: fs) (.plain (.array n o) r)
  | counted {nm count : List Char} {k : Kind} {i : Nat} {all fs : List (List Char × FieldT)} {r : Flds} :
      all.findIdx? (fun f => f.1 == count) = some i → FldsOf env all fs r →
      FldsOf env all ((nm, .counted count (.prim k)) :: fs) (.varr k [i] r)
  | countedObj {nm count : List Char} {t : GoT} {o : Op} {i : Nat} {all fs : List (List Char × FieldT)} {r : Flds} :
      (∀ u, t ≠ .slice u) → (∀ k, t ≠ .prim k) →
      all.findIdx? (fun f => f.1 == count) = some i → OpOf env t o → FldsOf env all fs r →
      FldsOf env all ((nm, .counted count t) :: fs) (.loop [i] o r)
end

/-- A name that can be told from the type names made of it. -/
def Ident (s : List Char) : Prop :=
  s ≠ [] ∧ ∀ c ∈ s, isSpace c = false ∧ c ≠ '<' ∧ c ≠ '>' ∧ c ≠ ',' ∧ c ≠ '*'

/-- Every struct type has its streamer info in the context; its name is not that of a
basic C++ type, nor that of a class with methods of its own. -/
def Registered (env : Env) (ctx : Ctx) : Prop :=
  ∀ n fs, env n = some fs → Ident n ∧ typeName2Enum n = none ∧ ctx.factory n = false ∧
    ctx.db n (-1) = streamerOf n fs

/-! ### Names -/

theorem Ident.word {s : List Char} (h : Ident s) : Word s := by
  refine ⟨h.1, fun hm => (h.2 _ hm).2.1 rfl, fun hm => (h.2 _ hm).2.2.1 rfl,
    fun hm => (h.2 _ hm).2.2.2.1 rfl, ?_, ?_⟩
  · intro c hc; exact (h.2 c (List.mem_of_mem_head? hc)).1
  · intro c hc; exact (h.2 c (List.mem_of_mem_getLast? hc)).1

theorem kindName_word (k : Kind) : Word (kindName k) := by
  cases k <;> exact ⟨by decide +kernel, by decide +kernel, by decide +kernel, by decide +kernel, by decide +kernel, by decide +kernel⟩

theorem typeName2Enum_kind (k : Kind) : typeName2Enum (kindName k) = some (.prim k) := by
  cases k <;> decide +kernel

theorem typeName2Enum_bracket {s : List Char} (h : '<' ∈ s) : typeName2Enum s = none := by
  have hall : ∀ e ∈ enumTable, ∀ n ∈ e.1, '<' ∉ n.toList := by decide +kernel
  simp only [typeName2Enum, Option.map_eq_none_iff, List.find?_eq_none]
  intro e he hc
  rw [List.contains_iff_mem, List.mem_map] at hc
  obtain ⟨n, hn, rfl⟩ := hc
  exact hall e he n hn h

theorem hasStdPrefix_word {s : List Char} (h : '<' ∉ s) (ps : List String) : hasStdPrefix s ps = false := by
  simp only [hasStdPrefix, List.any_eq_false, Bool.or_eq_true, List.isPrefixOf_iff_prefix, not_or]
  intro p _
  constructor
  · rintro ⟨t, rfl⟩; simp at h
  · rintro ⟨t, rfl⟩; simp at h

/-- The C++ type named by `typenameOf`. -/
def ctype : GoT → CType
  | .prim k => .name (kindName k)
  | .str => .name strName
  | .struct n => .name n
  | .slice t => .tmpl "vector".toList (ctype t) []

/-- Every struct in the type is named by an identifier. -/
def GoT.Ok : GoT → Prop
  | .prim _ => True
  | .str => True
  | .struct n => Ident n
  | .slice t => t.Ok

theorem spaced_eq (s : List Char) : spaced s = s ++ gap s := by
  simp only [spaced, gap]; split <;> simp

theorem typenameOf_text : ∀ t : GoT, typenameOf t = (ctype t).text
  | .prim k => rfl
  | .str => rfl
  | .struct n => rfl
  | .slice t => by
    have : vec = "vector".toList ++ ['<'] := by decide +kernel
    simp only [typenameOf, ctype, CType.text, CType.texts, commas, spaced_eq, typenameOf_text t, this]
    simp

theorem ctype_ok : ∀ t : GoT, t.Ok → (ctype t).Ok
  | .prim k, _ => kindName_word k
  | .str, _ => ⟨by decide +kernel, by decide +kernel, by decide +kernel, by decide +kernel, by decide +kernel, by decide +kernel⟩
  | .struct n, h => h.word
  | .slice t, h => ⟨⟨by decide +kernel, by decide +kernel, by decide +kernel, by decide +kernel, by decide +kernel, by decide +kernel⟩, ctype_ok t h, trivial⟩

theorem template_slice (t : GoT) (h : t.Ok) :
    cxxTemplateFrom (typenameOf (.slice t)) = some ("vector".toList, [typenameOf t]) := by
  rw [typenameOf_text, ctype, C96_template_arguments _ _ _ (ctype_ok (.slice t) h), ← typenameOf_text]
  rfl

theorem bracket_slice (t : GoT) : '<' ∈ typenameOf (.slice t) := by
  simp [typenameOf, vec]

theorem prefix_slice (t : GoT) : hasStdPrefix (typenameOf (.slice t)) ["vector", "list", "deque"] = true := by
  simp only [hasStdPrefix, List.any_cons, typenameOf, Bool.or_eq_true]
  left; left
  rw [List.isPrefixOf_iff_prefix]
  have : vec = "vector".toList ++ ['<'] := by decide +kernel
  exact ⟨spaced (typenameOf t) ++ ['>'], by simp [this]⟩

theorem trimStars_star {s : List Char} (h : Ident s) : trimStars (s ++ ['*']) = s := by
  have : ∀ c ∈ s.reverse.head?, (c == '*') = false := by
    intro c hc
    have := (h.2 c (by simpa using List.mem_of_mem_head? hc)).2.2.2.2
    simpa using this
  simp only [trimStars, List.reverse_append, List.reverse_cons, List.reverse_nil, List.nil_append,
    List.singleton_append, List.dropWhile_cons, beq_self_eq_true, if_true]
  cases hs : s.reverse with
  | nil => exact absurd (by simpa using hs) h.1
  | cons c cs =>
    rw [hs] at this
    rw [List.dropWhile_cons, this c (by simp), if_neg (by simp), ← hs, List.reverse_reverse]

theorem genStdVectorOf_eq (nm : List Char) (t : GoT) (h : t.Ok) :
    ∃ ct, genStdVectorOf nm t = .stl nm .seq ct (typenameOf (.slice t)) ∧
      (ct = none ∨ ∃ e, typeName2Enum (typenameOf t) = some e) := by
  cases t with
  | prim k =>
    refine ⟨some (.prim k), ?_, .inr ⟨_, typeName2Enum_kind k⟩⟩
    have : spaced (kindName k) = kindName k := by cases k <;> decide +kernel
    simp only [genStdVectorOf, typenameOf, this]
  | str =>
    refine ⟨some .str, ?_, .inr ⟨.str, by decide +kernel⟩⟩
    have : spaced strName = strName := by decide +kernel
    simp only [genStdVectorOf, typenameOf, this]
  | struct n =>
    refine ⟨none, ?_, .inl rfl⟩
    have : spaced n = n := by
      simp only [spaced]
      rw [if_neg]
      intro hl
      exact (h.2 '>' (List.mem_of_mem_getLast? hl)).2.2.1 rfl
    simp only [genStdVectorOf, typenameOf, this]
  | slice u => exact ⟨none, rfl, .inl rfl⟩

/-! ### Counters -/

theorem fieldIdx_gen {cls count : List Char} : ∀ {fs : List (List Char × FieldT)} {es : List Elem} (i : Nat),
    genFields cls fs = some es → fieldIdx es count i = (fs.findIdx? fun f => f.1 == count).map (· + i)
  | [], es, i, h => by cases h; rfl
  | (nm, t) :: fs, es, i, h => by
    simp only [genFields] at h
    cases he : genField cls nm t with
    | none => rw [he] at h; cases h
    | some e =>
      rw [he] at h
      simp only [Option.bind_some] at h
      cases hes : genFields cls fs with
      | none => rw [hes] at h; cases h
      | some es' =>
        rw [hes] at h
        cases h
        have hn : e.name = nm := by
          match t with
          | .plain (.prim k) => cases he; rfl
          | .plain .str => cases he; rfl
          | .plain (.struct s) => cases he; rfl
          | .plain (.slice u) => cases he; cases u <;> rfl
          | .array n u => cases u <;> cases he <;> rfl
          | .counted c u => cases u <;> cases he <;> rfl
        simp only [fieldIdx, hn, List.findIdx?_cons]
        by_cases hq : nm = count
        · simp [hq]
        · rw [if_neg hq, fieldIdx_gen (i + 1) hes]
          simp only [beq_eq_false_iff_ne.mpr hq, if_neg Bool.false_ne_true, Option.map_map]
          congr 1
          funext j
          simp only [Function.comp]
          omega

theorem findField_gen {ctx : Ctx} {cls count : List Char} {fs : List (List Char × FieldT)} {es : List Elem} {i : Nat}
    (g : Nat) (h : genFields cls fs = some es) (hi : (fs.findIdx? fun f => f.1 == count) = some i) :
    findField ctx (g + 1) es count = some (some [i]) := by
  simp only [findField, fieldIdx_gen 0 h, hi, Option.map_some]
  rfl

/-! ### From Go types to operations -/

theorem genFields_some {env : Env} (cls : List Char) : ∀ {all fs : List (List Char × FieldT)} {r : Flds},
    FldsOf env all fs r → ∃ es, genFields cls fs = some es
  | _, _, _, .nil => ⟨[], rfl⟩
  | _, _, _, .prim _ h => by
    obtain ⟨es, e⟩ := genFields_some cls h; exact ⟨_, by simp only [genFields, genField, e]; rfl⟩
  | _, _, _, .str h => by
    obtain ⟨es, e⟩ := genFields_some cls h; exact ⟨_, by simp only [genFields, genField, e]; rfl⟩
  | _, _, _, .struct _ h => by
    obtain ⟨es, e⟩ := genFields_some cls h; exact ⟨_, by simp only [genFields, genField, e]; rfl⟩
  | _, _, _, .slice _ h => by
    obtain ⟨es, e⟩ := genFields_some cls h; exact ⟨_, by simp only [genFields, genField, e]; rfl⟩
  | _, _, _, @FldsOf.array _ _ n t _ _ _ _ hn _ h => by
    obtain ⟨es, e⟩ := genFields_some cls h
    cases t with
    | slice u => exact absurd rfl (hn u)
    | _ => exact ⟨_, by simp only [genFields, genField, genArrayOf, e]; rfl⟩
  | _, _, _, .counted _ h => by
    obtain ⟨es, e⟩ := genFields_some cls h
    exact ⟨_, by simp only [genFields, genField, genVarLenArrayOf, e]; rfl⟩
  | _, _, _, @FldsOf.countedObj _ _ _ t _ _ _ _ _ hn _ _ _ h => by
    obtain ⟨es, e⟩ := genFields_some cls h
    cases t with
    | slice u => exact absurd rfl (hn u)
    | _ => exact ⟨_, by simp only [genFields, genField, genVarLenArrayOf, e]; rfl⟩

mutual
theorem opOf_from {env : Env} {ctx : Ctx} (hreg : Registered env ctx) : ∀ {t : GoT} {o : Op}, OpOf env t o →
    t.Ok ∧ ∃ F, ∀ g, F ≤ g → ∀ ct : Option Enum,
      (ct = none ∨ ∃ e, typeName2Enum (typenameOf t) = some e) →
      ∃ vers, wopFrom ctx g (typenameOf t) (-1) ct = some (o, vers)
  | _, _, .prim k => by
    refine ⟨trivial, 1, ?_⟩
    intro g hg ct _
    obtain ⟨g, rfl⟩ : ∃ h, g = h + 1 := ⟨g - 1, by omega⟩
    exact ⟨-1, wopFrom_known ctx g _ _ _ _ ct (typeName2Enum_kind k) rfl⟩
  | _, _, .str => by
    refine ⟨trivial, 1, ?_⟩
    intro g hg ct _
    obtain ⟨g, rfl⟩ : ∃ h, g = h + 1 := ⟨g - 1, by omega⟩
    exact ⟨-1, wopFrom_known ctx g _ .str .str _ ct (by decide +kernel) rfl⟩
  | _, _, @OpOf.slice _ t o h => by
    obtain ⟨hok, F, hF⟩ := opOf_from hreg h
    refine ⟨hok, F + 1, ?_⟩
    intro g hg ct hct
    obtain ⟨g, rfl⟩ : ∃ h, g = h + 1 := ⟨g - 1, by omega⟩
    have hb := typeName2Enum_bracket (bracket_slice t)
    have hct : ct = none := by
      rcases hct with h | ⟨e, h⟩
      · exact h
      · rw [hb] at h; cases h
    subst hct
    obtain ⟨vers, hv⟩ := hF g (by omega) none (.inl rfl)
    refine ⟨stlVers, ?_⟩
    simp only [wopFrom, hb, prefix_slice, if_true, template_slice t hok, Option.bind_some, List.head?_cons, hv,
      Option.map_some]
  | _, _, @OpOf.struct _ n fs ops hn h => by
    obtain ⟨hid, he, hfac, hdb⟩ := hreg n fs hn
    obtain ⟨es, hes⟩ := genFields_some n h
    obtain ⟨F, hF⟩ := fldsOf_build hreg h n es es hes hes
    refine ⟨hid, F + 1, ?_⟩
    intro g hg ct hct
    obtain ⟨g, rfl⟩ : ∃ h, g = h + 1 := ⟨g - 1, by omega⟩
    have hct : ct = none := by
      rcases hct with h | ⟨e, h⟩
      · exact h
      · simp only [typenameOf] at h; rw [he] at h; cases h
    subst hct
    have hp := fun ps => hasStdPrefix_word hid.word.2.1 ps
    refine ⟨1, ?_⟩
    simp only [typenameOf, wopFrom, he, hp, hdb, streamerOf, hes, Option.map_some, Option.bind_some, hfac,
      hF g (by omega), if_neg Bool.false_ne_true]
theorem fldsOf_build {env : Env} {ctx : Ctx} (hreg : Registered env ctx) : ∀ {all fs : List (List Char × FieldT)} {r : Flds},
    FldsOf env all fs r → ∀ (cls : List Char) (esAll es : List Elem), genFields cls all = some esAll →
      genFields cls fs = some es →
      ∃ F, ∀ g, F ≤ g → buildElemsW (wopFrom ctx g) ctx g ⟨cls, 1, esAll⟩ es = some r
  | _, _, _, .nil, _, _, es, _, he => by
    cases he
    exact ⟨0, fun _ _ => rfl⟩
  | _, _, _, .prim k h, cls, esAll, es, ha, he => by
    obtain ⟨es', e'⟩ := genFields_some cls h
    obtain ⟨F, hF⟩ := fldsOf_build hreg h cls esAll es' ha e'
    simp only [genFields, genField, e'] at he
    cases he
    refine ⟨F, fun g hg => ?_⟩
    simp only [buildElemsW, methodOf, Option.bind_some, id, hF g hg, makeW]
  | _, _, _, .str h, cls, esAll, es, ha, he => by
    obtain ⟨es', e'⟩ := genFields_some cls h
    obtain ⟨F, hF⟩ := fldsOf_build hreg h cls esAll es' ha e'
    simp only [genFields, genField, e'] at he
    cases he
    refine ⟨F, fun g hg => ?_⟩
    simp only [buildElemsW, methodOf, Option.bind_some, id, hF g hg, makeW]
  | _, _, _, @FldsOf.struct _ nm s o _ _ _ ho h, cls, esAll, es, ha, he => by
    obtain ⟨es', e'⟩ := genFields_some cls h
    obtain ⟨F, hF⟩ := fldsOf_build hreg h cls esAll es' ha e'
    obtain ⟨_, F', hF'⟩ := opOf_from hreg ho
    simp only [genFields, genField, e'] at he
    cases he
    refine ⟨max F F', fun g hg => ?_⟩
    obtain ⟨vers, hv⟩ := hF' g (by omega) none (.inl rfl)
    simp only [typenameOf] at hv
    simp only [buildElemsW, methodOf, Option.bind_some, id, hF g (by omega), makeW, hv, Option.map_some]
  | _, _, _, @FldsOf.slice _ nm t o _ _ _ ho h, cls, esAll, es, ha, he => by
    obtain ⟨es', e'⟩ := genFields_some cls h
    obtain ⟨F, hF⟩ := fldsOf_build hreg h cls esAll es' ha e'
    obtain ⟨hok, F', hF'⟩ := opOf_from hreg ho
    obtain ⟨ct, hg', hct⟩ := genStdVectorOf_eq nm t hok
    simp only [genFields, genField, e', hg'] at he
    cases he
    refine ⟨max F F', fun g hg => ?_⟩
    obtain ⟨vers, hv⟩ := hF' g (by omega) ct hct
    simp only [buildElemsW, methodOf, Option.bind_some, id, hF g (by omega), makeW, makeSTLW,
      template_slice t hok, hv, Option.map_some]
  | _, _, _, @FldsOf.array _ nm n t o _ _ _ hn ho h, cls, esAll, es, ha, he => by
    obtain ⟨es', e'⟩ := genFields_some cls h
    obtain ⟨F, hF⟩ := fldsOf_build hreg h cls esAll es' ha e'
    obtain ⟨_, F', hF'⟩ := opOf_from hreg ho
    cases t with
    | slice u => exact absurd rfl (hn u)
    | prim k =>
      cases ho
      simp only [genFields, genField, genArrayOf, e'] at he
      cases he
      refine ⟨F, fun g hg => ?_⟩
      simp only [buildElemsW, methodOf, Option.bind_some, id, hF g hg, makeW]
    | str =>
      cases ho
      simp only [genFields, genField, genArrayOf, e'] at he
      cases he
      refine ⟨F, fun g hg => ?_⟩
      simp only [buildElemsW, methodOf, Option.bind_some, id, hF g hg, makeW]
    | struct s =>
      simp only [genFields, genField, genArrayOf, e'] at he
      cases he
      refine ⟨max F F', fun g hg => ?_⟩
      obtain ⟨vers, hv⟩ := hF' g (by omega) none (.inl rfl)
      simp only [typenameOf] at hv
      simp only [buildElemsW, methodOf, Option.bind_some, id, hF g (by omega), makeW, hv, Option.map_some]
  | _, _, _, @FldsOf.counted _ nm count k i _ _ _ hi h, cls, esAll, es, ha, he => by
    obtain ⟨es', e'⟩ := genFields_some cls h
    obtain ⟨F, hF⟩ := fldsOf_build hreg h cls esAll es' ha e'
    simp only [genFields, genField, genVarLenArrayOf, e'] at he
    cases he
    refine ⟨F + 1, fun g hg => ?_⟩
    have hf : findField ctx g esAll count = some (some [i]) := by
      obtain ⟨g, rfl⟩ : ∃ h, g = h + 1 := ⟨g - 1, by omega⟩
      exact findField_gen g ha hi
    simp only [buildElemsW, methodOf, hf, Option.bind_some, id, hF g (by omega), makeW]
  | _, _, _, @FldsOf.countedObj _ nm count t o i _ _ _ hn hk hi ho h, cls, esAll, es, ha, he => by
    obtain ⟨es', e'⟩ := genFields_some cls h
    obtain ⟨F, hF⟩ := fldsOf_build hreg h cls esAll es' ha e'
    obtain ⟨hok, F', hF'⟩ := opOf_from hreg ho
    have hf : ∀ g, 1 ≤ g → findField ctx g esAll count = some (some [i]) := by
      intro g hg
      obtain ⟨g, rfl⟩ : ∃ h, g = h + 1 := ⟨g - 1, by omega⟩
      exact findField_gen g ha hi
    cases t with
    | slice u => exact absurd rfl (hn u)
    | prim k => exact absurd rfl (hk k)
    | str =>
      cases ho
      simp only [genFields, genField, genVarLenArrayOf, e'] at he
      cases he
      refine ⟨F + 1, fun g hg => ?_⟩
      have hts : trimStars "TString*".toList = "TString".toList := by decide +kernel
      have hv : wopFrom ctx g "TString".toList (-1) none = some (.str, -1) := by
        obtain ⟨g, rfl⟩ : ∃ h, g = h + 1 := ⟨g - 1, by omega⟩
        exact wopFrom_known ctx g _ .str .str _ none (by decide +kernel) rfl
      simp only [buildElemsW, methodOf, ne_eq, not_true, if_false, hf g (by omega), Option.bind_some, id,
        hF g (by omega), makeW, hts, hv, Option.map_some]
    | struct s =>
      simp only [genFields, genField, genVarLenArrayOf, e'] at he
      cases he
      refine ⟨max F F' + 1, fun g hg => ?_⟩
      obtain ⟨vers, hv⟩ := hF' g (by omega) none (.inl rfl)
      simp only [typenameOf] at hv
      simp only [buildElemsW, methodOf, ne_eq, not_true, if_false, hf g (by omega), Option.bind_some, id,
        hF g (by omega), makeW, trimStars_star hok, hv, Option.map_some]
end

/-- Values of a Go struct type survive being encoded and decoded with the streamer
info that `StreamerOf` makes of the type, provided the streamer infos of the
structs inside it are registered. -/
theorem C100_go_struct_roundtrip_partial (env : Env) (ctx : Ctx) (hreg : Registered env ctx) (n : List Char)
    (fs : List (List Char × FieldT)) (ops : Flds) (h : FldsOf env fs fs ops) :
    ∃ si F, streamerOf n fs = some si ∧ ∀ g, F ≤ g →
      ∃ enc dec s, (SI.fresh si).newEncoder ctx g = some (some enc, s) ∧
        s.newDecoder ctx g = some (some dec, s) ∧
        ∀ v old, Has range (.cat 1 ops) v → Recv (.cat 1 ops) old →
          RoundTrip (encode range enc v) (decode dec old) v := by
  obtain ⟨es, he⟩ := genFields_some n h
  obtain ⟨F, hF⟩ := fldsOf_build hreg h n es es he he
  refine ⟨⟨n, 1, es⟩, F, by simp only [streamerOf, he, Option.map_some], ?_⟩
  intro g hg
  have hb : buildW ctx g ⟨n, 1, es⟩ = some ⟨1, ops⟩ := by
    simp only [buildW, hF g hg, Option.map_some]
  obtain ⟨dec, s, h1, -, -, h4, -, h6⟩ := C99_codec_roundtrip_partial range ctx g _ _ hb
  exact ⟨_, dec, s, h1, h4, h6⟩

/-- `type Hit struct { X float32; Tags []string }` -/
def hitFields : List (List Char × FieldT) :=
  [(['X'], .plain (.prim .f32)), (['T'], .plain (.slice .str))]

/-- ``type Event struct { N int32; Hits []Hit; Near [][]Hit; ADC []uint16 `groot:"A[N]"`; Best Hit }`` -/
def eventFields : List (List Char × FieldT) :=
  [(['N'], .plain (.prim .i32)), (['H'], .plain (.slice (.struct ['H', 'i', 't']))),
   (['D'], .plain (.slice (.slice (.struct ['H', 'i', 't'])))),
   (['A'], .counted ['N'] (.prim .u16)), (['B'], .plain (.struct ['H', 'i', 't']))]

def exEnv : Env := fun n => if n = ['H', 'i', 't'] then some hitFields else none

def exCtx : Ctx := ⟨fun n _ => (exEnv n).bind (streamerOf n), fun _ => false⟩

def hitOp : Op := .cat 1 (.plain (.prim .f32) (.plain (.typed (.slice .str)) .nil))

theorem hit_op : OpOf exEnv (.struct ['H', 'i', 't']) hitOp :=
  .struct rfl (.prim _ (.slice .str .nil))

theorem exRegistered : Registered exEnv exCtx := by
  intro n fs h
  simp only [exEnv] at h
  split at h
  · rename_i hn
    subst hn
    cases h
    exact ⟨⟨by decide, by decide⟩, by decide +kernel, rfl, rfl⟩
  · cases h

/-- The round trip of an event of the example. -/
example (ho : Recv (.cat 1 (.plain (.prim .i32) <| .plain (.typed (.slice hitOp)) <|
      .plain (.typed (.slice (.slice hitOp))) <| .varr .u16 [0] <| .plain hitOp .nil)) old)
    (hv : Has range (.cat 1 (.plain (.prim .i32) <| .plain (.typed (.slice hitOp)) <|
      .plain (.typed (.slice (.slice hitOp))) <| .varr .u16 [0] <| .plain hitOp .nil)) v) :
    ∃ si F, streamerOf ['E', 'v'] eventFields = some si ∧ ∀ g, F ≤ g →
      ∃ enc dec s, (SI.fresh si).newEncoder exCtx g = some (some enc, s) ∧
        s.newDecoder exCtx g = some (some dec, s) ∧ RoundTrip (encode range enc v) (decode dec old) v := by
  obtain ⟨si, F, h1, h2⟩ := C100_go_struct_roundtrip_partial range exEnv exCtx exRegistered ['E', 'v'] eventFields _
    (.prim _ (.slice hit_op (.slice (.slice hit_op) (.counted (i := 0) (by rfl) (.struct hit_op .nil)))))
  refine ⟨si, F, h1, fun g hg => ?_⟩
  obtain ⟨enc, dec, s, h3, h4, h5⟩ := h2 g hg
  exact ⟨enc, dec, s, h3, h4, h5 v old hv ho⟩

/-- The full claim fails for a struct type with the name of a C++ type, such as `Size_t`:
its values are taken for numbers, and encoding a struct with such a field fails. -/
theorem C100_builtin_name_counterexample :
    ∃ (ctx : Ctx) (si enclosing : Streamer),
      streamerOf "Size_t".toList [(['X'], .plain (.prim .i32))] = some si ∧
      (∀ v, ctx.db "Size_t".toList v = some si) ∧
      streamerOf ['E'] [(['S'], .plain (.struct "Size_t".toList))] = some enclosing ∧
      ∀ g, ∃ enc s, (SI.fresh enclosing).newEncoder ctx (g + 1) = some (some enc, s) ∧
        ∀ (vs : List Val) (w : WBuf), w.Healthy → encode range enc (.struct [.struct vs]) w = none := by
  refine ⟨⟨fun _ _ => streamerOf "Size_t".toList [(['X'], .plain (.prim .i32))], fun _ => false⟩,
    ⟨"Size_t".toList, 1, [.basic ['X'] .i32]⟩, ⟨['E'], 1, [.any ['S'] "Size_t".toList]⟩, rfl, fun _ => rfl, rfl, ?_⟩
  intro g
  have hb : buildW ⟨fun _ _ => streamerOf "Size_t".toList [(['X'], .plain (.prim .i32))], fun _ => false⟩ (g + 1)
      ⟨['E'], 1, [.any ['S'] "Size_t".toList]⟩ = some ⟨1, .plain (.prim .f32) .nil⟩ := by
    simp only [buildW, buildElemsW, methodOf, Option.bind_some, id, makeW,
      wopFrom_known _ g "Size_t".toList (.prim .f32) (.prim .f32) (-1) none (by decide +kernel) rfl, Option.map_some]
  obtain ⟨dec, s, h1, -⟩ := C99_codec_roundtrip_partial range _ _ _ _ hb
  refine ⟨_, s, h1, fun vs w hw => ?_⟩
  simp only [encode, wrun, Val.struct?, Option.bind_some, inHeader]
  cases w.writeHeader 1 with
  | none => rfl
  | some q => rfl

/-! ### Tags -/

theorem trim_spaces {a s b : List Char} (ha : ∀ c ∈ a, isSpace c = true) (hb : ∀ c ∈ b, isSpace c = true)
    (hs : Tight s) : trim (a ++ (s ++ b)) = s := by
  have : trim (a ++ (s ++ b)) = trim (s ++ b) := by
    simp only [trim]
    rw [List.dropWhile_append_of_pos (by simpa using ha)]
  rw [this, trim_tight_gap hs hb]

theorem identChar_space {c : Char} (h : identChar c = true) : isSpace c = false ∧ c ≠ '[' ∧ c ≠ ']' := by
  refine ⟨?_, ?_, ?_⟩
  · by_contra hs
    simp only [isSpace, Bool.not_eq_false, Bool.or_eq_true, beq_iff_eq] at hs
    rcases hs with ((((((rfl | rfl) | rfl) | rfl) | rfl) | rfl) | rfl) | rfl <;> exact absurd h (by decide +kernel)
  · rintro rfl; exact absurd h (by decide +kernel)
  · rintro rfl; exact absurd h (by decide +kernel)

theorem isIdent_tight {s : List Char} (h : isIdent s = true) : Tight s ∧ '[' ∉ s ∧ ']' ∉ s := by
  cases s with
  | nil => cases h
  | cons c cs =>
    simp only [isIdent, Bool.and_eq_true, List.all_eq_true] at h
    refine ⟨⟨by simp, ?_, ?_⟩, ?_, ?_⟩
    · intro x hx; exact (identChar_space (h.2 x (List.mem_of_mem_head? hx))).1
    · intro x hx; exact (identChar_space (h.2 x (List.mem_of_mem_getLast? hx))).1
    · intro hm; exact (identChar_space (h.2 _ hm)).2.1 rfl
    · intro hm; exact (identChar_space (h.2 _ hm)).2.2 rfl

theorem countLoop_skip : ∀ (a : List Char) (rest : List Char) (brack : Bool) (count : List Char), '[' ∉ a → ']' ∉ a →
    countLoop (a ++ rest) brack count = countLoop rest brack (if brack then count ++ a else count)
  | [], rest, brack, count, _, _ => by cases brack <;> simp
  | c :: cs, rest, brack, count, h1, h2 => by
    simp only [List.mem_cons, not_or] at h1 h2
    rw [List.cons_append, countLoop, if_neg (Ne.symm h1.1), if_neg (Ne.symm h2.1),
      countLoop_skip cs rest brack _ h1.2 h2.2]
    cases brack <;> simp

/-- A tag `name[count]`, possibly with spaces around the count, names the field and
its counter, whatever comes after. -/
theorem C100_tag_counter (name a count b rest : List Char) (hn : '[' ∉ name) (hn' : ']' ∉ name)
    (hc : isIdent count = true) (ha : ∀ c ∈ a, isSpace c = true) (hb : ∀ c ∈ b, isSpace c = true) :
    nameOf (name ++ '[' :: (a ++ (count ++ b)) ++ ']' :: rest) = name ∧
    hasCount (name ++ '[' :: (a ++ (count ++ b)) ++ ']' :: rest) = some count := by
  obtain ⟨ht, h1, h2⟩ := isIdent_tight hc
  have hsp : ∀ l : List Char, (∀ c ∈ l, isSpace c = true) → '[' ∉ l ∧ ']' ∉ l := by
    intro l hl
    exact ⟨fun hm => absurd (hl _ hm) (by decide +kernel), fun hm => absurd (hl _ hm) (by decide +kernel)⟩
  constructor
  · rw [nameOf, List.append_assoc, List.takeWhile_append_of_pos]
    · simp
    · intro c hc
      simp only [bne_iff_ne, ne_eq]
      rintro rfl
      exact hn hc
  · rw [hasCount, if_pos (by simp), List.append_assoc, countLoop_skip name _ _ _ hn hn', List.cons_append, countLoop,
      if_pos rfl, countLoop_skip (a ++ (count ++ b)) _ _ _ (by simp [h1, hsp a ha, hsp b hb])
        (by simp [h2, hsp a ha, hsp b hb]), countLoop, if_neg (by decide), if_pos rfl]
    simp only [if_neg Bool.false_ne_true, if_true, List.nil_append, trim_spaces ha hb ht, hc]

example : nameOf "ADC[ N ]".toList = "ADC".toList ∧ hasCount "ADC[ N ]".toList = some ['N'] :=
  C100_tag_counter "ADC".toList [' '] ['N'] [' '] [] (by decide +kernel) (by decide +kernel) (by decide +kernel)
    (by decide +kernel) (by decide +kernel)

/-- A tag with a number in the brackets names no counter. -/
theorem C100_tag_number (name rest : List Char) (d : Char) (ds : List Char) (hn : '[' ∉ name) (hn' : ']' ∉ name)
    (hd : '0' ≤ d ∧ d ≤ '9') (hds : ∀ c ∈ ds, '0' ≤ c ∧ c ≤ '9') :
    hasCount (name ++ '[' :: (d :: ds) ++ ']' :: rest) = none := by
  have hdig : ∀ c : Char, '0' ≤ c ∧ c ≤ '9' → identChar c = true := by
    intro c hc
    simp [identChar, hc.1, hc.2]
  have hall : ∀ c ∈ d :: ds, identChar c = true := by
    intro c hc
    rcases List.mem_cons.mp hc with rfl | hc
    · exact hdig _ hd
    · exact hdig c (hds c hc)
  have h1 : '[' ∉ d :: ds := fun hm => (identChar_space (hall _ hm)).2.1 rfl
  have h2 : ']' ∉ d :: ds := fun hm => (identChar_space (hall _ hm)).2.2 rfl
  have ht : Tight (d :: ds) := ⟨by simp, fun x hx => (identChar_space (hall x (List.mem_of_mem_head? hx))).1,
    fun x hx => (identChar_space (hall x (List.mem_of_mem_getLast? hx))).1⟩
  rw [hasCount, if_pos (by simp), List.append_assoc, countLoop_skip name _ _ _ hn hn', List.cons_append, countLoop,
    if_pos rfl, countLoop_skip (d :: ds) _ _ _ h1 h2, countLoop, if_neg (by decide), if_pos rfl]
  simp only [if_neg Bool.false_ne_true, if_true, List.nil_append, trim_tight ht]
  rw [if_neg]
  simp [isIdent, hd.1, hd.2]

end Verif.Rdict
