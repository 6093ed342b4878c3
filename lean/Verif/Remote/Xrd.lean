import Mathlib.Data.List.Basic
import Mathlib.Data.List.Infix
import Mathlib.Data.List.Count
import Verif.Common.Text
import Verif.Remote.Cache

/-!
# Model of `xrootd/xrdio`: names of remote files, reading and seeking

Simplifications: texts are lists of characters; the server answers a read with the bytes it has
(`Serves`), no request fails.  `net.SplitHostPort` is modelled from the Go standard library.
-/

namespace Verif.Remote.Xrd
open Verif.Text

/-! ### Names -/

/-- xrootd/xrdio/parse.go:14-18 (`URL`). -/
structure URL where
  addr : List Char
  user : List Char
  path : List Char
deriving DecidableEq, Repr

inductive Out (α : Type)
  | ok (a : α)
  | err
  | panic
deriving DecidableEq, Repr

/-- `net.SplitHostPort` (Go standard library): whether it succeeds. -/
def hostPortOk (s : List Char) : Bool :=
  match afterLast ':' s with
  | none => false
  | some port =>
    let i := s.length - port.length - 1
    if s.head? = some '[' then
      match cut [']'] s with
      | none => false
      | some (h, _) =>
        h.length + 1 = i && !((s.drop 1).contains '[') && !((s.drop (h.length + 1)).contains ']')
    else !((s.take i).contains ':') && !(s.contains '[') && !(s.contains ']')

/-- xrootd/xrdio/parse.go:78-84 (`parseUser`). -/
def parseUser (s : List Char) : List Char :=
  match cut [':'] s with
  | none => s
  | some (u, _) => u

/-- The checks of xrootd/xrdio/parse.go:50-76 (`parseUA`) on the address.  Without a closing bracket
`LastIndex` is -1 and the colon is looked for in all of the address. -/
def addrOk (addr : List Char) : Bool :=
  if addr.head? = some '[' then
    if ((afterLast ']' addr).getD addr).contains ':' then hostPortOk addr else true
  else if addr.contains ':' then hostPortOk addr
  else true

/-- xrootd/xrdio/parse.go:50-76 (`parseUA`): user and address. -/
def parseUA (s : List Char) : Option (List Char × List Char) :=
  match cut ['@'] s with
  | some (u, a) => if addrOk a then some (parseUser u, a) else none
  | none => if addrOk s then some ([], s) else none

/-- `strings.HasPrefix(path, "//")` of xrootd/xrdio/parse.go:21-47 (`Parse`). -/
def unslash (p : List Char) : List Char := if ['/', '/'].isPrefixOf p then p.drop 1 else p

/-- xrootd/xrdio/parse.go:21-47 (`Parse`): `tok[1]` is missing if there is no slash. -/
def parse (name : List Char) : Out URL :=
  match cut [':', '/', '/'] name with
  | none => .ok ⟨[], [], unslash name⟩
  | some (_, uri) =>
    match cut ['/'] uri with
    | none => match parseUA uri with
      | none => .err
      | some _ => .panic
    | some (ua, rest) => match parseUA ua with
      | none => .err
      | some (user, addr) => .ok ⟨addr, user, unslash ('/' :: rest)⟩

/-! ### Files -/

inductive Whence
  | start | current | fromEnd | other
deriving DecidableEq, Repr

/-- xrootd/xrdio/xrdio.go:27-35 (`File`): position, and the size of the file when it was opened. -/
structure File where
  pos : Int
  size : Int
deriving DecidableEq, Repr

/-- The server holding `file` answers a read with the bytes it has; negative offsets are errors.
xrootd/file.go:71-81 (`ReadAtContext`) returns as many bytes, without an error. -/
def srvRead (file : List UInt8) (off : Int) (n : Nat) : Option (List UInt8) :=
  if off < 0 then none else some (slice file off.toNat n)

/-- The result of a read: bytes and error. -/
inductive Err
  | eof | other
deriving DecidableEq, Repr

/-- xrootd/xrdio/xrdio.go:123-133 (`Read`) into a buffer of `n` bytes. -/
def File.read (file : List UInt8) (f : File) (n : Nat) : (List UInt8 × Option Err) × File :=
  match srvRead file f.pos n with
  | none => (([], some .other), f)
  | some bs =>
    let f' : File := { f with pos := f.pos + bs.length }
    ((bs, if f'.pos = f.size then some .eof else none), f')

/-- xrootd/xrdio/xrdio.go:136-138 (`ReadAt`). -/
def File.readAt (file : List UInt8) (n : Nat) (off : Int) : List UInt8 × Option Err :=
  match srvRead file off n with
  | none => ([], some .other)
  | some bs => (bs, none)

/-- xrootd/xrdio/xrdio.go:153-168 (`Seek`): the new position is returned too; `file` is what the
server holds. -/
def File.seek (file : List UInt8) (f : File) (off : Int) : Whence → File
  | .start => { f with pos := off }
  | .fromEnd => { f with pos := file.length - off }
  | .current => { f with pos := f.pos + off }
  | .other => f

/-- xrootd/xrdio/xrdio.go:44-70 (`Open`). -/
def openFile (file : List UInt8) : File := ⟨0, file.length⟩

/-! ### Specification of names -/

/-- An address: a host name or an IPv6 address in brackets, with or without a port. -/
inductive Addr : List Char → Prop
  | host {h : List Char} (hh : ∀ c ∈ h, c ∉ ['[', ']', ':', '/', '@']) : Addr h
  | hostPort {h p : List Char} (hh : ∀ c ∈ h, c ∉ ['[', ']', ':', '/', '@'])
      (hp : ∀ c ∈ p, c ∉ ['[', ']', ':', '/', '@']) : Addr (h ++ ':' :: p)
  | v6 {h : List Char} (hh : ∀ c ∈ h, c ∉ ['[', ']', '/', '@']) : Addr ('[' :: h ++ [']'])
  | v6Port {h p : List Char} (hh : ∀ c ∈ h, c ∉ ['[', ']', '/', '@'])
      (hp : ∀ c ∈ p, c ∉ ['[', ']', ':', '/', '@']) : Addr ('[' :: h ++ ']' :: ':' :: p)

/-- The part of a name before the address: nothing, or a user with or without a password. -/
inductive UserPart : List Char → List Char → Prop
  | none : UserPart [] []
  | user {u : List Char} (hu : ∀ c ∈ u, c ∉ [':', '/', '@']) : UserPart (u ++ ['@']) u
  | userPass {u p : List Char} (hu : ∀ c ∈ u, c ∉ [':', '/', '@']) (hp : ∀ c ∈ p, c ∉ ['/', '@']) :
      UserPart (u ++ ':' :: p ++ ['@']) u

/-! ### C113 -/

theorem Addr.ok {a : List Char} (h : Addr a) : addrOk a = true := by
  cases h with
  | host hh =>
    simp only [addrOk]
    rw [if_neg, if_neg]
    · simp only [List.contains_iff_mem]
      intro h
      exact absurd (hh _ h) (by decide)
    · intro h
      exact absurd (hh _ (List.mem_of_mem_head? (by rw [h]; rfl))) (by decide)
  | @hostPort h p hh hp =>
    have n1 : ':' ∉ p := fun h => absurd (hp _ h) (by decide)
    have n2 : ':' ∉ h := fun h => absurd (hh _ h) (by decide)
    have n3 : '[' ∉ p := fun h => absurd (hp _ h) (by decide)
    have n4 : '[' ∉ h := fun h => absurd (hh _ h) (by decide)
    have n5 : ']' ∉ p := fun h => absurd (hp _ h) (by decide)
    have n6 : ']' ∉ h := fun h => absurd (hh _ h) (by decide)
    have hd : ¬ ((h ++ ':' :: p).head? = some '[') := by
      intro e
      have := List.mem_of_mem_head? (a := '[') (l := h ++ ':' :: p) (by rw [e]; rfl)
      simp only [List.mem_append, List.mem_cons] at this
      rcases this with h | h | h
      · exact n4 h
      · exact absurd h (by decide)
      · exact n3 h
    simp only [addrOk, if_neg hd]
    rw [if_pos (by simp)]
    simp only [hostPortOk, afterLast_eq h n1, if_neg hd]
    have e : (h ++ ':' :: p).length - p.length - 1 = h.length := by simp; omega
    rw [e, List.take_left' rfl]
    simp [n2, n3, n4, n5, n6]
  | @v6 h hh =>
    have n1 : ']' ∉ ([] : List Char) := by simp
    simp only [addrOk]
    rw [if_pos (by rfl), afterLast_eq ('[' :: h) n1]
    simp
  | @v6Port h p hh hp =>
    have n1 : ':' ∉ p := fun h => absurd (hp _ h) (by decide)
    have n3 : '[' ∉ p := fun h => absurd (hp _ h) (by decide)
    have n4 : '[' ∉ h := fun h => absurd (hh _ h) (by decide)
    have n5 : ']' ∉ p := fun h => absurd (hp _ h) (by decide)
    have n6 : ']' ∉ h := fun h => absurd (hh _ h) (by decide)
    have n7 : ']' ∉ ':' :: p := by simp [n5]
    have n8 : ']' ∉ '[' :: h := by simp [n6]
    simp only [addrOk]
    rw [if_pos (by rfl), afterLast_eq ('[' :: h) n7, if_pos (by simp)]
    have e1 : afterLast ':' ('[' :: h ++ ']' :: ':' :: p) = some p := by
      have := afterLast_eq ('[' :: h ++ [']']) n1
      simpa using this
    have e2 := cut_one ']' n8 (':' :: p)
    simp only [hostPortOk, e1]
    rw [if_pos (by rfl)]
    simp only [e2]
    have e3 : ('[' :: h ++ ']' :: ':' :: p).length - p.length - 1 = h.length + 2 := by simp; omega
    have e4 : ('[' :: h ++ ']' :: ':' :: p).drop (('[' :: h).length + 1) = ':' :: p := by
      rw [show '[' :: h ++ ']' :: ':' :: p = ('[' :: h ++ [']']) ++ ':' :: p by simp]
      exact List.drop_left' (by simp)
    rw [e3, e4]
    simp [n3, n4, n5]

theorem Addr.no {a : List Char} (h : Addr a) : '@' ∉ a ∧ '/' ∉ a := by
  cases h with
  | host hh => exact ⟨fun h => absurd (hh _ h) (by decide), fun h => absurd (hh _ h) (by decide)⟩
  | hostPort hh hp =>
    constructor <;>
    · simp only [List.mem_append, List.mem_cons]
      rintro (h | h | h)
      · exact absurd (hh _ h) (by decide)
      · exact absurd h (by decide)
      · exact absurd (hp _ h) (by decide)
  | v6 hh =>
    constructor <;>
    · simp only [List.mem_append, List.mem_cons, List.not_mem_nil, or_false]
      rintro ((h | h) | h)
      · exact absurd h (by decide)
      · exact absurd (hh _ h) (by decide)
      · exact absurd h (by decide)
  | v6Port hh hp =>
    constructor <;>
    · simp only [List.mem_append, List.mem_cons]
      rintro ((h | h) | h | h | h)
      · exact absurd h (by decide)
      · exact absurd (hh _ h) (by decide)
      · exact absurd h (by decide)
      · exact absurd h (by decide)
      · exact absurd (hp _ h) (by decide)

theorem UserPart.parse {up u a : List Char} (h : UserPart up u) (ha : Addr a) :
    parseUA (up ++ a) = some (u, a) ∧ '/' ∉ up ++ a := by
  have ho := ha.ok
  obtain ⟨n1, n2⟩ := ha.no
  cases h with
  | none =>
    simp only [List.nil_append, parseUA]
    rw [(cut_one_none '@').mpr n1]
    simp [ho, n2]
  | user hu =>
    have m1 : '@' ∉ u := fun h => absurd (hu _ h) (by decide)
    have m2 : ':' ∉ u := fun h => absurd (hu _ h) (by decide)
    have m3 : '/' ∉ u := fun h => absurd (hu _ h) (by decide)
    simp only [parseUA]
    rw [List.append_assoc, List.singleton_append, cut_one '@' m1]
    simp only [ho, if_true, parseUser]
    rw [(cut_one_none ':').mpr m2]
    exact ⟨rfl, by simp [m3, n2]⟩
  | @userPass u p hu hp =>
    have m1 : '@' ∉ u := fun h => absurd (hu _ h) (by decide)
    have m2 : ':' ∉ u := fun h => absurd (hu _ h) (by decide)
    have m3 : '/' ∉ u := fun h => absurd (hu _ h) (by decide)
    have m4 : '@' ∉ p := fun h => absurd (hp _ h) (by decide)
    have m5 : '/' ∉ p := fun h => absurd (hp _ h) (by decide)
    have m6 : '@' ∉ u ++ ':' :: p := by simp [m1, m4]
    simp only [parseUA]
    rw [List.append_assoc, List.singleton_append, cut_one '@' m6]
    simp only [ho, if_true, parseUser]
    rw [cut_one ':' m2]
    exact ⟨rfl, by simp [m3, m5, n2]⟩

/-- **C113.** A name made of scheme, user, address and path is taken apart into address, user and
the absolute path; a password is dropped. -/
theorem C113_parse {scheme up u a : List Char} (hs : ':' ∉ scheme) (hu : UserPart up u) (ha : Addr a) (p : List Char) :
    parse (scheme ++ [':', '/', '/'] ++ (up ++ a ++ '/' :: p)) =
      .ok ⟨a, u, if p.head? = some '/' then p else '/' :: p⟩ := by
  obtain ⟨h1, h2⟩ := hu.parse ha
  simp only [parse]
  rw [cut_scheme hs]
  simp only [cut_one '/' h2, h1]
  congr 2
  cases p with
  | nil => rfl
  | cons c p =>
    simp only [unslash, List.isPrefixOf, List.head?_cons, Option.some.injEq]
    by_cases h : c = '/'
    · subst h; simp
    · simp [h, Ne.symm h]

/-- **C113.** A name without a scheme is a path. -/
theorem C113_local (p : List Char) (h : ¬ [':', '/', '/'] <:+: p) (h2 : ¬ ['/', '/'] <+: p) :
    parse p = .ok ⟨[], [], p⟩ := by
  simp only [parse]
  rw [(cut_none_of (by simp)).mpr h]
  simp only [unslash]
  rw [if_neg]
  intro h
  exact h2 (List.isPrefixOf_iff_prefix.mp h)

/-- **C113.** What comes out is what went in: a name with a scheme that is accepted consists of the
scheme, whatever there is before the first `@`, the address, a slash, and the rest of the path. -/
theorem C113_sound (name : List Char) (u : URL) (h : parse name = .ok u) (hi : [':', '/', '/'] <:+: name) :
    ∃ scheme rest info, name = scheme ++ [':', '/', '/'] ++ (info ++ u.addr ++ '/' :: rest) ∧
      '/' ∉ info ++ u.addr ∧ ':' ∉ u.user ∧
      ((info = [] ∧ u.user = [] ∧ '@' ∉ u.addr) ∨ ∃ i, info = i ++ ['@'] ∧ '@' ∉ i ∧ u.user <+: i) ∧
      u.path.head? = some '/' ∧ (u.path = '/' :: rest ∨ u.path = rest) := by
  simp only [parse] at h
  split at h
  · rename_i hc
    exact absurd hi ((cut_none_of (by simp)).mp hc)
  rename_i sch uri hc
  split at h
  · split at h <;> cases h
  rename_i ua rest hr
  split at h
  · cases h
  rename_i user addr hua
  cases h
  have e1 := cut_sound hc
  have e2 := cut_sound hr
  have n1 := cut_one_not_mem hr
  have hpath : (unslash ('/' :: rest)).head? = some '/' ∧
      (unslash ('/' :: rest) = '/' :: rest ∨ unslash ('/' :: rest) = rest) := by
    simp only [unslash]
    split
    · rename_i hp
      obtain ⟨t, ht⟩ := List.isPrefixOf_iff_prefix.mp hp
      refine ⟨?_, .inr rfl⟩
      simp only [List.cons_append, List.nil_append, List.cons.injEq, true_and] at ht
      rw [← ht]
      rfl
    · exact ⟨rfl, .inl rfl⟩
  simp only [parseUA] at hua
  split at hua
  · rename_i i a hat
    split at hua
    · cases hua
      have e3 := cut_sound hat
      have n3 := cut_one_not_mem hat
      refine ⟨sch, rest, i ++ ['@'], ?_, ?_, ?_, .inr ⟨i, rfl, n3, ?_⟩, hpath⟩
      · rw [e1, e2, e3]
        simp
      · rw [← e3]
        exact n1
      · simp only [parseUser]
        split
        · rename_i hn
          exact (cut_one_none ':').mp hn
        · rename_i hn
          exact cut_one_not_mem hn
      · simp only [parseUser]
        split
        · exact List.prefix_refl _
        · rename_i v w hn
          rw [cut_sound hn, List.append_assoc]
          exact List.prefix_append _ _
    · cases hua
  · rename_i hat
    split at hua
    · cases hua
      refine ⟨sch, rest, [], ?_, n1, by simp, .inl ⟨rfl, rfl, (cut_one_none '@').mp hat⟩, hpath⟩
      rw [e1, e2]
      simp
    · cases hua

/-- **C113.** An address that does not start with a bracket and has more than one colon is refused. -/
theorem C113_colons (name : List Char) (u : URL) (h : parse name = .ok u) (hb : u.addr.head? ≠ some '[') :
    u.addr.count ':' ≤ 1 := by
  have key : ∀ a : List Char, a.head? ≠ some '[' → addrOk a = true → a.count ':' ≤ 1 := by
    intro a hb ho
    simp only [addrOk, if_neg hb] at ho
    split at ho
    · simp only [hostPortOk] at ho
      split at ho
      · cases ho
      rename_i port hl
      obtain ⟨b, rfl⟩ := afterLast_sound hl
      have e : (b ++ ':' :: port).length - port.length - 1 = b.length := by simp; omega
      rw [if_neg hb, e, List.take_left' rfl] at ho
      simp only [Bool.and_eq_true, Bool.not_eq_true', List.contains_eq_mem, decide_eq_false_iff_not] at ho
      have hp : ':' ∉ port := afterLast_not_mem hl
      rw [List.count_append, List.count_cons_self, List.count_eq_zero_of_not_mem ho.1.1, List.count_eq_zero_of_not_mem hp]
    · rename_i hn
      rw [List.count_eq_zero_of_not_mem (by simpa using hn)]
      omega
  simp only [parse] at h
  split at h
  · cases h
    simp
  split at h
  · split at h <;> cases h
  split at h
  · cases h
  rename_i user addr hua
  cases h
  simp only [parseUA] at hua
  split at hua
  · split at hua
    · rename_i ho
      cases hua
      exact key _ hb ho
    · cases hua
  · split at hua
    · rename_i ho
      cases hua
      exact key _ hb ho
    · cases hua

/-- C113: a name with a scheme and an address but no slash after it is a panic, whatever the address. -/
theorem C113_panic_counterexample {scheme up u a : List Char} (hs : ':' ∉ scheme) (hu : UserPart up u) (ha : Addr a) :
    parse (scheme ++ [':', '/', '/'] ++ (up ++ a)) = .panic := by
  obtain ⟨h1, h2⟩ := hu.parse ha
  simp only [parse]
  rw [cut_scheme hs]
  simp only [(cut_one_none '/').mpr h2, h1]

def pRoot : List Char := ['r', 'o', 'o', 't']

example : parse (pRoot ++ [':', '/', '/'] ++ (['b', 'o', 'b'] ++ ':' :: ['x'] ++ ['@'] ++ (['h'] ++ ':' :: ['1']) ++ '/' :: ['/', 'f'])) =
    .ok ⟨['h', ':', '1'], ['b', 'o', 'b'], ['/', 'f']⟩ :=
  C113_parse (by decide) (.userPass (by decide) (by decide)) (.hostPort (by decide) (by decide)) _

example : parse (pRoot ++ [':', '/', '/'] ++ ([] ++ ('[' :: [':', ':', '1'] ++ ']' :: ':' :: ['9']) ++ '/' :: ['f'])) =
    .ok ⟨['[', ':', ':', '1', ']', ':', '9'], [], ['/', 'f']⟩ :=
  C113_parse (by decide) .none (.v6Port (by decide) (by decide)) _

example : parse ['/', 'd', '/', 'f'] = .ok ⟨[], [], ['/', 'd', '/', 'f']⟩ := C113_local _ (by decide) (by decide)

example : parse (pRoot ++ [':', '/', '/'] ++ ([] ++ ['h'])) = .panic :=
  C113_panic_counterexample (by decide) .none (.host (by decide))

example : parse (pRoot ++ [':', '/', '/', 'a', ':', 'b', ':', 'c', '/']) = .err := by decide +kernel

/-! ### C112: reading and seeking -/

/-- What a caller does with a file. -/
inductive Op
  | read (n : Nat)
  | seek (off : Int) (w : Whence)
deriving DecidableEq, Repr

/-- What the caller sees: bytes and error of a read, the position a seek returns. -/
inductive Seen
  | bytes (bs : List UInt8) (e : Option Err)
  | at (p : Int)
deriving DecidableEq, Repr

/-- The calls one after the other. -/
def runOps (file : List UInt8) : File → List Op → List Seen
  | _, [] => []
  | f, .read n :: ops => let r := f.read file n; .bytes r.1.1 r.1.2 :: runOps file r.2 ops
  | f, .seek off w :: ops => let g := f.seek file off w; .at g.pos :: runOps file g ops

/-- Specification, from the documentation of `io.Reader` and `io.Seeker`: a cursor in the file.  A
read gives the bytes from the cursor on and moves it behind them; `EOF` may come with the last bytes,
and comes once there are none left.  A seek is relative to the start, the cursor, or the end. -/
def cursorOps (file : List UInt8) : Nat → List Op → List Seen
  | _, [] => []
  | p, .read n :: ops =>
    let q := min file.length (p + n)
    .bytes ((file.drop p).take n) (if q = file.length then some .eof else none) :: cursorOps file q ops
  | p, .seek off w :: ops =>
    let q : Int := match w with
      | .start => off
      | .current => p + off
      | .fromEnd => file.length + off
      | .other => p
    .at q :: cursorOps file q.toNat ops

/-- The seeks are to places in the file, and not relative to its end except to the very end. -/
def Inside (file : List UInt8) : Nat → List Op → Prop
  | _, [] => True
  | p, .read n :: ops => Inside file (min file.length (p + n)) ops
  | _, .seek off .start :: ops => 0 ≤ off ∧ off ≤ file.length ∧ Inside file off.toNat ops
  | p, .seek off .current :: ops => 0 ≤ p + off ∧ p + off ≤ file.length ∧ Inside file (p + off).toNat ops
  | _, .seek off .fromEnd :: ops => off = 0 ∧ Inside file file.length ops
  | _, .seek _ .other :: _ => False

theorem ops_spec (file : List UInt8) (ops : List Op) (p : Nat) (hp : p ≤ file.length) (h : Inside file p ops) :
    runOps file ⟨p, file.length⟩ ops = cursorOps file p ops := by
  induction ops generalizing p with
  | nil => rfl
  | cons op ops ih =>
    cases op with
    | read n =>
      simp only [runOps, cursorOps, File.read, srvRead]
      rw [if_neg (by omega)]
      simp only [Int.toNat_natCast]
      have e : p + (slice file p n).length = min file.length (p + n) := by
        rw [slice_length]
        omega
      have e2 : (p : Int) + ((slice file p n).length : Int) = ((min file.length (p + n) : Nat) : Int) := by
        rw [← e]
        push_cast
        rfl
      have i := ih _ (by omega) h
      simp only [e2, i, Int.ofNat_inj]
      rfl
    | seek off w =>
      cases w with
      | start =>
        obtain ⟨h1, h2, h3⟩ := h
        simp only [runOps, cursorOps, File.seek]
        have := ih off.toNat (by omega) h3
        rw [show ((off.toNat : Nat) : Int) = off by omega] at this
        rw [this]
      | current =>
        obtain ⟨h1, h2, h3⟩ := h
        simp only [runOps, cursorOps, File.seek]
        have := ih (p + off).toNat (by omega) h3
        rw [show (((p + off).toNat : Nat) : Int) = p + off by omega] at this
        rw [this]
      | fromEnd =>
        obtain ⟨h1, h3⟩ := h
        subst h1
        simp only [runOps, cursorOps, File.seek, Int.sub_zero, Int.add_zero]
        have := ih file.length (by omega) h3
        rw [this]
        simp
      | other => exact h.elim

/-- **C112.** Reads and seeks of a file just opened see what a cursor in the file sees, as long as the
seeks stay inside the file and are not relative to its end. -/
theorem C112_ops_partial (file : List UInt8) (ops : List Op) (h : Inside file 0 ops) :
    runOps file (openFile file) ops = cursorOps file 0 ops := ops_spec file ops 0 (by omega) h

/-- The bytes of the reads up to the first error, and that error. -/
def collect : List Seen → List UInt8 × Option Err
  | [] => ([], none)
  | .bytes bs (some e) :: _ => (bs, some e)
  | .bytes bs none :: l => let r := collect l; (bs ++ r.1, r.2)
  | .at _ :: l => collect l

theorem inside_reads (file : List UInt8) (ns : List Nat) (p : Nat) : Inside file p (ns.map Op.read) := by
  induction ns generalizing p with
  | nil => trivial
  | cons n ns ih => exact ih _

/-- **C112.** Reading until `EOF` gives all of the file, whatever the lengths of the buffers, and the
buffers need not hold more than the file does. -/
theorem C112_read_all (file : List UInt8) (ns : List Nat) :
    (file.length ≤ ns.sum → ns ≠ [] → collect (runOps file (openFile file) (ns.map Op.read)) = (file, some .eof)) ∧
    (ns.sum < file.length → collect (runOps file (openFile file) (ns.map Op.read)) = (file.take ns.sum, none)) := by
  rw [C112_ops_partial file _ (inside_reads file ns 0)]
  have key : ∀ (ns : List Nat) (p : Nat), p ≤ file.length →
      (file.length ≤ p + ns.sum → ns ≠ [] → collect (cursorOps file p (ns.map Op.read)) = (file.drop p, some .eof)) ∧
      (p + ns.sum < file.length → collect (cursorOps file p (ns.map Op.read)) = ((file.drop p).take ns.sum, none)) := by
    intro ns
    induction ns with
    | nil =>
      intro p hp
      exact ⟨fun _ h => absurd rfl h, fun _ => by simp [cursorOps, collect]⟩
    | cons n ns ih =>
      intro p hp
      simp only [List.map_cons, cursorOps, List.sum_cons]
      by_cases hq : min file.length (p + n) = file.length
      · rw [if_pos hq]
        simp only [collect]
        refine ⟨fun _ _ => ?_, fun h => by omega⟩
        rw [List.take_of_length_le (by simp; omega)]
      · rw [if_neg hq]
        simp only [collect]
        have hm : min file.length (p + n) = p + n := by omega
        rw [hm]
        obtain ⟨i1, i2⟩ := ih (p + n) (by omega)
        constructor
        · intro h1 _
          rw [i1 (by omega) (by rintro rfl; simp at h1; omega)]
          simp only [Prod.mk.injEq, and_true]
          rw [← List.drop_drop, List.take_append_drop]
        · intro h1
          rw [i2 (by omega)]
          simp only [Prod.mk.injEq, and_true]
          rw [← List.drop_drop, List.take_add]
  have := key ns 0 (by omega)
  simpa using this

/-- **C112.** `ReadAt` gives the bytes at the offset, without an error if there are as many as asked for. -/
theorem C112_read_at_partial (file : List UInt8) (n off : Nat) :
    File.readAt file n off = ((file.drop off).take n, none) := by
  simp only [File.readAt, srvRead]
  rw [if_neg (by omega)]
  rfl

/-- C112: `ReadAt` never returns an error when there are fewer bytes; `io.ReaderAt` wants one. -/
theorem C112_short_counterexample (file : List UInt8) (n off : Nat) (h : file.length < off + n) (hn : 0 < n) :
    (File.readAt file n off).1.length < n ∧ (File.readAt file n off).2 = none := by
  rw [C112_read_at_partial]
  refine ⟨?_, rfl⟩
  simp
  omega

/-- C112: seeking relative to the end goes in the wrong direction: only to the very end is it right. -/
theorem C112_seek_end_counterexample (file : List UInt8) (f : File) (off : Int) (h : off ≠ 0) :
    (f.seek file off .fromEnd).pos ≠ file.length + off := by
  simp only [File.seek]
  omega

/-- C112: behind the end of the file reads return nothing and no error, over and over again. -/
theorem C112_beyond_counterexample (file : List UInt8) (k : Nat) (ns : List Nat) :
    runOps file (openFile file) (.seek (file.length + k + 1) .start :: ns.map Op.read) =
      .at (file.length + k + 1) :: ns.map fun _ => .bytes [] none := by
  simp only [runOps, File.seek, openFile, List.cons.injEq, true_and]
  induction ns with
  | nil => rfl
  | cons n ns ih =>
    simp only [List.map_cons, runOps, File.read, srvRead]
    rw [if_neg (by omega)]
    have e : slice file (((file.length : Nat) : Int) + (k : Int) + 1).toNat n = [] := by
      simp only [slice]
      rw [List.drop_eq_nil_of_le (by omega)]
      simp
    simp only [e, List.length_nil, Int.ofNat_zero, Int.add_zero]
    rw [if_neg (by omega), ih]

/-- C112: a seek to a negative position is not refused; the next read is. -/
theorem C112_negative_counterexample (file : List UInt8) (k : Nat) (n : Nat) :
    runOps file (openFile file) [.seek (-(k + 1)) .current, .read n] = [.at (-(k + 1)), .bytes [] (some .other)] := by
  have h : -((k : Int) + 1) < 0 := by omega
  simp only [runOps, File.seek, openFile, File.read, srvRead, h, if_true, Int.zero_add]

example : runOps [1, 2, 3, 4] (openFile [1, 2, 3, 4]) [.read 3, .seek (-2) .current, .read 2, .read 5] =
    [.bytes [1, 2, 3] none, .at 1, .bytes [2, 3] none, .bytes [4] (some .eof)] :=
  (C112_ops_partial [1, 2, 3, 4] _ (by simp [Inside])).trans (by decide +kernel)

example : collect (runOps [1, 2, 3, 4] (openFile [1, 2, 3, 4]) ([3, 3, 1].map Op.read)) = ([1, 2, 3, 4], some .eof) :=
  (C112_read_all [1, 2, 3, 4] [3, 3, 1]).1 (by decide) (by decide)

example : (File.readAt [1, 2, 3] 4 1).1.length < 4 := (C112_short_counterexample [1, 2, 3] 4 1 (by decide) (by decide)).1

end Verif.Remote.Xrd
