/-!
# Jobs and their saved configuration: fwk/job

A job creates and configures the components of an application, and records one statement for each thing it was asked for.
`Save` with a `GoEncoder` turns the statements into the source of a Go program which configures a job in the same way.

Modelled: the properties and the components of the application (fwk/app.go, fwk/registry.go), the job (fwk/job/job.go), the
encoder (fwk/job/gocodec.go) and what the program it writes does.
Simplified: a factory is a function giving the properties a component declares, their types and first values, and it creates
no other component. A Go map is the list of its entries in the order of an iteration. The source is a list of its parts
instead of its characters, and the text of a property value is an expression of an arbitrary type `E`, given by `lit`. What
the Go compiler makes of the source is `compile` below. Panics are `none`. -/

namespace Verif.Job

/-- A name or a type name. -/
abbrev Name := List Char

/-- The entries of a map of properties (fwk/job/job.go:22), in the order of an iteration. -/
abbrev Props (K V : Type) := List (K × V)

/-- What the program is linked with: the factories by type and name (fwk/registry.go:16-32), each giving the properties
declared; the type of a value, whether a value of a type may be assigned to another type, the package of the type of a value
(empty for the types of the language), and the properties of the application (fwk/app.go:94-110). -/
structure World (K V T : Type) where
  fac : Name → Name → Option (List (K × T × V))
  typ : V → T
  asg : T → T → Bool
  pkg : V → Name
  app : List (K × T × V)

/-- The properties and the components of an application (fwk/app.go:21-38), both by name. -/
structure App (K V T : Type) where
  props : Name → Option (K → Option (T × V))
  comps : Name → Option Name

variable {K V T E : Type} [DecidableEq K]

/-- A map with one more entry. -/
def upd {A B : Type} [DecidableEq A] (f : A → B) (a : A) (b : B) : A → B := fun x => if x = a then b else f x

/-- The declarations of the properties of a component (fwk/app.go:233-252), one after the other. -/
def declare (ds : List (K × T × V)) : K → Option (T × V) := ds.foldl (fun m d => upd m d.1 (some d.2)) fun _ => none

/-- The name of the application (fwk/app.go:46). -/
def appName : Name := ['a', 'p', 'p']

/-- The event store (fwk/app.go:68). -/
def storeName : Name := ['e', 'v', 't', 's', 't', 'o', 'r', 'e']

/-- The data-flow service (fwk/app.go:81). -/
def flowName : Name := ['d', 'a', 't', 'a', 'f', 'l', 'o', 'w']

/-- A new application (fwk/app.go:41-113): its two services, and its own properties. The types of the services are left out
(they are told apart by their names here). -/
def newApp (w : World K V T) : App K V T :=
  ⟨upd (upd (upd (fun _ => none) storeName (some fun _ => none)) flowName (some fun _ => none)) appName (some (declare w.app)),
   upd (upd (fun _ => none) storeName (some storeName)) flowName (some flowName)⟩

/-- A new component (fwk/registry.go:45-84): its type is registered, its name is not taken and not empty. -/
def App.new (w : World K V T) (a : App K V T) (t n : Name) : Option (App K V T) :=
  match w.fac t n with
  | none => none
  | some ds =>
    if (a.props n).isSome then none
    else if n = [] then none
    else some ⟨upd a.props n (some (declare ds)), upd a.comps n (some t)⟩

/-- Whether the component with that name has the property (fwk/app.go:306-314). -/
def App.hasProp (a : App K V T) (n : Name) (k : K) : Bool :=
  match a.props n with
  | none => false
  | some m => (m k).isSome

/-- The property set (fwk/app.go:254-281), when there is one and the types match. -/
def App.setProp (w : World K V T) (a : App K V T) (n : Name) (k : K) (v : V) : Option (App K V T) :=
  match a.props n with
  | none => none
  | some m =>
    match m k with
    | none => none
    | some d => if w.asg (w.typ v) d.1 then some ⟨upd a.props n (some (upd m k (some (d.1, v)))), a.comps⟩ else none

/-- The value of a property (fwk/app.go:283-304). -/
def App.getProp (a : App K V T) (n : Name) (k : K) : Option V := ((a.props n).bind (· k)).map Prod.snd

/-- The configuration of a component (fwk/job/job.go:14-18); the properties are `none` when nil. -/
structure Cfg (K V : Type) where
  name : Name
  typ : Name
  props : Option (Props K V)

/-- The statements (fwk/job/stmt.go:11-38). -/
inductive Stmt (K V : Type)
  | newApp (c : Cfg K V)
  | create (c : Cfg K V)
  | setProp (c : Cfg K V)

/-- A job (fwk/job/job.go:25-28). -/
structure Job (K V T : Type) where
  stmts : List (Stmt K V)
  app : App K V T

/-- The method `setProp` of a job (fwk/job/job.go:117-138). -/
def setProp (w : World K V T) (a : App K V T) (n : Name) (k : K) (v : V) : Option (App K V T) :=
  if a.hasProp n k then a.setProp w n k v else none

/-- The loops over a map of properties (fwk/job/job.go:48-50, 89-91). -/
def setProps (w : World K V T) (n : Name) : Props K V → App K V T → Option (App K V T)
  | [], a => some a
  | (k, v) :: ps, a => (setProp w a n k v).bind (setProps w n ps)

/-- The type of the application (fwk/app.go:116-118). -/
def appType : Name := ['g', 'o', '-', 'h', 'e', 'p', '.', 'o', 'r', 'g', '/', 'x', '/', 'h', 'e', 'p', '/', 'f', 'w', 'k', '.', 'a', 'p', 'p', 'm', 'g', 'r']

/-- `New` (fwk/job/job.go:30-52, 62-64): a job with a new application. -/
def newJob (w : World K V T) (ps : Option (Props K V)) : Option (Job K V T) :=
  (setProps w appName (ps.getD []) (newApp w)).map fun a => ⟨[.newApp ⟨appName, appType, ps⟩], a⟩

/-- `Create` (fwk/job/job.go:79-98). -/
def Job.create (w : World K V T) (j : Job K V T) (c : Cfg K V) : Option (Job K V T) :=
  match j.app.new w c.typ c.name with
  | none => none
  | some a =>
    match c.props with
    | none => some ⟨j.stmts, a⟩
    | some ps => (setProps w c.name ps a).map fun a => ⟨j.stmts ++ [.create c], a⟩

/-- A component handed to `SetProp`: the application itself, or what `Component` gives for a name (fwk/app.go:125-131), as
does `Create`. -/
inductive Ref
  | app
  | comp (n : Name)

/-- The name and the type of the component; nothing for a nil one. -/
def Job.find (j : Job K V T) : Ref → Option (Name × Name)
  | .app => some (appName, appType)
  | .comp n => (j.app.comps n).map fun t => (n, t)

/-- `SetProp` (fwk/job/job.go:103-115). -/
def Job.set (w : World K V T) (j : Job K V T) (r : Ref) (k : K) (v : V) : Option (Job K V T) :=
  match j.find r with
  | none => none
  | some c => (setProp w j.app c.1 k v).map fun a => ⟨j.stmts ++ [.setProp ⟨c.1, c.2, some [(k, v)]⟩], a⟩

/-- What a user asks of a job. -/
inductive Call (K V : Type)
  | create (c : Cfg K V)
  | set (r : Ref) (k : K) (v : V)

/-- One call. -/
def Job.call (w : World K V T) (j : Job K V T) : Call K V → Option (Job K V T)
  | .create c => j.create w c
  | .set r k v => j.set w r k v

/-- The calls of a configuration. -/
def Job.calls (w : World K V T) : List (Call K V) → Job K V T → Option (Job K V T)
  | [], j => some j
  | c :: cs, j => (j.call w c).bind (Job.calls w cs)

/-- A whole configuration: a new job and the calls on it. -/
def configure (w : World K V T) (ps : Option (Props K V)) (cs : List (Call K V)) : Option (Job K V T) :=
  (newJob w ps).bind (Job.calls w cs)

/-! ### The encoder -/

/-- The parts of the source written (fwk/job/gocodec.go:64-70, 97-112, 127-135, 140-185). -/
inductive Item (K E : Type)
  | clause
  | imports (named blank : List Name)
  | newApp (ps : Option (Props K E))
  | config (cs : List (Call K E))

/-- The encoder (fwk/job/gocodec.go:29-33): what its buffer holds, and whether the first part was written. -/
structure Enc (K E : Type) where
  buf : List (Item K E)
  init : Bool

/-- A new encoder (fwk/job/gocodec.go:18-26). -/
def Enc.new : Enc K E := ⟨[], false⟩

/-- What `Encode` does: it writes the parts, it returns an error, or it panics. -/
inductive Out (K E : Type)
  | wrote (s : List (Item K E))
  | err
  | panic

/-- The package of a type name: what is before its last dot (fwk/job/gocodec.go:78-83). -/
def pkgOf (t : Name) : Option Name :=
  if '.' ∈ t then some ((t.reverse.dropWhile (· ≠ '.')).drop 1).reverse else none

/-- The configuration of a statement. -/
def Stmt.cfg : Stmt K V → Cfg K V
  | .newApp c => c
  | .create c => c
  | .setProp c => c

/-- The type name of a statement which makes a component (fwk/job/gocodec.go:75-77). -/
def Stmt.made : Stmt K V → List Name
  | .newApp c => [c.typ]
  | .create c => [c.typ]
  | .setProp _ => []

/-- The packages of the types made (fwk/job/gocodec.go:74-85); nothing when a type name has no dot. -/
def madePkgs (ss : List (Stmt K V)) : Option (List Name) := (ss.flatMap Stmt.made).mapM pkgOf

/-- The packages of the types of the property values (fwk/job/gocodec.go:87-94). -/
def valPkgs (w : World K V T) (ss : List (Stmt K V)) : List Name :=
  ((ss.flatMap fun s => (s.cfg.props.getD []).map fun p => w.pkg p.2)).filter (· ≠ [])

/-- The keys of a map, each once (fwk/job/gocodec.go:72-73). -/
def keys : List Name → List Name
  | [] => []
  | n :: ns => if n ∈ ns then keys ns else n :: keys ns

/-- The text of properties (fwk/job/gocodec.go:190-205): nil when there are none, and the entries otherwise, in any order
`ord`. -/
def reprProps (lit : V → E) (ord : Props K E → Props K E) (ps : Option (Props K V)) : Option (Props K E) :=
  match ps.getD [] with
  | [] => none
  | l => some (ord (l.map fun p => (p.1, lit p.2)))

/-- The line of a statement (fwk/job/gocodec.go:142-183). The property of a `SetProp` statement is the last of its map (there
is one). -/
def line (lit : V → E) (ord : Props K E → Props K E) : Stmt K V → List (Call K E)
  | .newApp _ => []
  | .create c => [.create ⟨c.name, c.typ, reprProps lit ord c.props⟩]
  | .setProp c =>
    match (c.props.getD []).getLast? with
    | none => []
    | some p => [.set (.comp c.name) p.1 (lit p.2)]

/-- The type of the first statement: `none` when it is not a `NewApp` one (fwk/job/gocodec.go:114-125). -/
def firstApp : Stmt K V → Option (Cfg K V)
  | .newApp c => if c.typ = appType then some c else none
  | _ => none

/-- The first parts of the source (fwk/job/gocodec.go:63-138). What was written before an error stays in the buffer. -/
def Enc.header (w : World K V T) (lit : V → E) (ord : Props K E → Props K E) (e : Enc K E) (ss : List (Stmt K V)) :
    Enc K E × Option (Out K E) :=
  match madePkgs ss with
  | none => (⟨e.buf ++ [.clause], e.init⟩, some .err)
  | some ds =>
    let named := keys (valPkgs w ss)
    let b := e.buf ++ [.clause, .imports named ((keys ds).filter (· ∉ named))]
    match ss with
    | [] => (⟨b, e.init⟩, some .panic)
    | s :: _ =>
      match firstApp s with
      | none => (⟨b, e.init⟩, some .err)
      | some c => (⟨b ++ [.newApp (reprProps lit ord c.props)], true⟩, none)

/-- The method `encode` (fwk/job/gocodec.go:61-188). -/
def Enc.encode (w : World K V T) (lit : V → E) (ord : Props K E → Props K E) (e : Enc K E) (ss : List (Stmt K V)) :
    Enc K E × Option (Out K E) :=
  let r := if e.init then (e, none) else e.header w lit ord ss
  match r.2 with
  | some o => (r.1, some o)
  | none => (⟨r.1.buf ++ [.config (ss.flatMap (line lit ord))], r.1.init⟩, none)

/-- `Encode` (fwk/job/gocodec.go:36-59), and `Save` (fwk/job/io.go:13-15): the whole of the buffer is written, and it is
never emptied. The formatting of the source is not modelled. -/
def Enc.save (w : World K V T) (lit : V → E) (ord : Props K E → Props K E) (e : Enc K E) (ss : List (Stmt K V)) :
    Enc K E × Out K E :=
  let r := e.encode w lit ord ss
  (r.1, r.2.getD (.wrote r.1.buf))

end Verif.Job
