# Formal model of go-hep/hep: design

## 1. What is here

* `properties.jsonl`: the properties, in English, in terms of the API.
* `lean/Verif/<Area>/Model.lean`: the model. Every definition cites the Go file and lines it transcribes; simplifications are stated in the same comment.
* `lean/Verif/<Area>/Lemmas.lean`: helper lemmas (no claims).
* `lean/Verif/<Area>/Props.lean`: small independent specifications, the property theorems, and next to each theorem an `example` with a concrete non-trivial instance meeting its hypotheses. Where the code violates a property, the negation is proved with a witness (`*_counterexample`, `*_violated`) and the positive part is kept with the suffix `_partial`.
* `MANIFEST.json`: property → theorem names and status.
* `seeded/LOG.jsonl`: log of the wrong-program experiments.
* `COVERAGE.md`: the Go functions modelled and not modelled.

## 2. Trusted base

1. Lean 4.33.0's kernel, and the fidelity of the hand-written model to the Go text in /repo. The Go code is not executed; the correspondence is by reading, function by function.
2. Axioms: only `propext`, `Classical.choice`, `Quot.sound` (Lean/Mathlib standard). No axiom is added, no `sorry`, no `native_decide`, no `bv_decide`.
3. Modelling conventions (apply everywhere unless a definition's comment says otherwise):
   * Go `panic` and Go run-time panics (index out of range) are an explicit outcome (`none` / `Except.error`), never ignored.
   * Fixed-width integers: `BitVec`/`UIntN` where wrapping matters; otherwise `Int`/`Nat` with explicit range hypotheses in the theorem.
   * `int` is 64-bit. Sizes fit in `int` (no slice is longer than 2^63).
   * float64: (a) where the code only compares, values are elements of an arbitrary linear order extended with NaN (every comparison with NaN is false; -0 and +0 identified); (b) where it accumulates, theorems are stated over arbitrary `Add`/`Mul` operations without laws (so they hold for IEEE arithmetic) ; (c) theorems labelled *exact arithmetic* are stated over a commutative ring or an ordered field and do not claim bit-exactness in float64.
   * Compression codecs (zlib, lz4, zstd, lzma) are parameters assumed lossless. Hash functions, random numbers and the clock are arbitrary parameters.
   * Goroutines: interleaving semantics; a step is one channel operation, one lock-protected section or one atomic operation. Memory is sequentially consistent; data races inside the modelled code are out of scope unless stated.
   * The Go standard library (sort, bytes, strings, encoding/binary, path, strconv, maps, channels) is modelled by its documented behaviour; where a function is re-implemented in the model it is cited as such.
   * Memory exhaustion and I/O errors of the operating system are not modelled except where a theorem says so (short reads).

## 3. Per property: model and proof plan

| id | model | proof |
|----|-------|-------|
| C01 | byte buffers with position, growth with arbitrary junk, big-endian codecs of WBuffer/RBuffer | induction over the sequence of values |
| C02 | WriteString/ReadString | case on length; counterexample for a leading NUL byte, `_partial` otherwise |
| C03 | WriteHeader/SetHeader/ReadHeader/CheckHeader with in-place patching | buffer lemmas; nesting by induction over a tree of objects |
| C04 | reads with explicit panic outcome and sticky error | case analysis; counterexample for strings (short read is padded) |
| C05 | array codecs | induction on the slice |
| C06 | freeList.add with sort and consolidate | invariant: sorted, separated; membership = union |
| C07 | freeList.best | induction on the list |
| C08 | time2datime/datime2time on bit fields | bit arithmetic; violated from year 2059 on |
| C09 | decodeNameCycle on strings, decimal conversion | list lemmas; violated for 9999 and overflow |
| C10 | Key marshal/unmarshal/keylenFor | via C01 lemmas |
| C11 | directory as list of keys, Put/Get | invariant over Put sequences |
| C12 | allocation at end of file | invariant over allocation sequences |
| C13 | rcompress framing with abstract lossless codec | induction on blocks |
| C14 | Key.load | partial: fails when compressed length equals raw length |
| C15 | freeSegment marshal | via C01 |
| C16 | file header marshal | via C01 |
| C17 | compression settings | integer arithmetic |
| C18 | branch writer (basket splitting) + sequential reader | invariant on baskets; refinement to list slices |
| C19 | transition system of the prefetcher and its consumer | inductive invariant over all schedules, progress |
| C20 | range check, Chain offsets, findTrees, run; a tree is its reader, instantiated with C18 | list lemmas; counterexamples for empty ranges |
| C21 | findBasketIndex with cached context | violated by backward access; partial for forward access |
| C22 | Join, maps of branches and leaves, reader of a join on top of the C18 readers | iff over lists; rows side by side by induction; counterexamples for leaves and n-tuples |
| C23 | IndexOf/coordToIndex over a linear order with NaN | binary-search lemma + sortedness |
| C24 | fill with law-free accumulation | fold induction |
| C25, C26, C27, C28 | add/scale/integral (exact arithmetic) | fold lemmas over commutative rings |
| C29 | 2D index | from C23 |
| C30 | constructors | sortedness lemmas |
| C31 | Rand1D.Rand | violated for variable bins; partial for uniform bins |
| C60 | H1D.Bin | from C23; panics in gaps |
| C61 | AddScaledH1D checks | case analysis; counterexample for inner edges |
| C32, C33, C65, C66 | rio record framing, scanner, files with offsets, option packing | alignment arithmetic, induction over streams, bit arithmetic; counterexamples for mixed compressors, stale blocks, lazy decompressors |
| C34–C36, C67, C68 | sio framing, pointer relocation over blocks and any map order, unconnected blocks, reflection-based encoding of a universe of Go types | induction over records, blocks, calls and types; counterexamples for unaligned uncompressed payload, marker bytes in payload, maps of structures, cut strings |
| C37 | xrdenc | as C01; ReadBool counterexample |
| C38, C39 | mux and session as transition systems | invariants over all interleavings |
| C40, C69, C70 | all requests and responses as readers/writers; framing; server parsing | a `Reads` calculus (what a writer wrote is read and exactly consumed); counterexamples |
| C41 | path.Clean/path.Join and handler paths | violated (".."); partial for clean relative paths |
| C42, C43 | dirlist and stat text codecs | string lemmas; counterexamples |
| C44 | signing tables and overrides | case analysis + induction over override lists |
| C45 | handle table | invariant over histories |
| C46 | sendSession loop | adversarial server as a function; fuel-free bound |
| C71 | opaque parts of paths, redirection addresses | list lemmas; counterexamples |
| C72 | sigver, sequence numbers | SHA-256 as a parameter; all interleavings of number taking and sending |
| C73 | mux and session as transition systems | progress; counterexamples for cancellation, lost connections, stray responses |
| C47, C50 | dflow graph and Tarjan's algorithm | invariants of the depth-first search (full correctness); self-loop and type counterexamples |
| C48, C49 | event store and task transition system | invariants, progress |
| C74 | event loop: producer, workers and collector as a transition system over channels | inductive invariant on where each event is, progress, weight that decreases |
| C75 | phases of the application, with every callback allowed to fail; scripts as sequences of calls | composition lemma for phases; exact characterisation of the state by the history |
| C76 | output stream goroutines and callers sharing two channels | invariant for one stream; counterexamples for two |
| C77 | histogram service: names, identifiers, fills | induction over bookings and fills |
| C51 | cellid bit fields | bit-vector arithmetic; bit-63 counterexample |
| C52 | sliceop with in-place destinations | induction |
| C53, C54, C78, C79 | clustering history, any distances and recombinations | invariants on the history forest |
| C80 | heap of candidate pairs | heap order invariant, permutation of the contents |
| C81 | whole ROOT files: directories in memory, records on disk, closing, opening | invariant on which bytes of the disk hold which record; refinement of a specification by lists of entries |
| C82 | objects pointing to objects: `WriteObjectAny`, `WriteClass`, `ReadObjectAny`, arrays of objects | functional encoder refined by the buffer; induction on the depth with an invariant relating the maps of writer and reader; counterexamples for cycles |
| C83 | HepMC events as a heap of vertices and particles; text encoder and decoder of the GenEvent format, line by line; numbers and quoting as parameters | the decoder run over the lines of each part; isomorphism of graphs built while reading; induction over the events |
| C84 | `AddVertex`, `AddParticleIn`, `AddParticleOut` on the heap | each operation preserves the consistency of the graph; invariant over all programs |
| C85 | `Copy` through one event | encoder as a function of the event up to isomorphism; overlay of what is left from the earlier event |
| C86 | the same decoder with the outcome "waits for ever" of a receive from the channel of an ended goroutine | case analysis over the decoder |
| C87 | the binary writers and readers of `hbook` byte by byte, Float64bits and the gob encoding of annotations as parameters | reading combinators: exact on the record, panic on all proper prefixes |
| C88 | `newBinningP1D`, `coordToIndex`, `fill` over an abstract float type; a binary64 rounding over the rationals for the counterexample | accounting for every additive quantity by induction over fills; placement in exact arithmetic by floor bounds |
| C89, C90 | `NewS2DFromH1D`, `NewS2DFromP1D`, `DivideH1D` | pointwise; a relation on distributions with equal x moments for profiles |
| C91 | `mean`, `variance`, `EffEntries` | algebra over sums of entries, Cauchy inequality by induction |
| C92 | `FastJet/Predicates`: floating point numbers with error bounds, orientation, in-circle determinant | forward error analysis over an ordered field with an abstract rounding, instantiated with binary64 |
| C93 | `Fmom/P4`: the five representations over the reals | each shown to have the getters of one canonical momentum (`Canon`), conversions through it |
| C94 | `Add`, `Scale`, `InvMass`, `Boost`, `BoostOf` over the reals | polynomial identities in the two boost factors, reverse Cauchy inequality |
| C95 | `DeltaPhi`, `DeltaR`, `CosTheta` over the reals | `math.Remainder` is the shortest representative; Minkowski and Lagrange identities |
| C96 | `CxxTemplateFrom` on lists of characters | a template name passes through the splitting loop, by mutual induction over C++ types |
| C97 | the closures of `wstreamer.go`/`rstreamer.go` as a tree of operations | every operation appends the bytes its reader parses, by mutual induction over operations |
| C98 | the same | reading never moves past the data and never backwards, so the byte count in the header is not met |
| C99 | `makeWOp`/`wopFrom` and `makeROp`/`ropFrom`, `build` once | the two compilers give the same operations up to the versions inside maps |
| C100 | `StreamerOf`, `typenameOf`, tags | induction over the derivation that a Go type has a storage layout |
| C57, C58 | string slices, buffer reuse | via C01 lemmas; counterexamples |
| C59 | directory headers | via C01 lemmas |
| C55, C56, C63, C64 | heppdt digit functions over all integers | digit arithmetic; counterexamples |
| C62 | codec strings: parsing, description, value strings | list lemmas on separators; the description of a layout parsed again |
| C101 | `rootcnv.FromH1D`, `H1D`, `rhist` one-dimensional histograms | assignments to distinct cells as a list of writes; entries of bins over ordered fields |
| C102 | the same | cell by cell |
| C103 | `ROOTMerge`, `AddH1D` | cell by cell |
| C104 | `rootcnv.FromH2D`, `H2D`, `rhist` two-dimensional histograms | cells of columns and rows are distinct, writes of the double loop |
| C105 | `rootcnv.S2D`, `FromS2D`, graphs | point by point |
| C106 | `csvutil.Table.WriteRow`, `Rows.Scan`; `encoding/csv` from its documentation | machine over characters; induction on fields and rows |
| C107 | `csvutil.Table.ReadRows`, `Rows.Next` | induction on the records a reader delivers |
| C108 | `csvutil.Create`, `Append`, `WriteHeader`, `Close` | invariant of buffered and direct writes, any flushes |
| C109 | `fwk/utils/parallel.Run` | step machine, invariant on tokens, wait group and errors; measure |
| C110 | `rcache`, `span` of `groot/riofs/plugin/http` | step machine over any number of calls and goroutines, writes byte by byte; invariant |
| C111 | `httpio.Reader`, `preader` | server as a function of the range; induction on blocks and on the sequence of reads |
| C112 | `xrdio.File` | cursor specification; refinement by induction on the calls |
| C113 | `xrdio.Parse` | cutting of texts at separators; both directions |
| C114 | `ntup.Ntuple.massageQuery` | cutting of texts |
| C115 | `ntup.Ntuple.Scan`, `ScanH1D` | induction on rows; the binning of C23-C30; binary64 rounding for the counterexample |
| C116 | `ntup.Create` | induction on fields |
| C117 | `slha.Block`, `slha.Index` | texts of integers are injective; induction on the sets |
| C118 | `slha.Encode`, `slha.Decode` | words and padding of texts, the two regular expressions as functions; induction on lines |
| C119 | `slha.Decode` | invariant of the loop; exact condition of the panics |
| C120 | `hepevt.Encoder`, `hepevt.Decoder` | words of lines, slices filled index by index; induction on the particles and on the events |
| C121 | `rsqldrv`: expressions, coercion of literals, translation of the syntax tree | typed integers as bit vectors against a denotation in the integers; induction on conditions |
| C122 | `rsqldrv.driverRows` | step machine of goroutine and caller; invariant, measure for termination |
| C123 | `rsqldrv.rootDriver`, `driverConn` | invariant over all sequences of calls |
| C124 | `lhef.Encoder`, `lhef.Decoder` | text of the file, a reader of XML over characters, `fmt.Fscanf` as a parser; induction on headers, particles and events |
| C125 | `lhef.Decoder` | induction on the elements of a token sequence |
| C126 | `riofs.Dir`: `Get`, `Put`, `Mkdir` by path | trees of directories; induction on paths; updates at a path described by what every path holds after |
| C127 | `riofs.Walk` | induction on the nesting of directories; the visits described by the paths they reach |
| C128 | `rcmd.Merge` | states of the output file after each visit of the walk; tasks and closing described by what every path holds |
| C129 | `rcmd.Split` | induction on the entries left; each file described by all it holds |
| C130 | `rcmd.Copy` | invariant over the visits of the walk; induction on the arguments |
| C131 | YODA texts of `hbook.H1D` | loop over the lines of an arbitrary table; scanning of formatted numbers; lookup in maps after renaming of keys |
| C132 | YODA texts of `hbook.P1D` | as C131; least and greatest of folds |
| C133 | YODA texts of `hbook.H2D` | as C131; transposition of grids; number of keys of a map |
| C134 | YODA texts of `hbook.S2D` | as C131; permutations, uniqueness of sorted lists |
| C135 | `hbook/yodacnv` | induction on the blocks; independence of a trailing empty line |
| C136 | `lcio` events, `sio` pointers | induction on records with a reader that consumes exactly what was written; relocation as a permutation-invariant fold; counting of children |
| C137 | `lcio` files | induction on the items, with the state of the reader between records as invariant |
| C138 | `hepmc/rootcnv` columns | induction on rows with explicit renaming of pointers; the links made so far as invariant |
| C139 | `hepmc/rootcnv` readers and writers | induction on the events, with what was made before as invariant |
| C140 | `cmd/lhef2hepmc` | invariant of the graph while it is built, induction on particles and events, composed with C83 and C124 |
| C141 | `cmd/lhef2hepmc` cross sections | sums as folds, algebra over the reals |
| C142 | object classes of `groot/rbase`, `rcont`, `rhist`, `rphys`, `rdict`, `rtree` | per-class run lemmas, composed with C82 through a table of contracts |
| C143 | the same, second round trip | idempotence of the normal form, a permutation argument for pointers |
| C144 | the same, older versions | case analysis on the version |
| C145 | `groot/rtree` leaves: `leaf.go`, `leaf_gen.go`, `rleaf.go`, `rleaf_gen.go`, `rvar.go`, `reader.go` | invariants of the written and the read leaves, an order of reading with counts first, composed with C18 |
| C146 | `groot/rbytes/wbuffer.go`, `groot/rbytes/rbuffer.go`: Float16 and Double32 | exact arithmetic for ranges, bit fields as numbers for mantissas |
| C147 | `groot/rdict/rdict.go`: `getRange` | splitting at the last brackets and at commas, composed with C146 |
| C148 | `fads/calo.go`: `EtaPhiGrid` | strictly sorted lists are determined by their members; specification of `sort.Search` |
| C149 | `fads/calo.go`: `Calorimeter.Process` | packing and unpacking of hits, sorted hits cut into runs, sums over cells |
| C150 | `fads`: `Candidate.Overlaps`, `Merger`, `Efficiency`, `UniqueObjectFinder` | induction on the nesting; lists |
| C151 | `fads/isolation.go`: `Isolation.Process` | slots of a slice have new addresses; sums over filtered lists |
| C152 | `fads`: `BTagging`, `TauTagging` | loops as filters and sums |
| C153 | `groot/rtree`: `WriteVarsFromStruct`, `ReadVarsFromStruct`, `WriteVarsFromTree` | dimensions in names taken apart by an automaton; two traversals agree |
| C154 | `hplot`: `DataRange` of `H1D`, `HStack`, `S2D`, `Band`, `BinnedErrBand` | folds of minima and maxima; induction over the stack |
| C155 | `csvutil/csvdriver`: `importCSV`, `inferSchema` | rows of C107, columns by induction, scanning row by row |
| C156 | `csvutil/csvdriver`: `Open`, `Close` | invariant over all histories; three steps of closing for the race |
| C157 | `fwk/job`: `Create`, `SetProp`, `GoEncoder.Encode` | properties commute for distinct keys; statements and lines call by call; the imports link the factories |
| C158 | `groot/rhist`: `ROOTMerge` of graphs and scatter plots | lists of equal length appended, induction over the graphs |
| C159 | `groot/rnpy`: `NewRecord`, `appendData` | induction over the dimensions: places in row-major and column-major order |
| C160 | `groot/rarrow`: `NewRecord`, `NewSlice`, `RecordReader.Next` | the pieces of a list are unique; induction over the rounds of the loop, `int64` additions that wrap |
| C161 | `groot/rarrow`: `SchemaFrom`, `appendData`, `appendValue` | types with values and columns depending on them; induction over the type: what appending does to every row |
| C162 | `groot/rarrow`: `Write`, `readFrom` | induction over the type and the rows, against the meaning of columns |
| C163 | `brio/cmd/brio-gen/internal/gen`: `genMarshalType`, `genUnmarshalType` | places in an object that depend on the loop variable, their laws; mutual induction over types and lists of fields |
| C164 | `groot/rcmd`: `Diff`, `diffObject`, `diffDir`, `diffTree` | keys and paths of C126; induction on the depth of directories; names as duplicate-free lists of equal length |
| C165 | `groot/rcmd`: `diffTree`, `treeDump` | a machine of three actors with rendezvous; an invariant for each place of the main actor; a rank that every step lowers |
| C166 | `groot/rtree`: `Reader.Formula`, `Read`, `Reset`, `formulaAutoLoad`; `rfunc` | memory by address; invariant over all sequences of calls: variables apart, internal reader in step or marked dirty |
| C167 | `fwk/rio`: `OutputStreamer`, `InputStreamer`, on the byte model of `rio` | induction over events on the result of C32; the record of the scanner after a failure for the counterexamples |
| C168 | `fwk/hbooksvc/stream.go` on the byte model of `rio` | from C32, by the place of the only record of a name |
| C169 | `xrootd/cmd/xrd-cp` | mutual induction over trees: jobs are the files, directories are made; then the jobs in sequence |
| C170 | `hplot/vgop` | JSON as trees; every reader inverts its writer, lists and optional fields by lookup lemmas |
| C171 | `hplot/htex` | step machine of the caller and one goroutine per document; invariant; rank lowered by every step |
| C172 | `fads` | exact arithmetic over the reals; lines and helices; the set of times at which a line is in the cylinder |
| C173 | `groot/rdict`, `groot/riofs` | maps as lists with different keys; any order and any sort; uniqueness of sorted permutations |
| C174 | `groot/rcmd`, `groot/cmd/root-print` | string functions |
| C175 | `groot/rtree` | events of opening and closing; how often each file is open |
| C176 | `groot/rcont` | list of values; elements and streamers as parameters |
| C177 | `fads` | exact arithmetic over the reals; random draws as parameter |
| C178 | `fads` | lists; table of particles, order of the map and sorting as parameters |
| C179 | `heppdt` | lists of characters; numbers and their notation as parameters |
| C180 | `fads` | jets as given by the clustering; distances as parameters, exact arithmetic |
| C181 | `xrootd` | trees; which requests fail is a parameter |
| C182 | `groot/rsrv/internal/hexcolor` | bytes as numbers; parsing and `%02X` from their documentation |
| C183 | `hepmc` | a heap of particles and vertices; a map is walked in any order, entries removed before they are reached do not come |
| C184 | `heppdt` | the tables of `LSpin` and `SSpin`; ids of any size |
| C185 | `xrootd` | step machine of requests, the lock, the channel of free connections and the server's numbers |
| C186 | `fit` | exact arithmetic; the solver of gonum is a parameter with its documented property |
| C187 | `groot/riofs` | the loop of `SegmentMap` on the headers of a file; the header `markFree` writes |
| C188 | `hplot/internal/talbot` | exact arithmetic; the search for labels is not part of it |
| C189 | `xrootd` server | step machine; the handling of requests is not part of it |
| C190 | `xrootd` client, `auth` | characters; requests and the answers of the server are parameters |
| C191 | `hplot` `FreqTicks` | exact arithmetic; the text of labels is a parameter |
| C192 | `xrootd` client, its sessions | step machine; opening a session succeeds or not |
| C193 | `heppdt` `Resonance` | exact arithmetic |
| C194 | `hplot` `TiledPlot` | which plot is drawn in which tile; not the areas |
| C195 | `xrootd/xrdio`, opening and closing | what is open; the steps succeed or not |
| C196 | `hplot` `Label` | exact arithmetic, linear axes; the box of the text is given |
| C197 | `groot/rsql` `Scan`, `ScanH1D`, `ScanH2D` | the rows of the query are given |

## 4. What is modelled and what is not

`COVERAGE.md` lists, function by function, what is modelled (generated from the citations in the Lean comments) and in which Lean module; functions it does not list as modelled are outside every theorem.

Struct variables (C153): the type of a struct is a list of fields with name, tag and kind; which names are exported is a parameter, and the regular expression for dimensions is an automaton on characters. Values behind the pointers are those of C145.

Plots (C154): what is drawn is a list of points, given in the specification; numbers are elements of an ordered field with two infinities. `plotter.XYRange` and the error bars of gonum are taken from their documentation. Canvas, glyphs, legends and clipping are not modelled.

CSV databases (C155, C156): the SQL engine is not part of the repository; making the table and inserting rows is assumed to keep the values. Files are those of C106 to C108. Connections are records in the order they were made; closing is one step, and for the race three steps of one user with another user in between.

Jobs (C157): the application is the map of its components and properties; a factory gives the properties it declares. The source which the Go encoder writes is a list of its parts (package clause, imports, two functions), and what a Go compiler and linker make of it is a small specification: one of each part, packages with different names, and the factories of the imported packages only. Formatting, and the JSON encoder, are not modelled.

Graphs (C158): the arrays and ranges that `ROOTMerge` touches; coordinates are of any linear order. NumPy records (C159): elements of any type in the order of the file; npyio and Arrow are not part of the repository, and a builder is the list of what was appended.

Arrow records (C160–C162): a tree is the list of its entries, the reading of which is the subject of C09 to C21; additions of `int64` wrap. Arrow is not part of the repository: columns are modelled after the Arrow columnar format, with a validity and an offset per row. Memory, reference counts, names inside of structs and the metadata of schemas are left out; `root.Float16` and `root.Double32` are `float32` and `float64`. A value appended to a column of another type panics in the model in all cases.

Generated methods (C163): the text that brio-gen prints is modelled by its meaning, the name of the place that is written kept as a pair of functions that depend on the loop variable `i`; whether the Go compiler takes the text is a separate predicate, written after the rules of the language for the statements that occur (no test in the repository compiles the text). Named basic types, types of other packages and the import of packages are left out, and slicing past the length is a panic.

Comparing files (C164, C165): a file is the tree of directories of C126, with trees of rows of values and other objects in it; `reflect.DeepEqual` and `cmp.Diff` are parameters, assumed to hold only for equal values where that is needed. That rows come in order is taken for granted in C164 and proved in C165, where loading and comparing variables are single steps of three actors under any schedule; a send or receive on a channel without buffer is one step of the main actor.

Formulas (C166): the values a tree holds are a function of entry, branch and leaf, filling a variable is writing to its address (that reading gives these values is C145 and C18), user functions are functions on lists of values with their types beside them. The variables that the internal reader adds for leaf counts and for fields of structs are left out.

Event streams (C167): the streamers of `fwk/rio` on top of the byte model of `rio`, including what the record of the scanner holds
after a `Scan` that failed, because `Read` goes on with it. The store has one slot per port; that another task takes the value out
of its slot for a moment (`Get`) is left out, as are files that cannot be opened. The encoding of values by reflection is a parameter.

Histogram files and copies (C168, C169): the files of the histogram service are records of the byte model of `rio`. For `xrd-cp` paths are
lists of names, the local file system is a function from paths to files and directories, and the server a tree that does not
change; reading a remote file is taken as correct here (see C40, C69, C70 for the protocol).

Recorded drawings (C170): JSON documents are trees, and the text of a tree is taken to be read back as that tree; floats are an arbitrary type
with a zero; PNG and base64 are parameters.

LaTeX (C171): the goroutines of the background handler are interleaved step by step in any order; the external command is a function that gives the
files it leaves, or fails.

Propagation (C172): real numbers for floats, the functions of Mathlib for the trigonometric ones; one candidate at a time: the sorting of the output and
the mothers of the clones are not modelled.

Streamers (C173): a streamer is its name, title, version and pointer; the elements are not modelled, and the dependencies that the visitor collects from them
are a list that is given.

Arrays of clones (C176): what is written is a list of values, whose bytes are those of C05 and following; how an element is
written and read, and which streamers there are, are parameters. Member-wise streaming, which the code answers with a panic,
is only the panic.

Scaling and smearing (C177): exact arithmetic over the reals. A draw of a random number is a function of its place in the
sequence, the mean and the width; that it is normally distributed is not used. The getters of momenta are those of C93.

Reading events and tables of particles (C178, C179): the order in which Go gives the particles of a map is any order, sorting is
any function that sorts; the table of C178 is a parameter, that of C179 is read from lines as `bufio.Scanner` gives them. Number
notation is a parameter; a charge is kept as a fraction.

Servers and clients of remote files (C189, C190, C192) are step machines whose steps are what the code does within one lock; every
interleaving of them is allowed. The races these models show (a connection registered after a shutdown, two sessions at one address) are
stated as counterexamples, and the partial theorems exclude just them. Ticks (C188, C191) and polynomials (C186) are in exact arithmetic.

In particular not modelled: ROOT streamer code generation and reflection-driven encoders (rdict), plotting (hplot) but for data ranges, fitting and minimisation, statistics with logarithms, command-line tools, network transport and authentication of xrootd, file grammars (LCIO, SLHA, LHEF) beyond what `COVERAGE.md` lists.

Compressed numbers (`Verif/RBytes/Pack*.lean`, `Verif/Rdict/Range*.lean`): with a range, the arithmetic is that of an arbitrary ordered field with floor (exact, no rounding of intermediate results); with bits only, a 32-bit float is its bit pattern and sign, exponent and mantissa are taken from it by division, in a specification of its own. `strconv.ParseFloat` and pi are parameters. That reading a file panics for some member titles is a counterexample theorem of C147.

Tree variables (`Verif/RTree/Leaf*.lean`): the writer is a list of leaves with the state they keep (largest count, longest string), the file keeps name, title, type, length and count of each, the reader makes its own leaves from those, hidden ones for counts nobody asked for, groups them by branch and reads into a list of Go variables which keeps its content from entry to entry. The bytes of the baskets between the two are those of C18: C145 is stated over the branch writer and reader of C18, with files that grow in between. A number is its bits; memory shared by two variables, the capacity of slices and the compressed floating-point leaves are not modelled.

ROOT objects (`Verif/Robj`): a `MarshalROOT` method is a function that puts data, pointers and blocks in front of what follows (`Wr`), an `UnmarshalROOT` method is a program over the same three (`Rd`), running it is `Rd.run`. `Rd.dec` turns it into the shape `ReadObjectAny` needs (`Verif.RBytes.Refs.Dec`, where what is read next may depend on the data read so far), and C142 composes the two. The model was compared with real files: it reads the payloads of the `.dat` files and of most keys of `groot/testdata/*.root` (histograms, graphs, profiles, functions, trees, streamer infos), and writes them again with the same bytes except for the on-heap bit, upgraded class versions and the shorter form of I/O features; two of the small files are examples in `Verif/Robj/More.lean`.

Fast detector simulation (`Verif/Fads`): momenta and energies are elements of an ordered field (exact), the functions of momenta that need roots and angles are parameters, and so are the random numbers. A grid is its two lists of edges; a hit of the calorimeter is the integer the code packs it into, with the limits on sizes that come from that. A candidate has an address, since Go compares pointers; an element copied to another slice has a new address and the same constituents. The store is not part of these models: a task is a function from its input collections to what it puts.
