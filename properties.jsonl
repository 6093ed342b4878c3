{"id": "C01", "title": "ROOT primitive values survive a write/read cycle", "statement": "Writing any sequence of primitive values (bool, signed/unsigned 8/16/32/64-bit integers, 32/64-bit floats by bit pattern) with a WBuffer and reading back a sequence of the same kinds with an RBuffer over the produced bytes returns exactly the same values, raises no error and consumes exactly the bytes produced, whatever bytes precede or follow.", "quantifier": "all finite sequences of primitive values of all kinds and all surrounding bytes", "why_tests_cant": "a test fixes finitely many values and sequences; the claim ranges over all 64-bit patterns and all sequence lengths", "anchors": ["groot/rbytes/wbuffer.go: WBuffer.WriteU8, WriteI8, WriteBool, WBuffer.grow", "groot/rbytes/wbuffer_gen.go: WriteU16, WriteU32, WriteU64, WriteI16, WriteI32, WriteI64, WriteF32, WriteF64", "groot/rbytes/rbuffer.go: RBuffer.ReadU8, ReadI8, ReadBool", "groot/rbytes/rbuffer_gen.go: ReadU16, ReadU32, ReadU64, ReadI16, ReadI32, ReadI64, ReadF32, ReadF64"]}
{"id": "C02", "title": "ROOT strings survive a write/read cycle", "statement": "For every string s, WriteString(s) followed by ReadString() returns s and leaves the read position right after the encoded string.", "quantifier": "all byte strings of all lengths (short and long encodings), all surrounding bytes", "why_tests_cant": "the encoding switches form at 255 bytes and has special cases; tests sample a few strings only", "anchors": ["groot/rbytes/wbuffer.go: WBuffer.WriteString", "groot/rbytes/rbuffer.go: RBuffer.ReadString"]}
{"id": "C03", "title": "ROOT object headers delimit exactly the object's payload", "statement": "After WriteHeader, an arbitrary payload and SetHeader, reading the header back yields the class version that was written and a byte count such that CheckHeader succeeds exactly when the reader has consumed the whole payload and not one byte more or less; headers may be nested arbitrarily.", "quantifier": "all payloads, all versions, all numbers of consumed bytes, all nestings", "why_tests_cant": "the byte-count is patched afterwards into the stream; only a quantified statement covers every payload length and nesting", "anchors": ["groot/rbytes/wbuffer.go: WBuffer.WriteHeader, SetHeader", "groot/rbytes/rbuffer.go: RBuffer.ReadHeader, CheckHeader"]}
{"id": "C04", "title": "Reading a truncated ROOT buffer never yields fabricated data", "statement": "Reading a primitive value or a string when fewer bytes remain than it needs never returns a value (the call fails); once the buffer is in the error state every further read returns the zero value, consumes nothing and leaves the error in place.", "quantifier": "all buffers, all positions, all read sequences", "why_tests_cant": "truncation can happen at any byte of any sequence of reads", "anchors": ["groot/rbytes/rbuffer.go: RBuffer.ReadU8, ReadString, read, Err, SetErr", "groot/rbytes/rbuffer_gen.go: ReadU16, ReadU32, ReadU64"]}
{"id": "C05", "title": "ROOT arrays survive a write/read cycle", "statement": "Writing a slice with WriteArrayXX and reading len(slice) elements with ReadArrayXX returns the same elements and consumes exactly the bytes written.", "quantifier": "all element values and all lengths", "why_tests_cant": "unbounded lengths and values", "anchors": ["groot/rbytes/wbuffer_gen.go: WriteArrayU16, WriteArrayF64", "groot/rbytes/rbuffer_gen.go: ReadArrayU16, ReadArrayF64", "groot/rbytes/wbuffer.go: WriteArrayU8", "groot/rbytes/rbuffer.go: ReadArrayU8"]}
{"id": "C06", "title": "The list of free segments of a ROOT file stays sorted, disjoint and complete", "statement": "Starting from an empty file, after any sequence of releases of disjoint segments the free list is sorted, its segments are pairwise disjoint and non-adjacent, and a byte belongs to the free list iff it was released.", "quantifier": "all sequences of released segments in any order", "why_tests_cant": "merging behaviour depends on the relative position of arbitrarily many segments", "anchors": ["groot/riofs/blocks.go: freeList.add, consolidate, freeSegment"]}
{"id": "C07", "title": "Allocation only hands out free space of sufficient size", "statement": "The segment selected for a request of n bytes is either exactly n bytes long, or at least n+4 bytes long, or is the last segment of the file extended; a perfect fit is preferred.", "quantifier": "all free lists and all request sizes", "why_tests_cant": "the best-fit choice depends on the whole list", "anchors": ["groot/riofs/blocks.go: freeList.best"]}
{"id": "C08", "title": "ROOT date/time packing is lossless to the second", "statement": "Converting a time to the packed 32-bit TDatime representation and back returns the same year, month, day, hour, minute and second for every date ROOT files can carry; years before 1995 are rejected.", "quantifier": "all dates", "why_tests_cant": "a test samples a few dates; boundaries of the bit-fields (year 2058/2059) are missed", "anchors": ["groot/riofs/utils.go: time2datime, datime2time"]}
{"id": "C09", "title": "name;cycle parsing is the inverse of name;cycle formatting", "statement": "For every name without ';' and every cycle, parsing \"name;cycle\" gives back that name and that cycle; parsing a bare name selects the highest cycle; parsing never confuses two different cycles.", "quantifier": "all names and all 16-bit cycles", "why_tests_cant": "cycles are truncated to 16 bits and one of them is a sentinel", "anchors": ["groot/riofs/utils.go: decodeNameCycle", "groot/riofs/dir.go: tdirectoryFile.Get"]}
{"id": "C10", "title": "A key record reads back as written and announces its own length correctly", "statement": "Serialising a key (small- or big-file layout) and reading it back returns the same fields, and the number of bytes produced equals the key length recorded inside the record, so that payload readers start at the right byte.", "quantifier": "all names, titles, class names, offsets, sizes, cycles and dates", "why_tests_cant": "layout depends on file size and string lengths; the length is computed separately from the bytes", "anchors": ["groot/riofs/key.go: Key.MarshalROOT, UnmarshalROOT, keylenFor", "groot/riofs/sizeof.go: tstringSizeof"]}
{"id": "C11", "title": "Putting an object makes it retrievable, with a new highest cycle, without disturbing others", "statement": "After Put(name, obj) on a directory, Get(name) returns obj, Get(\"name;c\") for every previously available cycle c still returns what it returned before, every other name is unaffected, and the new cycle is one more than the highest existing cycle of that name.", "quantifier": "all directories contents and all sequences of Put operations", "why_tests_cant": "depends on the history of insertions", "anchors": ["groot/riofs/dir.go: tdirectoryFile.Put, Get"]}
{"id": "C12", "title": "Records of a file being written never overlap", "statement": "In any sequence of record allocations on a freshly created file, the byte ranges given to distinct records are pairwise disjoint, lie after the file header and before the recorded end of file.", "quantifier": "all sequences of allocations of all sizes", "why_tests_cant": "history property over unbounded sequences", "anchors": ["groot/riofs/key.go: newKey, newKeyFrom, newKeyFromBuf", "groot/riofs/file.go: File.setEnd, Create"]}
{"id": "C13", "title": "Compressed payloads decompress to the original bytes", "statement": "For every payload and every compression setting, decompressing the output of compression (multi-block framing, incompressible data included) returns the original payload.", "quantifier": "all payloads of all lengths (including several 16 MB blocks), all algorithms and levels, any lossless codec", "why_tests_cant": "blocks of 16 MB and incompressible inputs are impractical to enumerate", "anchors": ["groot/internal/rcompress/rcompress.go: Compress, Decompress, compressBlock"]}
{"id": "C14", "title": "Loading a key returns the bytes that were stored", "statement": "For every payload and compression setting, Key.Bytes/Load on a key created from the payload returns that payload.", "quantifier": "all payloads and compression settings", "why_tests_cant": "the decision 'is it compressed' is inferred by comparing two lengths", "anchors": ["groot/riofs/key.go: Key.load, isCompressed, newKeyFrom", "groot/internal/rcompress/rcompress.go: Compress"]}
{"id": "C15", "title": "Free segments read back as written", "statement": "Serialising a free segment and reading it back returns the same first and last offset, and the number of bytes written equals the announced size.", "quantifier": "all 64-bit offsets, in particular around the 2 GB switch", "why_tests_cant": "layout switch at 2,000,000,000 bytes", "anchors": ["groot/riofs/blocks.go: freeSegment.MarshalROOT, UnmarshalROOT, sizeof"]}
{"id": "C16", "title": "The ROOT file header reads back as written", "statement": "Writing the file header and re-reading it returns the same begin, end, free-list, directory and streamer-info locations, compression setting and identifiers in both the 32-bit and 64-bit layouts.", "quantifier": "all header field values and both layouts", "why_tests_cant": "values straddling the 2 GB limit", "anchors": ["groot/riofs/file.go: File.writeHeader, readHeader"]}
{"id": "C17", "title": "Compression settings are encoded and decoded consistently", "statement": "Encoding an algorithm and level into the single compression integer and decoding it gives back the algorithm and the level, with levels clamped to at most 99.", "quantifier": "all algorithms and levels", "why_tests_cant": "interaction of default levels and clamping for all integers", "anchors": ["groot/internal/rcompress/rcompress.go: Settings.Compression, SettingsFrom, rootCompressAlgLvl"]}
{"id": "C18", "title": "Reading a tree returns every written entry exactly once and in order", "statement": "For every sequence of entries written through a tree Writer, whatever the basket size and wherever automatic flushes happened, reading the range [beg,end) delivers exactly the entries beg..end-1 in ascending order with the right entry number and contents.", "quantifier": "all entry sequences, entry sizes, basket sizes and ranges", "why_tests_cant": "basket boundaries depend on accumulated sizes", "anchors": ["groot/rtree/branch.go: tbranch.write, flush", "groot/rtree/basket.go: Basket.update, writeFile", "groot/rtree/rbranch.go: rbranch.read", "groot/rtree/bkreader.go"]}
{"id": "C19", "title": "The read-ahead pipeline delivers baskets in order, never overwrites one in use, and cannot deadlock", "statement": "For every number of read-ahead buffers and every interleaving of the prefetching goroutine with the consumer, the consumer receives the requested baskets in order, each exactly once, the buffer it is currently using is never refilled, and neither side blocks forever; closing the reader terminates the goroutine.", "quantifier": "all schedules, all numbers of buffers and baskets", "why_tests_cant": "concurrency: tests exercise a handful of schedules", "anchors": ["groot/rtree/bkreader.go: newBkReader, run, read, close"]}
{"id": "C20", "title": "Reading a chain equals reading the concatenation of its trees", "statement": "Reading [beg,end) of a chain of trees delivers exactly the entries of the concatenated trees in that range, in order, with global entry numbers.", "quantifier": "all lists of trees (including empty ones) and all ranges with 0<=beg<=end<=entries", "why_tests_cant": "number and sizes of trees and range boundaries are unbounded", "anchors": ["groot/rtree/chain.go: Chain", "groot/rtree/rchain.go: newRChain, findTrees, run"]}
{"id": "C21", "title": "Random access to an entry loads the basket that contains it", "statement": "Loading entry i of a branch uses the basket whose entry range contains i, regardless of which entries were loaded before.", "quantifier": "all basket layouts and all access histories", "why_tests_cant": "the search starts from the previously used basket", "anchors": ["groot/rtree/branch.go: tbranch.findBasketIndex, loadBasket"]}
{"id": "C22", "title": "Joining trees accepts exactly compatible trees and preserves their columns", "statement": "Join succeeds iff there is at least one tree, all have the same number of entries and no two trees share a branch name; the joined tree has exactly the branches of its inputs.", "quantifier": "all lists of trees", "why_tests_cant": "pairwise condition over arbitrary lists", "anchors": ["groot/rtree/join.go: Join"]}
{"id": "C23", "title": "Every in-range value falls into exactly the bin that contains it", "statement": "For a 1D histogram with any ordered binning, filling x increments the unique bin with low <= x < high if x lies in a bin, the underflow if x is below the axis, the overflow if x is at or above the upper edge (or NaN), and no bin if x falls into a gap.", "quantifier": "all binnings (uniform, variable, with gaps) and all values", "why_tests_cant": "the lookup is a binary search over arbitrary edges", "anchors": ["hbook/bin1d.go: Bin1Ds.IndexOf", "hbook/binning1d.go: Binning1D.coordToIndex, fill"]}
{"id": "C24", "title": "Histogram contents account for every fill exactly once", "statement": "After any sequence of fills, the number of entries and the sums of weights, squared weights, weighted positions over bins, underflow and overflow (and, for binnings without gaps, their total) are the accumulations of exactly the fills routed there; the total statistics equal the accumulation over all fills.", "quantifier": "all fill sequences", "why_tests_cant": "history property", "anchors": ["hbook/h1d.go: H1D.Fill", "hbook/binning1d.go: Binning1D.fill", "hbook/dist.go: Dist0D.fill, Dist1D.fill"]}
{"id": "C25", "title": "Merging histograms equals filling one histogram with both data sets", "statement": "Adding two histograms with identical binning gives the histogram obtained by filling one histogram with the concatenation of both fill sequences (exact arithmetic), in every bin, outflow and total.", "quantifier": "all fill sequences and binnings", "why_tests_cant": "depends on histories", "anchors": ["hbook/ops.go: AddH1D, AddScaledH1D", "hbook/dist.go: addScaled"]}
{"id": "C26", "title": "Filling order is irrelevant", "statement": "Any permutation of a fill sequence gives the same histogram (exact arithmetic).", "quantifier": "all permutations of all fill sequences", "why_tests_cant": "factorially many orders", "anchors": ["hbook/h1d.go: H1D.Fill"]}
{"id": "C27", "title": "Scaling a histogram equals filling with scaled weights", "statement": "Scaling by f gives the histogram that would have been obtained with every weight multiplied by f (exact arithmetic).", "quantifier": "all fill sequences and factors", "why_tests_cant": "history property", "anchors": ["hbook/h1d.go: H1D.Scale", "hbook/dist.go: scaleW"]}
{"id": "C28", "title": "Integrals agree with the accounting of fills", "statement": "Integral() equals the sum of weights of all fills; Integral(-Inf,+Inf) equals the sum over bins, underflow and overflow.", "quantifier": "all histograms", "why_tests_cant": "history property", "anchors": ["hbook/h1d.go: H1D.Integral"]}
{"id": "C29", "title": "2D fills go to the unique cell or outflow region containing the point", "statement": "For a 2D histogram built from edges, filling (x,y) updates exactly one of: the cell containing (x,y), or the one of the eight outflow regions the point lies in.", "quantifier": "all edges and all points", "why_tests_cant": "two-dimensional index arithmetic over arbitrary edges", "anchors": ["hbook/binning2d.go: Binning2D.coordToIndex, fill", "hbook/bin2d.go"]}
{"id": "C30", "title": "Binning constructors accept exactly well-formed binnings", "statement": "Building a binning from edges succeeds iff the edges are strictly increasing and at least two; building from bins succeeds iff no two bins overlap, and the result is sorted.", "quantifier": "all edge lists and bin lists", "why_tests_cant": "unbounded inputs", "anchors": ["hbook/binning1d.go: newBinning1D, newBinning1DFromEdges, newBinning1DFromBins"]}
{"id": "C31", "title": "Random numbers drawn from a histogram fall into the selected bin", "statement": "Rand1D.Rand returns a value inside the bin selected by the cumulative distribution.", "quantifier": "all histograms (uniform and variable bins) and all random draws", "why_tests_cant": "statistical tests cannot show a support violation for all binnings", "anchors": ["hbook/rand_h1d.go: Rand1D.Rand, CDF"]}
{"id": "C32", "title": "rio records read back as written, and skipping lands on the next record", "statement": "Any sequence of records (names and payloads of any length, compressed or not) written to a rio stream can be read back in order; skipping a record positions the stream exactly at the start of the next one.", "quantifier": "all record sequences, names, payloads, skip patterns", "why_tests_cant": "alignment and length arithmetic over all sizes", "anchors": ["rio/record.go", "rio/block.go", "rio/utils.go: rioAlign", "rio/scanner.go"]}
{"id": "C33", "title": "rio options pack and unpack without loss", "statement": "NewOptions(kind, level, codec) decodes to the same compression kind, level and codec for every valid argument.", "quantifier": "all kinds, levels and codecs", "why_tests_cant": "bit-packing over full ranges", "anchors": ["rio/rio.go: NewOptions, Options.CompressorKind, CompressorLevel, CompressorCodec"]}
{"id": "C34", "title": "sio records read back as written, and skipping lands on the next record", "statement": "Any sequence of records written to a sio stream can be read back; skipping a record that is not requested positions the stream at the start of the next record.", "quantifier": "all sequences of records, payload lengths, compressed or not", "why_tests_cant": "alignment handled in several places", "anchors": ["sio/stream.go: Stream.ReadRecord, WriteRecord", "sio/record.go: Record.read, write"]}
{"id": "C35", "title": "sio pointers are restored to the objects they pointed to", "statement": "Pointers written with Pointer and objects written with Tag are relinked on reading so that every pointer points to the object carrying the tag of its original target, whatever the order of tags and pointers.", "quantifier": "all object graphs and write orders", "why_tests_cant": "graph-shaped data", "anchors": ["sio/sio.go: writer.Tag, writer.Pointer, reader.Tag, reader.Pointer, reader.relocate"]}
{"id": "C36", "title": "Unrequested sio blocks are skipped without affecting the requested ones", "statement": "Reading a record in which some blocks are not connected delivers every connected block's payload intact.", "quantifier": "all block contents and all subsets of connected blocks", "why_tests_cant": "re-synchronisation searches for a byte pattern in user data", "anchors": ["sio/record.go: Record.read"]}
{"id": "C37", "title": "XRootD primitive encodings round-trip", "statement": "For every value, reading with the RBuffer what the WBuffer wrote returns the value and consumes exactly its bytes (u8,u16,i32,i64,len,string,bytes,bool).", "quantifier": "all values and sequences", "why_tests_cant": "unbounded", "anchors": ["xrootd/internal/xrdenc/xrdenc.go: WBuffer, RBuffer"]}
{"id": "C38", "title": "Concurrent requests never share a stream id and each response reaches its own request", "statement": "At any time two outstanding requests have different stream ids, and a response is delivered to the request which owns its stream id at that time, for any interleaving of claims, responses and releases.", "quantifier": "all interleavings and histories", "why_tests_cant": "concurrency", "anchors": ["xrootd/internal/mux/mux.go: Mux.Claim, ClaimWithID, Unclaim, SendData"]}
{"id": "C39", "title": "A request obtains exactly the concatenation of its partial responses", "statement": "For any interleaving on one connection of partial (OkSoFar) and final responses for any set of outstanding requests, each request returns the in-order concatenation of the data of its own responses up to and including its final one.", "quantifier": "all interleavings of any number of requests and partial responses", "why_tests_cant": "interleavings", "anchors": ["xrootd/session.go: cliSession.consume, send, cleanupRequest"]}
{"id": "C40", "title": "Requests and responses are framed unambiguously on the wire", "statement": "Any sequence of requests (responses) written to a connection is split back by ReadRequest (ReadResponse) into the same sequence.", "quantifier": "all sequences of messages and payloads", "why_tests_cant": "unbounded streams", "anchors": ["xrootd/xrdproto/xrdproto.go: ReadRequest, WriteResponse, ReadResponse"]}
{"id": "C41", "title": "The file-system handler serves only paths below its base directory", "statement": "Every path the handler opens, lists, stats, removes, renames or creates on behalf of a client lies inside the configured base directory.", "quantifier": "all request paths", "why_tests_cant": "security property over all strings, including '..' components", "anchors": ["xrootd/fshandler.go: fshandler.Open, Dirlist, Stat, Truncate, Rename, Mkdir, Remove, RemoveDir"]}
{"id": "C42", "title": "Directory listings round-trip", "statement": "Marshalling a directory listing (with or without stat information) and unmarshalling it gives the same entries.", "quantifier": "all lists of entries", "why_tests_cant": "text format with separators and a magic first entry", "anchors": ["xrootd/xrdproto/dirlist/dirlist.go: Response.MarshalXrd, UnmarshalXrd", "xrootd/xrdfs/stat.go"]}
{"id": "C43", "title": "Stat information round-trips through its text form", "statement": "For every entry with stat info, the id, size, flags and modification time are unchanged by marshalling and unmarshalling.", "quantifier": "all 64-bit values", "why_tests_cant": "decimal text conversion over full ranges", "anchors": ["xrootd/xrdfs/stat.go: EntryStat.MarshalXrd, UnmarshalXrd"]}
{"id": "C44", "title": "Raising the security level never drops a signature", "statement": "A request that must be signed at some security level must be signed at every higher level; explicit overrides take precedence over the level, the last one winning.", "quantifier": "all levels, override lists and requests", "why_tests_cant": "finite tables times unbounded override lists", "anchors": ["xrootd/xrdproto/signing/signing.go: New, Requirements.Needed"]}
{"id": "C45", "title": "Open file handles are unique and private to their session", "statement": "Within a session two open files never share a handle, a handle is only valid in the session that opened it, and after Close or CloseSession it is not served any more.", "quantifier": "all histories of opens, closes and session terminations, all random choices", "why_tests_cant": "history property with randomness", "anchors": ["xrootd/fshandler.go: Open, Close, getFile, CloseSession"]}
{"id": "C46", "title": "Redirection following terminates", "statement": "A request follows at most 10 redirections and then fails.", "quantifier": "all server behaviours", "why_tests_cant": "adversarial servers", "anchors": ["xrootd/client.go: Client.sendSession"]}
{"id": "C47", "title": "An accepted data flow has exactly one producer per input and no dependency cycle", "statement": "If starting the application's data-flow service succeeds, every declared input has exactly one producing task and the dependency relation between tasks has no cycle (including a task depending on itself).", "quantifier": "all sets of tasks and port declarations", "why_tests_cant": "graph property", "anchors": ["fwk/dflow.go: dflowsvc.StartSvc, addInNode, addOutNode", "fwk/utils/tarjan/tarjan.go"]}
{"id": "C48", "title": "All consumers of a data item in an event obtain the value the producer put", "statement": "For every interleaving of one Put and any number of Gets on a key of the event store, every completed Get returns the value put, and no Get completes before the Put.", "quantifier": "all interleavings", "why_tests_cant": "concurrency", "anchors": ["fwk/store.go: datastore.Get, Put"]}
{"id": "C49", "title": "Events with an acyclic data flow run to completion", "statement": "For every interleaving of the tasks of an event, if every input has a producer and the data flow is acyclic, the event cannot get stuck: as long as not all tasks are finished some task can make progress.", "quantifier": "all schedules and task graphs", "why_tests_cant": "deadlock freedom", "anchors": ["fwk/worker.go: worker.runTask, taskrunner.run", "fwk/store.go"]}
{"id": "C50", "title": "Port types are consistent", "statement": "A data item never has a producer and a consumer declaring different types for it.", "quantifier": "all orders of declarations", "why_tests_cant": "depends on declaration order", "anchors": ["fwk/dflow.go: addInNode, addOutNode"]}
{"id": "C51", "title": "Cell-ID fields decode to the bits they describe", "statement": "For every codec field (offset, width, signedness) within 64 bits and every cell id, Get returns the unsigned (resp. two's complement) value of those bits.", "quantifier": "all fields and all 64-bit ids", "why_tests_cant": "2^64 ids", "anchors": ["lcio/cellid.go: bitFieldValue.value, newBitField64, CellIDDecoder.Get"]}
{"id": "C52", "title": "Slice operations compute the documented subsequences", "statement": "Filter keeps exactly the matching elements in order, Find returns exactly their indices, Take returns the elements at the given strictly increasing indices and rejects unsorted or duplicate ones, Resize keeps the prefix; all of them are safe in place, that is when the destination is a slice of the same array starting at or before the source.", "quantifier": "all slices, predicates and index lists", "why_tests_cant": "unbounded inputs", "anchors": ["sliceop/sliceop.go: Filter, Map, Find, Take, Resize"]}
{"id": "C53", "title": "Jet clustering conserves particles", "statement": "For every input event and every distance measure, the clustering assigns every input particle to exactly one inclusive jet: the constituents of the inclusive jets (ptmin=0) are the input particles, each exactly once.", "quantifier": "all events and all distance measures", "why_tests_cant": "history-tree property over arbitrary events", "anchors": ["fastjet/clustersequence.go: runN3Dumb, ijRecombinationStep, ibRecombinationStep, addStepToHistory, addConstituents, InclusiveJets"]}
{"id": "C54", "title": "Exclusive clustering returns the requested number of jets", "statement": "Asking for k exclusive jets of an event with n>=k particles returns exactly k jets with pairwise disjoint constituents.", "quantifier": "all events and all k", "why_tests_cant": "history-tree property", "anchors": ["fastjet/clustersequence.go: ExclusiveJetsUpTo"]}
{"id": "C55", "title": "Antiparticles have opposite charge", "statement": "For every particle id, the electric charge of -id is the opposite of the charge of id; computing the charge never fails.", "quantifier": "all integers", "why_tests_cant": "infinite domain with many digit-based cases", "anchors": ["heppdt/pid.go: PID.threeCharge, Charge"]}
{"id": "C56", "title": "Particle classification is consistent", "statement": "No particle id is classified at once as meson and baryon, or meson and diquark, or baryon and diquark, or lepton and hadron.", "quantifier": "all integers", "why_tests_cant": "infinite domain", "anchors": ["heppdt/pid.go: IsMeson, IsBaryon, IsDiQuark, IsLepton, IsHadron"]}
{"id": "C57", "title": "Slices of strings survive a write/read cycle", "statement": "Writing a slice of strings (WriteArrayString) and reading the same number of strings back returns the same strings, whatever the strings are (including empty ones) and whatever the state of the buffer.", "quantifier": "all slices of strings and all buffer states", "why_tests_cant": "failure depends on the exact relation of buffer length and position", "anchors": ["groot/rbytes/wbuffer.go: WriteArrayString, writeString, strlen", "groot/rbytes/rbuffer.go: ReadArrayString"]}
{"id": "C58", "title": "Recycling a read buffer is equivalent to creating a new one", "statement": "After Reset(data, ...) a read buffer behaves exactly like a buffer newly created over the same data, whatever happened before.", "quantifier": "all previous histories of the buffer", "why_tests_cant": "depends on the state left behind by earlier reads", "anchors": ["groot/rbytes/rbuffer.go: RBuffer.Reset, NewRBuffer"]}
{"id": "C59", "title": "Directory headers read back as written", "statement": "Writing the header of a directory (top directory or sub-directory) and reading it back returns the same creation and modification times, sizes, locations and identifier, whatever the size of the file.", "quantifier": "all directories and file sizes", "why_tests_cant": "the failing cases need files above 2 GB", "anchors": ["groot/riofs/dir.go: tdirectoryFile.MarshalROOT, UnmarshalROOT, close, save"]}
{"id": "C60", "title": "Looking up the bin at a coordinate gives the bin containing it", "statement": "H1D.Bin(x) returns the bin whose range contains x and nil when x lies in no bin; it never panics.", "quantifier": "all binnings (including binnings with gaps) and all coordinates", "why_tests_cant": "only coordinates inside a gap between two bins show the failure", "anchors": ["hbook/h1d.go: H1D.Bin", "hbook/binning1d.go: Binning1D.coordToIndex", "hbook/bin1d.go: Bin1Ds.IndexOf"]}
{"id": "C61", "title": "Histograms with different binnings cannot be added", "statement": "Adding or subtracting histograms whose bins differ is refused, so a sum never attributes entries to a bin they do not lie in.", "quantifier": "all pairs of binnings", "why_tests_cant": "needs binnings with the same number of bins and the same limits but different inner edges", "anchors": ["hbook/ops.go: AddScaledH1D, AddH1D, SubH1D"]}
{"id": "C62", "title": "Codec descriptions and value strings of cell ids read back", "statement": "The field description printed by a cell-id decoder is itself a codec describing the same fields at the same bits, and the printed values of a cell id list every field, in order, with the value Get returns for it.", "quantifier": "all codec strings and all 64-bit ids", "why_tests_cant": "unbounded set of codecs; explicit offsets, gaps and signed fields interact", "anchors": ["lcio/cellid.go: bitField64.Description, bitField64.valueString, newBitField64"]}
{"id": "C63", "title": "The charge of a hadron is the sum of the charges of its valence quarks", "statement": "For every positive id whose digits name the valence quarks of a meson, a baryon or a diquark, the charge is the sum of the charges of these quarks (with the antiquark taken according to the PDG convention).", "quantifier": "all integers of at most seven digits", "why_tests_cant": "thousands of digit combinations, most of which name no listed particle", "anchors": ["heppdt/pid.go: PID.threeCharge, Charge"]}
{"id": "C64", "title": "Quark-content queries agree with the quarks of the particle", "statement": "For every hadron, HasUp, HasDown, HasStrange, HasCharm, HasBottom and HasTop answer whether the particle contains that quark.", "quantifier": "all integers", "why_tests_cant": "the failing ids are ordinary ones but only the query for particular quarks is wrong", "anchors": ["heppdt/pid.go: HasUp, HasDown, HasStrange, HasCharm, HasBottom, HasTop"]}
{"id": "C65", "title": "A scanned rio record has exactly its own blocks", "statement": "After Scanner.Scan has read a record, the blocks of Scanner.Record() are those of the record in the stream and no others.", "quantifier": "all streams and selections", "why_tests_cant": "needs streams mixing records with different sets of blocks", "anchors": ["rio/scanner.go: Scanner.Scan", "rio/record.go: Record.readBlocks, Block"]}
{"id": "C66", "title": "Values in a rio file are found by name", "statement": "For a closed rio stream opened as a file, Has tells exactly which records were written, and Get of a record name written once gives the value written under it; Get of any other name returns an error and never panics.", "quantifier": "all sequences of records and names", "why_tests_cant": "positions accumulate over all records; random access to a record must not depend on the others", "anchors": ["rio/file.go: Open, Get, Has", "rio/writer.go: writeRecord, Close"]}
{"id": "C67", "title": "Go values encoded into sio blocks decode to the same values", "statement": "Encoding a value built from numbers, strings, slices, structures and maps with the sio encoder succeeds, and decoding gives back the value and takes exactly the bytes written.", "quantifier": "all types built this way and all their values", "why_tests_cant": "types and values are unbounded trees", "anchors": ["sio/encoder.go: marshal, bwrite", "sio/decoder.go: unmarshal, bread"]}
{"id": "C68", "title": "Truncated sio data are refused", "statement": "Decoding a value from a proper prefix of the bytes written for it returns an error.", "quantifier": "all values and all prefixes", "why_tests_cant": "needs every cut of every value", "anchors": ["sio/decoder.go: bread"]}
{"id": "C69", "title": "Every XRootD message reads back as written", "statement": "Reading the bytes of a request or a response with the reader for its kind gives the same message.", "quantifier": "all kinds of requests and responses and all their field values", "why_tests_cant": "27 kinds of requests with flags deciding which parts are on the wire; the failing combinations are rare", "anchors": ["xrootd/xrdproto/mv/mv.go: MarshalXrd, UnmarshalXrd", "xrootd/xrdproto/open/open.go: MarshalXrd, UnmarshalXrd", "xrootd/server.go: handleRequest"]}
{"id": "C70", "title": "No client request makes the server panic", "statement": "Whatever bytes a client sends as a framed request, and whatever field values it has, the server answers or reports an error; it does not panic.", "quantifier": "all request bytes and all states of the sessions", "why_tests_cant": "needs malformed or unusual messages which no client of the test-suite sends", "anchors": ["xrootd/server.go: handleConnection, handleRequest", "xrootd/fshandler.go: Read", "xrootd/xrdproto/rm/rm.go: UnmarshalXrd"]}
{"id": "C71", "title": "Opaque information in paths is set, found and replaced", "statement": "After setting opaque information on a request its path is unchanged and the information is the one set, a redirection replaces the information of the previous one, and a redirection address is parsed into the address, opaque information and token it consists of.", "quantifier": "all paths, opaque strings and chains of redirections", "why_tests_cant": "failing paths contain question marks or are shorter than their opaque part", "anchors": ["xrootd/xrdproto/xrdproto.go: SetOpaque, Opaque", "xrootd/internal/mux/mux.go: ParseRedirection", "xrootd/client.go: sendSession"]}
{"id": "C72", "title": "Signed requests can be verified by the server", "statement": "The bytes sent for a signed request are the signature request followed by the request, the signature covers the bytes which its flags say, and sequence numbers increase in the order in which requests are sent.", "quantifier": "all requests and interleavings", "why_tests_cant": "needs requests whose data are not hashed, and re-issued or concurrent requests", "anchors": ["xrootd/xrdproto/sigver/sigver.go: NewRequest", "xrootd/session.go: sign, Send, handleWaitResponse"]}
{"id": "C73", "title": "A request that is given up, a lost connection or a stray response does not block or crash other requests", "statement": "Whatever happens to one request (cancellation, loss of a connection, an unexpected response), other requests can still be started and complete when their responses arrive, and the client does not panic.", "quantifier": "all interleavings of any number of requests, responses, cancellations and failures", "why_tests_cant": "the failure needs a cancellation or loss at a particular moment", "anchors": ["xrootd/internal/mux/mux.go: SendData, Claim, Unclaim, Close", "xrootd/session.go: consume, send, handleReadError"]}
{"id": "C74", "title": "The event loop processes every event exactly once and reports every failure", "statement": "When the event loop of an application returns, every event supplied by the input has been processed exactly once, whatever the number of workers; it returns an error if and only if reading the input or processing an event failed; and it always returns.", "quantifier": "all schedules, numbers of workers and events, and all failures", "why_tests_cant": "concurrency between reader, workers and collector", "anchors": ["fwk/app.go: runConcurrent, runSequential", "fwk/worker.go: worker.run, runTask"]}
{"id": "C75", "title": "The phases of an application happen in order, and each completes before the next", "statement": "Components are configured, started, run and stopped in this order, all components having completed a phase before the next begins; the first failure ends the run and is reported; a script cannot enter a phase before the previous one succeeded, nor enter it twice, and does not panic; started components are stopped.", "quantifier": "all lists of components, all failures and all scripts", "why_tests_cant": "needs failures at each point and unusual orders of calls", "anchors": ["fwk/app.go: Run, configure, start, run, stop, shutdown", "fwk/runner.go: Start, Run, Stop, Shutdown"]}
{"id": "C76", "title": "Every output stream writes each event once", "statement": "For each event, each output stream writes the event exactly once, and its task returns the result of that writing; no call blocks for ever.", "quantifier": "all numbers of streams, workers and interleavings", "why_tests_cant": "concurrency; failing runs need at least two output streams", "anchors": ["fwk/app.go: startOutputStreams", "fwk/outputstream.go: Process, write, connect", "fwk/inputstream.go: Process, read"]}
{"id": "C77", "title": "Filling a booked histogram fills that histogram", "statement": "A histogram booked in the histogram service holds in the end exactly what was filled using the identifier returned when it was booked, and is saved to the stream it was booked for.", "quantifier": "all sequences of bookings and fills", "why_tests_cant": "needs two streams using the same histogram name", "anchors": ["fwk/hbooksvc/hsvc.go: BookH1D, FillH1D, split"]}
{"id": "C78", "title": "Jet momenta are the sum of their constituents", "statement": "With the E scheme, in exact arithmetic, the four-momentum of every inclusive or exclusive jet is the sum of the four-momenta of the constituents that Constituents returns for it.", "quantifier": "all events, distance measures and clustering orders", "why_tests_cant": "property of the whole recombination tree, for arbitrary events", "anchors": ["fastjet/recombiner.go: Recombine", "fastjet/clustersequence.go: ijRecombinationStep, addConstituents"]}
{"id": "C79", "title": "Clustering always combines what is closest", "statement": "At every step of the clustering of an event without NaN, the two jets recombined (or the jet declared final) are at the smallest of all distances between active jets and between active jets and the beam, and this distance is the one recorded.", "quantifier": "all events, distance measures and steps", "why_tests_cant": "minimality over all pairs at all steps", "anchors": ["fastjet/clustersequence.go: runN3Dumb"]}
{"id": "C80", "title": "The heap of candidate pairs is a priority queue", "statement": "For all sequences of Push and Pop with distances that are not NaN, Pop of a heap that is not empty returns a pair at the smallest distance among those pushed and not yet popped, and removes exactly that one.", "quantifier": "all sequences of operations and all distances", "why_tests_cant": "history dependent (storage is reused after pops); orders of insertion are infinitely many", "anchors": ["fastjet/internal/heap/heap.go: Push, Pop, moveUp, moveDown"]}
{"id": "C81", "title": "A file written and closed reopens with the same contents", "statement": "After any sequence of Put and Mkdir in any directories of a new file (failing ones included) and Close, Open succeeds and shows exactly what was added: the same directories with the same entries in the same order, with their names, cycles and titles, every object loading into the bytes it was written from, and the same streamer information.", "quantifier": "all paths, names, compressions, contents and sequences of operations, for files smaller than 2 GB", "why_tests_cant": "the files and histories are unbounded; failures depend on sizes, positions and interactions between records", "anchors": ["groot/riofs/file.go: Create, Open, Close, readHeader, writeHeader, writeStreamerInfo, readStreamerInfo, writeFreeSegments, readFreeSegments", "groot/riofs/dir.go: Put, Mkdir, readDirInfo, readKeys, writeKeys, saveSelf, save, close", "groot/riofs/key.go: newKey, newKeyFromBuf, writeFile, load, Object"]}
{"id": "C82", "title": "Objects that point to each other keep their sharing through a ROOT buffer", "statement": "Write objects one after the other into a buffer with WriteObjectAny, where objects hold data, nil pointers and pointers to further objects, possibly shared and possibly of the same class, but without cycles. Reading the buffer with ReadObjectAny from the same position succeeds, ends exactly where the writer ended, and yields a copy: every object has the class and data it was written with, nil stays nil, and two pointers are equal after reading exactly when they were equal before writing, so an object reachable along several ways is read once.", "quantifier": "all finite acyclic families of objects, all contents, all sharing, all nestings of base-class blocks, all sequences of top-level objects, all positions and offsets, all bytes around the record; total size below 1 GiB and class names below 80 bytes", "why_tests_cant": "Tests write a few containers with a handful of objects; whether position tags, class tags and byte counts can be confused depends on the whole history of the buffer, which no finite set of graphs covers.", "anchors": ["groot/rbytes/wbuffer.go: WriteObjectAny, WriteClass", "groot/rbytes/rbuffer.go: ReadObjectAny", "groot/rcont/objarray.go: MarshalROOT, UnmarshalROOT"]}
{"id": "C83", "title": "A HepMC event written to a file and read back is the same event", "statement": "Write events with an Encoder and close it. Decoding the file into fresh Events returns the same number of events and then end of file. Each has the same numbers, units, random states and weights with their names, cross section, heavy-ion and parton data, and the same graph: as many vertices and particles under the same barcodes with the same data, each particle coming from and ending in the corresponding vertices, the same signal vertex and beams. The bytes written do not depend on the order in which the maps of the event are visited.", "quantifier": "all lists of events, all graphs (cycles included), all numbers and names, all orders of map iteration, all objects already in memory", "why_tests_cant": "Tests read a few files of a few events; the reader reconnects the graph from barcodes while lines are consumed by counts found in other lines, so that mistakes show only for particular shapes of events.", "anchors": ["hepmc/encoder.go: Encode, encodeVertex, encodeParticle, encodeFlow, encodeHeavyIon, encodePdfInfo, encodeCrossSection", "hepmc/decoder.go: Decode, decodeEvent, decodeVertex, decodeParticle, decodeFlow, decodeHeavyIon, decodePdfInfo, decodeUnits, decodeCrossSection, findFileType, findEndKey, readlines"]}
{"id": "C84", "title": "Building a HepMC event keeps maps, lists and pointers consistent", "statement": "After any sequence of AddVertex, AddParticleIn and AddParticleOut on an event, with vertices and particles whose barcodes are left to the event: the event contains exactly the vertices and particles added, each under its own barcode and once; each particle points to the vertex it was last added to, and is in the list of that vertex and of no other. The event can be written and read back.", "quantifier": "all sequences of operations, with repeated additions and moves, on any number of vertices and particles", "why_tests_cant": "history dependent: moving and adding again must undo what earlier calls did", "anchors": ["hepmc/hepmc.go: AddVertex, setParentEvent, AddParticleIn, AddParticleOut, removeParticleIn, removeParticleOut, vBarcode, pBarcode"]}
{"id": "C85", "title": "Copying a HepMC file gives the same file", "statement": "Copy from a reader on a HepMC file to a writer, followed by Close, produces the bytes of the original file and returns its number of events, although all events go through one Event value; reading into an Event used before leaves nothing of its graph.", "quantifier": "all files written by the package, all numbers of events, all orders of map iteration", "why_tests_cant": "state carried from one event to the next shows only for particular sequences of events", "anchors": ["hepmc/io.go: Copy, Read, Write", "hepmc/decoder.go: Decode", "hepmc/encoder.go: Encode"]}
{"id": "C86", "title": "Reading a HepMC file always comes to an end", "statement": "Whatever bytes a file consists of, every call of Decode returns, with an event, an error or end of file; it never waits for ever.", "quantifier": "all byte sequences and all numbers of calls", "why_tests_cant": "the reader runs in a goroutine of its own that ends at some point; which calls wait for it depends on the whole input", "anchors": ["hepmc/decoder.go: Decode, readline, readlines, findFileType"]}
{"id": "C87", "title": "Binary records of histograms, profiles and scatters are read back unchanged", "statement": "MarshalBinary of an H1D, H2D, P1D or S2D followed by UnmarshalBinary gives back the same object, with all bins, flows, ranges, moments and annotations, whatever bytes follow the record. UnmarshalBinary never takes a record cut short for a complete one. An H1D written with RioMarshal is read with RioUnmarshal, which leaves the reader right behind it and returns an error on a stream that ends early. MarshalBinary fails only when the annotations cannot be written.", "quantifier": "all contents (any numbers of bins and entries, NaN and infinite values), all annotations, all bytes following, all lengths to which a record is cut", "why_tests_cant": "tests write one or two filled objects; that no field depends on the others and that no cut record is accepted concerns all objects and all lengths", "anchors": ["hbook/binning_brio.go: MarshalBinary, UnmarshalBinary", "hbook/dist_brio.go: MarshalBinary, UnmarshalBinary", "hbook/hbook_brio.go: MarshalBinary, UnmarshalBinary", "hbook/points_brio.go: MarshalBinary, UnmarshalBinary", "hbook/h1d.go: RioMarshal, RioUnmarshal"]}
{"id": "C88", "title": "A profile puts each entry into the bin that contains it", "statement": "NewP1D(n, lo, hi) panics unless lo < hi and n > 0. After any fills of a profile its total distribution holds all entries, the underflow those below lo, the overflow those not below hi, and each bin those with x in its half-open interval, with their moments in x and y; a value between lo and hi is in exactly one bin. In particular no fill panics, and entries are neither lost nor counted twice.", "quantifier": "all numbers of bins, all ranges, all sequences of fills, all weights", "why_tests_cant": "the index is computed by a multiplication, whose result next to an edge depends on the values", "anchors": ["hbook/p1d.go: NewP1D, Fill, coordToIndex, newBinningP1D"]}
{"id": "C89", "title": "The scatter of a histogram or profile shows its bins", "statement": "NewS2DFromH1D gives one point per bin, in order, whose horizontal bar spans the bin, at its middle (or at the mean of its entries), whose y is the bin content divided by its width, with the error divided likewise; NaN for a bin without width. NewS2DFromP1D does the same with the mean of y in each bin.", "quantifier": "all histograms and profiles, all options", "why_tests_cant": "a statement about every bin of every histogram", "anchors": ["hbook/s2d.go: NewS2DFromH1D, NewS2DFromP1D", "hbook/points.go: XMin, XMax", "hbook/bin1d.go: XMid, XFocus"]}
{"id": "C90", "title": "The quotient of histograms is taken bin by bin and only for compatible binnings", "statement": "DivideH1D returns an error exactly when the binnings are not compatible (different numbers of bins, or edges differing by more than a part in 10^5). Otherwise it returns, in order, one point per bin with the quotient of the heights, with relative errors added in quadrature; bins without a defined quotient are given the replacement value or left out, as asked.", "quantifier": "all pairs of histograms, all options in any order", "why_tests_cant": "a statement about all pairs of binnings; tests use a few of equal size", "anchors": ["hbook/ops.go: DivideH1D, fuzzyEq, DivIgnoreNaNs, DivReplaceNaNs"]}
{"id": "C91", "title": "Means, variances and effective entries have their statistical meaning", "statement": "XMean is the weighted mean of the entries and lies between the smallest and the largest for weights that are not negative; XVariance is the unbiased weighted variance, which for unit weights is the sum of squared distances to the mean divided by n-1; EffEntries is at most Entries and equal to it for equal weights. Scaling by a factor other than zero changes none of them.", "quantifier": "all sequences of entries and weights, exact arithmetic", "why_tests_cant": "algebraic identities over all samples", "anchors": ["hbook/dist.go: mean, variance, EffEntries, scaleW", "hbook/h1d.go: XMean, XVariance, EffEntries, Scale"]}
{"id": "C92", "title": "Orientation and in-circle tests that give an answer give the right one", "statement": "Orientation(x1,y1,x2,y2,x,y) answers CounterClockwise, Clockwise or Colinear only when the three points, taken as exact numbers, are in that arrangement, and Incircle answers Inside, Outside or On only when the point is so with respect to the circle through three points given counterclockwise. When rounding errors could make the quick computation wrong it gives no answer and the second stage decides; a point is never misplaced silently by rounding.", "quantifier": "all coordinates, all rounding errors", "why_tests_cant": "wrong signs appear only for nearly degenerate points, whose coordinates a test has to find; the error bounds are about all points", "anchors": ["fastjet/internal/predicates/orientation.go: Orientation, simpleOrientation, robustOrientation", "fastjet/internal/predicates/incircle.go: Incircle, simpleIncircle, robustIncircle", "fastjet/internal/predicates/float64Pred.go: addFloat64Pred, subFloat64Pred, mulFloat64"]}
{"id": "C93", "title": "All representations of a four-momentum describe the same momentum", "statement": "Setting a four-momentum of one kind (PxPyPzE, EEtaPhiM, EtEtaPhiM, PtEtaPhiM, IPtCotThPhiM) from one of any other kind keeps px, py, pz and E, so chains of conversions do too. Within each kind all getters (M, M2, P, P2, Pt, IPt, Et, Eta, Rapidity, Phi and the sines, cosines and tangents of the angles) are those of the momentum given by px, py, pz and E. SetPtEtaPhiM and SetPtEtaPhiE set what their names say.", "quantifier": "all momenta, all pairs of kinds, both signs of the energy; real arithmetic", "why_tests_cant": "identities between formulas over all real numbers; tests compare a few vectors", "anchors": ["fmom/pxpypze.go: Set, SetPtEtaPhiM, SetPtEtaPhiE, Eta, Phi, Rapidity", "fmom/eetaphim.go: Set, P, Pt", "fmom/etetaphim.go: Set, P, E", "fmom/ptetaphim.go: Set, E, Pz", "fmom/iptcotthphim.go: Set, E, Eta"]}
{"id": "C94", "title": "Sums and boosts of four-momenta obey special relativity", "statement": "Add, IAdd and Scale give the sum or multiple of the components in the kind of their first four-momentum. InvMass of two particles is real and at least the sum of their masses. Boost keeps all products of four-momenta, is undone by the opposite boost, and adds to the rapidity along the axis; the opposite of BoostOf(p) brings p to rest with its mass as energy. BoostOf panics exactly for momenta that are not timelike, other than zero.", "quantifier": "all four-momenta, all velocities below that of light; real arithmetic", "why_tests_cant": "identities over all vectors and velocities", "anchors": ["fmom/ops.go: Add, IAdd, Scale, InvMass, BoostOf, Boost"]}
{"id": "C95", "title": "DeltaPhi, DeltaR and CosTheta are distances and angles", "statement": "DeltaPhi(p1, p2) is the azimuth of p2 minus that of p1, up to full turns, in the range [-pi, pi[. DeltaR is symmetric, satisfies the triangle inequality and is zero only for equal pseudo-rapidities and directions around the axis, independently of full turns in Phi. CosTheta lies between -1 and 1, is the scalar product divided by the two magnitudes, and is 1 or -1 only for momenta on the same line.", "quantifier": "all four-momenta; real arithmetic", "why_tests_cant": "statements about all pairs and triples of momenta", "anchors": ["fmom/utils.go: DeltaPhi, DeltaEta, DeltaR, Dot, CosTheta"]}
{"id": "C96", "title": "Names of C++ templates are taken apart correctly", "statement": "CxxTemplateFrom on the name of a template such as map<string,vector<pair<int,long> > > gives the name of the template and its arguments as they are written, however deep templates with commas are nested in the arguments.", "quantifier": "all template names, any nesting and number of arguments", "why_tests_cant": "nesting is unbounded; tests use a few names", "anchors": ["groot/rmeta/rmeta.go: CxxTemplateFrom"]}
{"id": "C97", "title": "Structs are decoded to what was encoded", "statement": "Decoding with the operations compiled from a streamer info gives back the struct that was encoded with them: basic types, strings, nested structs, fixed arrays, arrays with a counter, vectors, sets, maps and bitsets in any combination, whatever the receiver held before, in whatever order Go walks through maps, and the encoding takes a number of bytes that depends only on the value.", "quantifier": "all types made of the above, all values, all previous contents, all orders", "why_tests_cant": "types and values nest without bound; tests use some types and fresh receivers", "anchors": ["groot/rdict/encoder.go: EncodeROOT", "groot/rdict/decoder.go: DecodeROOT", "groot/rdict/wstreamer.go: wstreamStdMap, wstreamStdSlice, wstreamBasicArray, wstreamCat", "groot/rdict/rstreamer.go: rstreamStdMap, rstreamStdSlice, rstreamBasicArray, rstreamCat"]}
{"id": "C98", "title": "Truncated structs are never decoded", "statement": "If the data end anywhere before the end of an encoded struct, decoding it reports an error (or panics) and does not return a value.", "quantifier": "all values, all cut positions, all receivers", "why_tests_cant": "every position of every value", "anchors": ["groot/rdict/decoder.go: DecodeROOT", "groot/rdict/rstreamer.go: rstreamCat"]}
{"id": "C99", "title": "Encoder and decoder of a streamer info match", "statement": "Whatever streamer info is given, NewEncoder and NewDecoder succeed for the same ones, can be asked for in any order and any number of times with the same result, and the decoder reads every value the encoder writes. A streamer info that cannot be used gives an error each time.", "quantifier": "all streamer infos over modelled elements, all contexts of other streamer infos, all values", "why_tests_cant": "the two compilers are written separately and have to agree on every combination of elements", "anchors": ["groot/rdict/rdict.go: NewEncoder, NewDecoder, BuildStreamers, findField", "groot/rdict/wstreamer.go: makeWOp, wopFrom", "groot/rdict/rstreamer.go: makeROp, ropFrom"]}
{"id": "C100", "title": "Values of Go struct types survive with the streamer info of their type", "statement": "With the streamer info that StreamerOf makes of a Go struct type, NewEncoder and NewDecoder succeed and every value of the type is read back as it was written. A groot tag name[count] names the field and the field with its number of elements; a number in the brackets does not.", "quantifier": "all Go struct types over basic types, strings, structs, slices of any depth, arrays and counted slices; all values; all tags", "why_tests_cant": "types pass through textual C++ names and back; nesting is unbounded", "anchors": ["groot/rdict/streamer.go: StreamerOf, typenameOf, genField, nameOf, hasCount"]}
{"id": "C101", "title": "Histograms survive the conversion to ROOT and back", "statement": "A one-dimensional hbook histogram converted to a ROOT histogram shows there the same bins, edges, contents, errors, under- and overflow, entries and moments; converted back it is the histogram it was, with the same bins, sums of weights and squared weights, outflows, entries, moments, name and title.", "quantifier": "all histograms with consecutive bins, all contents, all ROOT cell types", "why_tests_cant": "contents and binnings are unbounded; the tests compare one file", "anchors": ["hbook/rootcnv/root.go: FromH1D, H1D", "groot/rhist/h1_gen.go: NewH1DFrom, AsH1D, XBinContent, XBinError, dist1D, setDist1D, entries", "groot/rhist/axis.go: BinLowEdge, BinWidth"]}
{"id": "C102", "title": "ROOT histograms survive the conversion to hbook and back", "statement": "A ROOT histogram converted to hbook and back has the same axis, contents, errors, entries, moments, name and title.", "quantifier": "all one-dimensional ROOT histograms", "why_tests_cant": "contents and binnings are unbounded", "anchors": ["groot/rhist/h1_gen.go: NewH1DFrom, AsH1D", "hbook/rootcnv/root.go: FromH1D, H1D"]}
{"id": "C103", "title": "Merging ROOT histograms adds them", "statement": "Merging a ROOT histogram into another one over the same bins adds contents, squared errors, outflows, entries and moments cell by cell and keeps axis, name and title; histograms over different bins are not merged.", "quantifier": "all one-dimensional ROOT histograms", "why_tests_cant": "all contents and binnings", "anchors": ["groot/rhist/h1_gen.go: ROOTMerge", "hbook/ops.go: AddH1D"]}
{"id": "C104", "title": "Two-dimensional histograms survive the conversion to ROOT and back", "statement": "A two-dimensional hbook histogram converted to a ROOT histogram shows there the same columns, rows, contents, errors, outflows and moments, each in the cell ROOT uses for it; converted back it has the same bins, sums, outflows, moments, name and title, and fills the same bins as before.", "quantifier": "all grids of bins, all contents, all ROOT cell types", "why_tests_cant": "contents and binnings are unbounded; the tests compare one file", "anchors": ["hbook/rootcnv/root.go: FromH2D, H2D", "groot/rhist/h2_gen.go: NewH2DFrom, AsH2D, dist2D, setDist2D", "hbook/binning2d.go: newBinning2D"]}
{"id": "C105", "title": "Scatters survive the conversion to ROOT graphs and back", "statement": "The points of a scatter become those of the ROOT graph, in their order, and come back with their errors: both errors in x and y for TGraphAsymmErrors, the lower one for TGraphErrors, none for TGraph. Merging graphs appends the points of the second to those of the first. The bounds stored in the graph are the lowest and the highest ordinate.", "quantifier": "all scatters, the three classes of graphs", "why_tests_cant": "any number of points", "anchors": ["hbook/rootcnv/root.go: S2D, FromS2D", "groot/rhist/graph.go: NewGraphFrom, NewGraphErrorsFrom, NewGraphAsymmErrorsFrom, ROOTMerge"]}
{"id": "C106", "title": "Rows written to a CSV table are read back", "statement": "Rows given to WriteRow and read back from the closed file by ReadRows, Next and Scan into values of the same types are the same rows, in the same order, with the same values, whatever characters their texts contain.", "quantifier": "all rows, all delimiters, all moments at which the buffer is written out", "why_tests_cant": "texts and rows are unbounded; the tests use one file of ten rows", "anchors": ["csvutil/csv.go: WriteRow, write, formatValue, ReadRows, Next, Scan, scan"]}
{"id": "C107", "title": "The rows an iteration delivers", "statement": "ReadRows(beg, end) followed by the loop over Next delivers the rows of index beg to end-1 of the table (to the last for end = -1), each once and in order, stopping at the first row Scan refuses. Scan succeeds exactly if every field with a destination can be read as a value of its type. Err is nil after a complete interval, io.EOF if the file ended, the error of Scan otherwise; rows beyond the end of the file are refused.", "quantifier": "all files, all intervals", "why_tests_cant": "intervals and files are unbounded", "anchors": ["csvutil/csv.go: ReadRows, Next, skip, Scan, Err"]}
{"id": "C108", "title": "The file of a CSV table", "statement": "Once closed, the file of a table holds what it held when it was opened followed by the headers and rows in the order they were given; a table opened with Append and read back delivers the old records followed by the new ones.", "quantifier": "all sequences of calls, all moments at which the buffer is written out, all files", "why_tests_cant": "buffered and direct writes interleave differently for every length of the rows", "anchors": ["csvutil/csv.go: Create, Append, WriteHeader, WriteRow, Close"]}
{"id": "C109", "title": "Functions run with limited concurrency", "statement": "Of the functions given to Do at most as many run at the same time as the limit of NewRun says; once Wait returns all of them have returned and the errors it delivers are those they returned, each once. No call panics, and none waits forever.", "quantifier": "all limits, all numbers of functions, all errors, all interleavings", "why_tests_cant": "the interleavings of semaphore, wait group, error channel and Wait are not those a test happens to run", "anchors": ["fwk/utils/parallel/parallel.go: NewRun, Do, Wait"]}
{"id": "C110", "title": "Cached reads of a remote file", "statement": "Any number of ReadAt calls running at the same time on the read cache of a remote file get the bytes the file has at their offsets, whatever was cached before, whatever they overlap in and however they interleave; bytes of a call that has returned are not fetched again, and calls fail only if the remote reader or the local copy does.", "quantifier": "all files, all offsets and lengths, all numbers of calls, all interleavings", "why_tests_cant": "which parts are missing depends on the order in which goroutines finish", "anchors": ["groot/riofs/plugin/http/rcache.go: ReadAt, fetch, split", "groot/riofs/plugin/http/span.go: split, add, consolidate"]}
{"id": "C111", "title": "Reading a file over HTTP", "statement": "ReadAt of a file opened over HTTP returns the bytes at the offset, with an error if fewer than asked for; Read continues where the last Read ended and reports io.EOF at the end of the file; a large ReadAt split into blocks fetched in parallel returns what a single one would; a file that has changed since it was opened is reported.", "quantifier": "all files, all offsets and lengths, all block sizes, all sequences of Read", "why_tests_cant": "block boundaries and the end of the file meet in unbounded many ways", "anchors": ["groot/internal/httpio/reader.go: ReadAt, Read, Open", "groot/riofs/plugin/http/preader.go: ReadAt, pread"]}
{"id": "C112", "title": "Reading and seeking a remote xrootd file", "statement": "Read, ReadAt and Seek of a remote file behave as io.Reader, io.ReaderAt and io.Seeker ask for: reads continue where the last ended or where Seek says, relative to start, position or end; io.EOF is reported at the end of the file, and a ReadAt that gets fewer bytes than asked for returns an error.", "quantifier": "all files, all sequences of reads and seeks, all buffer lengths", "why_tests_cant": "the sequences of reads and seeks are unbounded", "anchors": ["xrootd/xrdio/xrdio.go: Open, Read, ReadAt, Seek", "xrootd/file.go: ReadAtContext"]}
{"id": "C113", "title": "Names of remote xrootd files", "statement": "Parse takes a name made of scheme, user, address and path apart into exactly these, whatever they contain that does not belong to the syntax: host names and IPv6 addresses with or without port, users with or without password, paths with one or two leading slashes; names without a scheme are paths; malformed names are errors.", "quantifier": "all texts", "why_tests_cant": "the texts are unbounded; the tests have a table of them", "anchors": ["xrootd/xrdio/parse.go: Parse, parseUA, parseUser"]}
{"id": "C114", "title": "Queries of n-tuples", "statement": "The columns, condition and order of a query given to Scan are those of the SQL statement sent to the data base, which asks for the rows in the order they were stored if the query gives none.", "quantifier": "all texts of queries", "why_tests_cant": "the texts are unbounded", "anchors": ["hbook/ntup/ntuple.go: massageQuery, Scan"]}
{"id": "C115", "title": "Scanning n-tuples into histograms", "statement": "Scan calls the function once for every row of the answer, in order, up to the first error, which it returns. ScanH1D fills the histogram with every value of the answer; without a histogram it books one of a hundred bins such that all values lie in its bins.", "quantifier": "all answers, all functions, all values", "why_tests_cant": "the answers are unbounded, rounding makes edges miss values for particular ranges only", "anchors": ["hbook/ntup/ntuple.go: Scan, ScanH1D, nextULP"]}
{"id": "C116", "title": "Columns of an n-tuple", "statement": "Create makes one column per exported field of a struct, in order, named by its tags or itself, or one per value, named var1, var2, ...; types that cannot be columns are errors.", "quantifier": "all structs, all lists of values", "why_tests_cant": "the structs are unbounded", "anchors": ["hbook/ntup/ntuple.go: Create, schemaFromStruct, schemaFrom, getTag"]}
{"id": "C117", "title": "Values of an SLHA block by their indices", "statement": "A block is a map from lists of integers to values: Get gives the value last Set with the same indices and an error if there is none; Set changes no other value, keeps the comment, the order of the values and the rest of the block, and appends new values at the end. Indices are equal exactly when made from the same integers, and give them back.", "quantifier": "all blocks, all sequences of Set and Get, all lists of indices", "why_tests_cant": "the sequences and the indices are unbounded", "anchors": ["slha/slha.go: Block.Get, Block.Set, DataArray.Get, NewIndex, Index.Index"]}
{"id": "C118", "title": "SLHA documents survive writing and reading", "statement": "A document written by Encode is read by Decode as the same document: the same blocks in the same order with their names, comments, scales, indices and values, the same particles with their widths, masses and decays, up to the rounding of the notation of numbers; written again it gives the same text.", "quantifier": "all documents, all numbers", "why_tests_cant": "the documents are unbounded; the test compares one file", "anchors": ["slha/encode.go: Encode, blockFormat", "slha/decode.go: Decode, addBlockEntry, addDecayEntry, anyvalue"]}
{"id": "C119", "title": "Decode of any text as SLHA gives a document or an error", "statement": "Decode never panics: for every text it gives a document or an error.", "quantifier": "all texts", "why_tests_cant": "the texts are unbounded", "anchors": ["slha/decode.go: Decode, addBlockEntry, addDecayEntry"]}
{"id": "C120", "title": "HEPEVT events survive writing and reading", "statement": "Events written one after another by an Encoder are read one after another by a Decoder, also into a variable that is used again: the same event numbers, the same particles in the same order with the same codes and the same indices of mothers and daughters, the floating-point numbers up to the rounding of the notation; after the last event Decode returns an error.", "quantifier": "all sequences of events, all numbers of particles, all earlier contents of the variable", "why_tests_cant": "the events and what the variable held before are unbounded; the tests use one event", "anchors": ["hepevt/ascii_io.go: Encoder.Encode, Decoder.Decode"]}
{"id": "C121", "title": "Conditions of SQL queries on trees mean what they say", "statement": "The condition of a query on a tree, made of comparisons of integer columns, integer literals and arithmetic, AND, OR and parentheses, has on every entry the truth value of the condition on the numbers, whatever the widths and the signedness of the columns, as long as the numbers fit their types; a condition without arithmetic is never wrong: it is right or an error. Literals take the type of the column, also for floating-point columns; strings are compared byte by byte; arguments stand for their values.", "quantifier": "all conditions, all entries, all types of columns", "why_tests_cant": "conditions and values are unbounded, and there are more than a hundred pairs of types", "anchors": ["groot/rsql/rsqldrv/expr.go: binExpr.eval, newValueExpr", "groot/rsql/rsqldrv/types.go: coerce, coerce1", "groot/rsql/rsqldrv/driver.go: newExprFrom"]}
{"id": "C122", "title": "The rows of a query on a tree", "statement": "Whatever the interleaving of the reading goroutine and the caller, Next returns the rows of the entries for which the condition holds, in the order of the tree, then the end or the first error; every call is answered; the values of a row stay as they are until the next call; at the end the goroutine is gone.", "quantifier": "all trees, all conditions, all interleavings", "why_tests_cant": "the interleavings and the trees are unbounded", "anchors": ["groot/rsql/rsqldrv/driver.go: driverRows.start, driverRows.Next, driverRows.Close"]}
{"id": "C123", "title": "Connections of the SQL driver and their files", "statement": "Connections opened on the same name share one file; the file is open as long as a connection is, and closed with the last one if the driver opened it; files of the user are never closed by the driver; opening gives a connection with an open file.", "quantifier": "all sequences of opening and closing, all names", "why_tests_cant": "the sequences are unbounded", "anchors": ["groot/rsql/rsqldrv/driver.go: rootDriver.open, rootDriver.connect, driverConn.Close", "groot/rsql/rsqldrv/connector.go: rootConnector.Connect"]}
{"id": "C124", "title": "Les Houches event files survive writing and reading", "statement": "A file written by an lhef.Encoder (with or without a header of text and well-formed elements, any run and any number of events, at least one) and closed is read by an lhef.Decoder: NewDecoder gives the run, with its subprocesses; Decode gives the events one after another in the order they were written, each with its particles in order, the same codes, mothers and colours, and the numbers with the digits the format prints; then io.EOF at every further call.", "quantifier": "all headers, runs and sequences of events", "why_tests_cant": "the files are unbounded; the tests write two events without reading them back and read one file", "anchors": ["lhef/writer.go: Encoder.init, Encoder.Encode, Encoder.Close", "lhef/reader.go: NewDecoder, Decoder.Decode, Decoder.next, Decoder.seek"]}
{"id": "C125", "title": "Events in any Les Houches event file", "statement": "In any file, Decode gives the outcome of every event element one after another, whatever elements, texts and comments are between them and whatever follows the particles inside an element; an event that is refused does not disturb those after it; at the end Decode gives io.EOF, or an error when the file is cut; the slices of an event all have exactly NUP elements.", "quantifier": "all token sequences of XML files, all texts of events", "why_tests_cant": "the files are unbounded", "anchors": ["lhef/reader.go: NewDecoder, Decoder.Decode, Decoder.next, Decoder.seek"]}
{"id": "C126", "title": "Objects in nested directories are found under their paths", "statement": "riofs.Dir(f) takes paths: after Put(\"a/b/name\", obj) the directories a and a/b exist, obj is what Get(\"a/b/name\") gives, the object has a cycle above all of its name, and everything else in the file - every cycle of every object in every directory - is as before; Mkdir(\"a/b\") makes the missing directories and leaves those that exist, with their contents, alone; Get gives the object of the highest cycle, or of the cycle asked for, in the directory of the path, and an error exactly if there is none; what cannot be put is refused with an error and nothing changes.", "quantifier": "all files built with Put and Mkdir, all paths of any depth, all objects", "why_tests_cant": "files and paths are unbounded; the tests use a few fixed paths", "anchors": ["groot/riofs/walk.go: recDir.Get, recDir.Put, recDir.Mkdir, recDir.get, recDir.put, recDir.mkdir, recDir.walkdir, Dir", "groot/riofs/dir.go: tdirectoryFile.Get, tdirectoryFile.Put, tdirectoryFile.Mkdir"]}
{"id": "C127", "title": "Walk visits every object once, and stops at an error", "statement": "riofs.Walk calls the function for the file itself, every directory, and the latest cycle of every object, once each and a directory before what is in it; what is in a directory for which the function returned SkipDir is left out and nothing else is; Walk returns an error exactly if the function returned one other than SkipDir, and that was then the last call.", "quantifier": "all files, all functions", "why_tests_cant": "the nesting of a file and the function are arbitrary", "anchors": ["groot/riofs/walk.go: Walk, walk, WalkFunc, SkipDir"]}
{"id": "C128", "title": "Merging files gives every tree all entries and every histogram the merged one", "statement": "rcmd.Merge of files f1, f2, ... writes a file with the directories of f1 in which every tree of f1 has its entries followed by those of the trees of the same path in f2, ..., and every histogram or graph of f1 is merged with those of the same path in f2, ..., in this order; nothing is lost, doubled or under another path; if an object is missing in one of the files or is of another class there is an error.", "quantifier": "all files of any nesting, all numbers of files, all trees and all kinds of objects with a method ROOTMerge", "why_tests_cant": "the files, their nesting and their number are arbitrary; the tests merge a few fixed files", "anchors": ["groot/rcmd/merge.go: Merge, mergeCmd, task"]}
{"id": "C129", "title": "Splitting a tree loses and doubles no entries", "statement": "rcmd.Split writes files whose trees, one after the other, have exactly the entries of the tree split; every file has the number of entries asked for but for the last one, which has the rest; none is empty; each holds the tree under its path with its title and branches and nothing else; the names returned are those of the files written, in order and all different.", "quantifier": "all files, trees in any directory, all numbers of entries, all sizes", "why_tests_cant": "numbers of entries and sizes are unbounded; the boundary at multiples of the size is what tests miss", "anchors": ["groot/rcmd/split.go: Split, split", "groot/rtree/reader.go: Reader.setup"]}
{"id": "C130", "title": "Copying files copies what is selected, under the same paths", "statement": "rcmd.Copy writes a file that holds of every file given exactly the objects and directories the regular expression after the colon selects, each under its own path and as it was, with the directories on the way to it.", "quantifier": "all files of any nesting, all selections, any number of files", "why_tests_cant": "files and selections are arbitrary; the tests copy a few fixed files", "anchors": ["groot/rcmd/copy.go: Copy, copyCmd"]}
{"id": "C131", "title": "A histogram written as YODA text is the histogram read", "statement": "H1D.UnmarshalYODA of the bytes H1D.MarshalYODA returns gives a histogram with the same bins in the same order, the same total, underflow and overflow, up to the seven digits written, and with the same name, title and other annotations; a text with a line in its table that is neither a comment nor has the numbers expected is an error.", "quantifier": "all histograms: any number of bins, any contents, any annotations", "why_tests_cant": "contents, digits and annotations are arbitrary; the tests read and write one histogram", "anchors": ["hbook/h1d.go: MarshalYODA, UnmarshalYODA, annToYODA, annFromYODA", "hbook/yoda.go: readYODAHeader"]}
{"id": "C132", "title": "A profile written as YODA text is the profile read", "statement": "P1D.UnmarshalYODA of the bytes P1D.MarshalYODA returns gives a profile with the same bins in the same order, the same total, underflow and overflow, up to the seven digits written, the range of the bins, and with the same name, title and other annotations.", "quantifier": "all profiles with at least one bin, any contents, any annotations", "why_tests_cant": "contents, digits and annotations are arbitrary; the tests read and write one profile", "anchors": ["hbook/p1d.go: MarshalYODA, UnmarshalYODA"]}
{"id": "C133", "title": "A two-dimensional histogram written as YODA text is the histogram read", "statement": "H2D.UnmarshalYODA of the bytes H2D.MarshalYODA returns gives a histogram with as many columns and rows, the same contents and edges of the bin of every column and row, up to the seven digits written, the same total and the same annotations, that puts further fills into the bins the histogram written would put them into.", "quantifier": "all grids of any number of columns and rows and any edges, any contents", "why_tests_cant": "edges and contents are arbitrary; the tests use evenly spaced edges only", "anchors": ["hbook/h2d.go: MarshalYODA, UnmarshalYODA", "hbook/binning2d.go: newBinning2D"]}
{"id": "C134", "title": "A scatter written as YODA text is the scatter read", "statement": "S2D.UnmarshalYODA of the bytes S2D.MarshalYODA returns adds exactly the points written, up to the seven digits written, to the scatter, sorted, with name, title and other annotations; into an empty scatter this gives the points of the scatter written in their order; a text with a line that is not a point is an error; writing does not change the scatter.", "quantifier": "all scatters, any points", "why_tests_cant": "the points are arbitrary; the tests read and write one scatter whose points are in order", "anchors": ["hbook/s2d.go: MarshalYODA, UnmarshalYODA, Sort", "hbook/points.go: points2D.Less"]}
{"id": "C135", "title": "Reading a YODA archive gives the objects written, in order", "statement": "yodacnv.Read of what yodacnv.Write wrote gives as many objects as were written, in the same order and of the same types, each being what its own UnmarshalYODA makes of its own MarshalYODA; blocks of types that are not supported are left out; a broken archive is an error.", "quantifier": "all sequences of histograms, profiles, scatters and unsupported blocks", "why_tests_cant": "the sequence is arbitrary; the tests read one fixed archive", "anchors": ["hbook/yodacnv/yoda.go: Read, Write, splitHeader"]}
{"id": "C136", "title": "An LCIO event written is the event read", "statement": "After Writer.WriteEvent, Reader.Next gives an event with the same run and event number, time stamp, detector, parameters and collection names in order; every element of every collection has the value of every field that the flags of its collection say is stored; every pointer to an object of the event points to the new object in the same place; and the daughters of every Monte Carlo particle are the particles that have it as a parent.", "quantifier": "all events: any number of collections of any types, any elements, any graph of pointers between them, any compression, any order of iteration of maps", "why_tests_cant": "the graph of pointers, the flags and the order of relocation are arbitrary; the tests write a few collections with few pointers", "anchors": ["lcio/writer.go: WriteEvent", "lcio/reader.go: Next, remap", "lcio/event.go: EventHeader, Params", "lcio/mc.go: MarshalSio, UnmarshalSio, LinkSio", "sio/sio.go: Pointer, Tag, relocate"]}
{"id": "C137", "title": "A loop over an LCIO file gives all events with their run headers", "statement": "A loop on Reader.Next over a file made with Writer.WriteRunHeader and Writer.WriteEvent gives every event written, in order, and Reader.RunHeader is the last run header written before it; then Next is false without an error. Events whose collections can be written are written without a panic.", "quantifier": "all sequences of run headers and events, any compression", "why_tests_cant": "the sequence of records is arbitrary, and the state of the reader is carried from event to event; the tests write fixed sequences", "anchors": ["lcio/writer.go: WriteRunHeader, WriteEvent", "lcio/reader.go: Open, Next, RunHeader"]}
{"id": "C138", "title": "A HepMC event flattened into the columns of a ROOT tree and made again is the same event", "statement": "The event that rootcnv makes of the columns it wrote for an event has the same values, weights and their names, cross section, heavy-ion and parton data, units, signal vertex and beams, the same vertices and particles under the same barcodes with the same values, the particles of every vertex in the same order, and every particle starts and ends at the same vertices; nothing else in memory changes. The columns have one row per particle, barcodes growing, with the barcodes of its vertices, and one row per vertex, barcodes decreasing.", "quantifier": "all consistent events whose integers fit 32 bits and that have parton data, any order of iteration of maps, any content of the columns before", "why_tests_cant": "the graph of an event is arbitrary, the barcodes are consumed from two flat lists whose cutting depends on all vertices before; the tests convert a few files", "anchors": ["hepmc/rootcnv/rootcnv.go: read, write, reset, hasXSect, hasHI"]}
{"id": "C139", "title": "Events written with FlatTreeWriter are read in order with FlatTreeReader, then comes io.EOF", "statement": "Events given to FlatTreeWriter.Write one after the other are given by FlatTreeReader.Read in the same order, each the same as was written, and events read before are not changed by later calls; the call after the last event returns io.EOF.", "quantifier": "all sequences of events of C138, any memory", "why_tests_cant": "the columns are reused from event to event; the tests write few events", "anchors": ["hepmc/rootcnv/writer.go: Write", "hepmc/rootcnv/reader.go: NewFlatTreeReader, Read", "hepmc/rootcnv/rootcnv.go: reset"]}
{"id": "C140", "title": "lhef2hepmc writes a HepMC file with the events of the Les Houches file", "statement": "When a Les Houches file is converted with lhef2hepmc and the output is read with a HepMC decoder, there is one HepMC event per Les Houches event, in the same order, then io.EOF. Event number i has number i, units GeV and mm, one weight named 0 equal to the weight of the event, the cross section of the run, one vertex with exactly the two beams of the run going in, and coming out exactly the final-state particles (with -keep-all all particles) with their identity, status, momentum and mass, their barcodes telling their places; the graph is consistent. What an LHEF encoder wrote, converted, is found in the HepMC file with the digits the Les Houches file keeps.", "quantifier": "all files, events, particles, both settings of -keep-all, any order of iteration of maps", "why_tests_cant": "the conversion goes through two decoders, an encoder and a graph built by pointers; there is no test that compares events before and after for other than the sample files", "anchors": ["cmd/lhef2hepmc/main.go: main"]}
{"id": "C141", "title": "The cross section lhef2hepmc writes is the mean of the weights so far, with its error", "statement": "With IDWTUP equal to 4 or -4 the cross section of every event written is the mean of the weights of the events up to and including it, and the square of its error is the variance of these weights divided by their number, never negative. With IDWTUP equal to 3 or -3 it should be the cross section of the process with its error.", "quantifier": "all sequences of events and weights; exact arithmetic for the mean", "why_tests_cant": "accumulated over all events of a file; the tests compare the text of a small file", "anchors": ["cmd/lhef2hepmc/main.go: main"]}
{"id": "C142", "title": "ROOT objects written with WriteObjectAny are read back as they were, with their pointers", "statement": "Objects of eighty ROOT classes (TObject, TNamed, TObjString, TUUID, TRef, TProcessID, TRefTable, the arrays, TList, THashList, TObjArray, TRefArray, TMap, the attribute classes, TAxis, TH1 and TH2 with F, D and I contents, TProfile and TProfile2D, the graphs with and without errors, TMultiGraph, TScatter, TFormula, TF1, TLimit, TLimitDataSource, TConfidenceLevel, TFeldmanCousins, the vectors, TStreamerInfo with all its elements, the leaves, TBranch, TBranchObject, TBranchElement and TTree), pointing to one another in any way without cycles, are written with WriteObjectAny at any place of a buffer and read back with ReadObjectAny: as many objects as were written, two pointers equal exactly when they were equal, each object with its class and with the value it had, apart from what reading sets: the bit telling that the object is on the heap, the identifier of a referenced object cut to 24 bits, last indices computed anew, maps with each key once. An acyclic set of objects can always be written.", "quantifier": "all values of the eighty classes, all acyclic graphs of objects, any position in a buffer and anything around it", "why_tests_cant": "each class has its own pair of hand-written methods, and pointers cross classes; tests have one object per class and no sharing", "anchors": ["groot/rbytes/wbuffer.go: WriteObjectAny, WriteHeader, SetHeader", "groot/rbytes/rbuffer.go: ReadObjectAny, ReadHeader, CheckHeader", "groot/rcont/list.go: List", "groot/rhist/hist.go: th1", "groot/rhist/graph.go: tgraph", "groot/rdict/rdict.go: StreamerInfo, StreamerElement", "groot/rtree/branch.go: tbranch", "groot/rtree/tree.go: ttree", "groot/rtypes/factory.go: Get"]}
{"id": "C143", "title": "What was read from a ROOT file can be written again, and then comes back unchanged", "statement": "The objects read back are again a set of objects that can be written: every value that was read can be written by its class, it points only to objects that were read, and there are no cycles. Written again, they come back exactly as they are, and what they are read from is the very content they would be written with: reading and writing settle after the first time.", "quantifier": "all values of the eighty classes, all acyclic graphs of objects", "why_tests_cant": "a property of two round trips through all classes; the tests compare the first one only, for single objects", "anchors": ["groot/rbytes/wbuffer.go: WriteObjectAny", "groot/rbytes/rbuffer.go: ReadObjectAny", "groot/rtree/branch.go: tbranch", "groot/rtree/leaf.go: tleaf", "groot/rdict/rdict.go: StreamerElement, StreamerBasicType"]}
{"id": "C144", "title": "Objects written by older versions of a ROOT class are read with their members in place", "statement": "For the classes whose content depends on their version (TAttPad, TAxis, TH1, TGraph, TGraphAsymmErrors, TFormula, TObjArray, TMap, TVector2, TVector3, TStreamerElement, TStreamerBase, TBranch, TBranchElement, TTree) the content of an older version is read with every member that version has in its place, the members it does not have are zero, and reading ends where the object ends. Content of a version newer than the one of the library is refused for every class, and what is written carries the version of the library.", "quantifier": "all values, all versions between the oldest supported and the current one", "why_tests_cant": "sample files of every version of every class do not exist", "anchors": ["groot/rhist/hist.go: th1", "groot/rhist/axis.go: taxis", "groot/rtree/tree.go: ttree", "groot/rtree/branch.go: tbranch, tbranchElement", "groot/rcont/objarray.go: ObjArray", "groot/rcont/map.go: Map", "groot/rphys/vector2.go: Vector2", "groot/rvers/versions_gen.go: versions"]}
{"id": "C145", "title": "Values written to the variables of a ROOT tree are read back from any selection of them", "statement": "Rows of values are written to the variables of a tree: booleans, integers and floating-point numbers of every width, strings, arrays of any dimensions, slices whose length another variable gives. Whatever the sizes of the baskets, whatever else is written to the file in between and however well the baskets compress, a reader of any of the variables, in any order that has a count before the slices it counts, with or without the count itself, over any range of entries, is called once for every entry in order with its number, and its variables hold the values written for that entry: all of them, or as many elements of a slice as its count says, whatever the variables held before. Writing and closing succeed when no string and no slice takes more than 1000 bytes.", "quantifier": "all sets of variables, all rows, all basket sizes, all selections of variables, all ranges of entries", "why_tests_cant": "the leaves of twelve types and three shapes share buffers, counts and hidden variables across variables and entries; the tests write and read all variables of a few fixed files", "anchors": ["groot/rtree/writer.go: NewWriter, Write", "groot/rtree/reader.go: NewReader, Read", "groot/rtree/rvar.go: NewReadVars", "groot/rtree/leaf.go: newLeafFromWVar", "groot/rtree/leaf_gen.go: LeafI, LeafB, LeafC", "groot/rtree/rleaf_gen.go: rleafSliI32"]}
{"id": "C146", "title": "Compressed floating-point numbers in ROOT files keep the precision they are declared with", "statement": "A Float16 or Double32 value of a member with a range and a number of bits, written and read back, differs from what was written by at most half a step of the range, values out of the range being moved to its closest end; the order of values is kept, and what was read is written again as the same bits. A value of a member with only a number of bits of mantissa keeps its sign and its exponent, and its mantissa is rounded to that many bits, so that the relative error is at most half of the last bit; reading and writing again changes nothing.", "quantifier": "all ranges, all values; all bit patterns of 32-bit floating-point numbers, all numbers of bits from 1 to 14", "why_tests_cant": "a precision is a bound over all values; tests compare a handful of numbers, most of them exact in the compressed form", "anchors": ["groot/rbytes/wbuffer.go: WriteF16, WriteD32", "groot/rbytes/rbuffer.go: ReadF16, ReadD32"]}
{"id": "C147", "title": "The range in the comment of a C++ member is the range of its compressed values", "statement": "A comment [a,b,n] of a member, at the beginning or behind a comment mark and followed by any text without brackets, is read as the range from a to b in n bits, [a,b] as one of 32 bits, with spaces around the parts and in any case; the ends may be given in terms of pi. A member declared this way takes any value from a to b, and reads it back within (b-a)/2^(n+1) for n below 32. With b not above a and n below 15 the n is the number of bits of the mantissa. A comment without brackets gives no range, and no comment makes reading fail.", "quantifier": "all comments, all ranges, all numbers of bits, all values in the range", "why_tests_cant": "the syntax is searched for from the end of a free text; the tests list some comments and their expected factors", "anchors": ["groot/rdict/rdict.go: Element, StreamerElement, XMin, XMax, Factor"]}
{"id": "C148", "title": "Every point of a calorimeter grid is in the cell the grid says", "statement": "A grid made of bins has exactly the edges of the bins, in order and without repetition, whatever the order of the bins and of their edges. A point between two neighbouring edges in eta, and two neighbouring edges in phi, is found in that cell and in no other, and a point that is found is in the cell of the indices returned; the centre of the cell for these indices is in the cell, and is found there. A point which is in no cell is reported as not found, and indices of no cell are reported as such.", "quantifier": "all lists of bins, all points, all indices", "why_tests_cant": "the edges are merged from overlapping lists through maps and repeated sorting and searching; the test has one grid and a few points in it", "anchors": ["fads/calo.go: NewEtaPhiGrid, EtaPhiGrid, EtaPhiIndex, EtaPhiBin"]}
{"id": "C149", "title": "Calorimeter towers hold exactly the particles and tracks of their cells", "statement": "A calorimeter makes one tower for every cell that a particle or a track hits, each cell once and in the order of the cells. A tower has the position and the edges of its cell, and as electromagnetic and hadronic energy the sums of the energies of the particles in the cell, each times its fraction for the kind of the particle; so the energies of all towers add up to the energy of all particles in the grid, nothing lost and nothing counted twice, whatever the order of the input. The photons are the towers with energy that electrons or photons hit and no track does. With a resolution of zero the energy of a tower is the energy deposited.", "quantifier": "all grids, particles, tracks, fractions, and all orders of the input", "why_tests_cant": "hits of particles and tracks are packed into integers, sorted and cut into towers; the test compares one run on one file", "anchors": ["fads/calo.go: Calorimeter, Process"]}
{"id": "C150", "title": "Candidates overlap if they share a constituent; merging and selecting keep what they should", "statement": "Two candidates overlap exactly if they, or anything they consist of at any depth, have an object in common, whichever of them is asked. Merging collections gives the collections one after the other, with the sums of all momenta, transverse momenta and energies. Applying an efficiency keeps the candidates for which the random number is within the efficiency, in order: all of them for an efficiency of one. From collections in order, the finder of unique objects keeps the candidates that overlap none of an earlier collection.", "quantifier": "all candidates with constituents nested to any depth, all collections, efficiencies and random numbers", "why_tests_cant": "overlaps are by identity of objects nested in copies of objects; the tests run the whole chain on one file and compare counts", "anchors": ["fads/datamodel.go: Candidate, Overlaps, Clone", "fads/merger.go: Merger", "fads/efficiency.go: Efficiency", "fads/unique_obj_finder.go: UniqueObjectFinder"]}
{"id": "C151", "title": "Isolation keeps exactly the isolated candidates", "statement": "The output holds, in order, the candidates for which the transverse momentum of the tracks around them, without those sharing constituents with them and without the density of energy times the area of the cone, is within the limits on its ratio and (if asked for) on itself; whatever the numbers of candidates and tracks.", "quantifier": "all collections of candidates, tracks and densities, all limits", "why_tests_cant": "candidates, tracks and densities are three collections of any size, and which one an index belongs to shows only if they differ", "anchors": ["fads/isolation.go: Isolation, Process"]}
{"id": "C152", "title": "Jets get the tags of what they come from", "statement": "Tagging puts one jet for each jet of the input, in the same order and the same but for the tag. A jet gets the b tag if the random number is within the efficiency for the heaviest quark near it. It gets the tau tag if the random number is within the efficiency for a jet of a tau if there is one near it: a tau in the acceptance that decays into hadrons, of which the visible momentum, the sum over all its daughters but the neutrinos, is near the jet; it then has the charge of that tau.", "quantifier": "all jets, partons, particles with their daughters, efficiencies and random numbers", "why_tests_cant": "tags are random and depend on the decay of every tau; the test checks counts for one file and one seed", "anchors": ["fads/btagging.go: BTagging, Process", "fads/tautagging.go: TauTagging, Category, Process"]}
{"id": "C153", "title": "A struct is read from the variables it is written as", "statement": "The variables to write a struct are those of its exported fields, in their order, each pointing to its field, under the name given by the tag or else by the field; dimensions in the tag are not part of the name, and for a slice they name the count. A field that cannot be written makes a panic. The variables to read the same struct have the same names, counts and fields, so a struct can be read from the tree it was written to. The variables to copy a tree have the names of its leaves.", "quantifier": "all structs, tags and nested dimensions, all trees", "why_tests_cant": "names and counts come from tags taken apart by two functions on the two sides; the tests use structs with the usual tags", "anchors": ["groot/rtree/wvar.go: WriteVarsFromStruct, WriteVarsFromTree", "groot/rtree/rvar.go: ReadVarsFromStruct, NewReadVars"]}
{"id": "C154", "title": "The range of what is plotted contains everything that is drawn", "statement": "The range of a histogram contains the top of every bin, the ends of its error bars and its band of errors; that of a stack contains the top of every histogram at the sum of the weights up to it, or at its own weight if not stacked, and the bands that are shown; that of a scatter plot contains the points, the ends of the error bars and the band. With a logarithmic axis this holds for what is above zero, and the range begins above zero.", "quantifier": "all histograms, stacks of any number of histograms, points, errors and bands", "why_tests_cant": "which of bins, error bars and bands is outermost depends on the data; the tests compare images of a few plots", "anchors": ["hplot/h1d.go: DataRange", "hplot/hstack.go: DataRange", "hplot/s2d.go: DataRange", "hplot/band.go: DataRange", "hplot/binerrband.go: DataRange"]}
{"id": "C155", "title": "A file of comma-separated values is a table with all its rows", "statement": "Opening a file as a database gives a table with one column for each field of the first row of data, named by the user, else by the header, else by number, of integers, numbers or texts as that field can be read, and with all rows of the file in order, each field as a value of its column. If a field cannot be read as such, opening fails. A table written by csvutil comes back with the same rows. Creating a file gives an empty database, whether or not there was a file.", "quantifier": "all files, headers, names, delimiters and values", "why_tests_cant": "types come from one row and are applied to all; the tests use files that fit", "anchors": ["csvutil/csvdriver/import.go: importCSV, inferSchema, inferSchemaFromTable, inferSchemaFromFields, Args", "csvutil/csvdriver/driver.go: Open, Create"]}
{"id": "C156", "title": "A connection to a file is open as long as somebody uses it", "statement": "Whatever is opened and closed before, by whomever, a connection is open until its last user closes it, and closed then. Opening a file gives an open connection to that file, with the configuration asked for.", "quantifier": "all sequences of opening and closing, all names and configurations, all interleavings", "why_tests_cant": "connections are shared by name and counted; the tests open one connection to one local file", "anchors": ["csvutil/csvdriver/driver.go: Open, Close, csvDriver, csvConn"]}
{"id": "C157", "title": "A saved job configures the same job again", "statement": "After a configuration every property of a component has the last value given to it. The order in which the properties of a map are set does not matter. Saving the statements of a job with the Go encoder writes a program which compiles, and running it gives an application with the same components and the same values of all properties, and a job with the same statements.", "quantifier": "all configurations, component types, property values and orders of maps", "why_tests_cant": "the tests compare the text written for one job; nothing compiles or runs it", "anchors": ["fwk/job/job.go: New, Create, SetProp, Stmts", "fwk/job/gocodec.go: Encode, encode, repr, value", "fwk/app.go: SetProp, HasProp, Component", "fwk/registry.go: New"]}
{"id": "C158", "title": "Merged graphs have the points of all, each with its errors", "statement": "Merging ROOT graphs of one kind gives a graph with the points of all of them in order, each with its own errors, whose range is that of all points when theirs were, and which can be written. Graphs of different kinds are refused. Merged scatter plots keep the colour and the size of every point.", "quantifier": "all graphs, of all kinds, any number of them", "why_tests_cant": "the tests merge two small graphs and compare text; graphs with several errors are not merged in them", "anchors": ["groot/rhist/graph.go: ROOTMerge", "groot/rhist/scatter.go: ROOTMerge"]}
{"id": "C159", "title": "Row i of a NumPy record is row i of the array", "statement": "A NumPy array of one to five dimensions becomes a record with one row for each value of the first index, and the row with number i holds the elements of the array with first index i, at the other indices.", "quantifier": "all shapes, elements and orders of storage", "why_tests_cant": "the tests read files of few shapes with consecutive numbers; nesting and the reversed shape are arithmetic on all indices", "anchors": ["groot/rnpy/arrow.go: NewRecord, read, schemaFrom, appendData"]}
{"id": "C160", "title": "Arrow records hold the entries asked for, each once", "statement": "An Arrow record made from a tree with a start and an end holds the entries from the start to the end, not included. A loop over a record reader comes to its end, and its records one after the other hold the entries of the range, each once and in order, cut in records of the size asked for. A slice of a record holds those rows of the record. Ranges outside the tree are refused.", "quantifier": "all trees, ranges, chunk sizes and slices", "why_tests_cant": "the tests read whole trees of a few entries, with chunks that never overflow and slices inside of the record", "anchors": ["groot/rarrow/option.go: newConfig, WithChunk, WithStart, WithEnd", "groot/rarrow/reader.go: NewRecord, load, NewSlice, NewRecordReader, Next", "groot/rarrow/table.go: NewTable", "groot/rtree/reader.go: setup"]}
{"id": "C161", "title": "Cell i, j of an Arrow record is branch i of entry j", "statement": "The Arrow schema of a tree has a field for every branch, named after it and of the type of its values. The record of the tree has as many rows as entries, and the value of column i in row j, worked out from the offsets and elements of the column, is the value of branch i in entry j, however lists, arrays and structs are nested.", "quantifier": "all trees, types of any nesting, values and numbers of entries", "why_tests_cant": "the tests compare printed records of a few files; offsets of nested columns depend on all the entries before", "anchors": ["groot/rarrow/rarrow.go: SchemaFrom, fieldFromBranch, dataTypeFromLeaf, dataTypeFromGo, builderFrom, appendData, appendValue", "groot/rarrow/reader.go: load", "groot/rtree/rvar.go: NewReadVars, newValue"]}
{"id": "C162", "title": "A flat tree has the rows of the Arrow records written to it", "statement": "Writing an Arrow record to a flat tree adds an entry for every row, with the values of the row and the length of every list in its counter, also when the columns of the record are slices of larger ones. Records of another schema are refused. The record of a tree written to a flat tree gives back the entries of the tree.", "quantifier": "all records, columns with any offsets, flat types", "why_tests_cant": "the tests write records made from the test trees, without offsets, nulls or name clashes", "anchors": ["groot/rarrow/tree_writer.go: NewFlatTreeWriter, Write, newContextWriter, writeVarFrom, readFrom"]}
{"id": "C163", "title": "What the methods written by brio-gen marshal is read back", "statement": "For a struct whose methods MarshalBinary and UnmarshalBinary were written by brio-gen, the bytes that MarshalBinary returns for a value, followed by anything, are read by UnmarshalBinary as that value, whatever the object held before. MarshalBinary succeeds for every value without a nil pointer, and its bytes are the fields in order, numbers in little-endian order, strings, slices and objects behind their length.", "quantifier": "all struct types, of any nesting of structs, arrays, slices and pointers, all values and all previous contents", "why_tests_cant": "the tests compare the text printed for two packages with a stored one, and never compile or run it", "anchors": ["brio/cmd/brio-gen/internal/gen/gen.go: Generate, genMarshal, genMarshalType, genUnmarshal, genUnmarshalType, isByteType"]}
{"id": "C164", "title": "Comparing two ROOT files finds the differences, and only differences", "statement": "If rcmd.Diff gives no error for two files, everything in the reference file (or under the given keys) is in the other under the same path and is equal to it, and the directories of the reference hold nothing more in the other file. For two files with the same objects under the same paths it gives no error. It always ends.", "quantifier": "all files, with directories of any depth and any number of cycles of keys, all objects and trees, all lists of keys", "why_tests_cant": "the tests compare a few stored files with copies and check the text that is printed", "anchors": ["groot/rcmd/diff.go: Diff, newDiffCmd, diffCmd.diffFiles, diffCmd.diffObject, diffCmd.diffDir, diffCmd.diffTree"]}
{"id": "C165", "title": "The goroutines that read two trees for comparison stay in step", "statement": "While rcmd.Diff compares an entry of two trees, the variables of both hold that entry and are not written to, however the goroutines are scheduled. The comparison never blocks for ever, and its outcome does not depend on the schedule: the error of the first entry that cannot be read, otherwise whether all values are equal. When it has returned, the goroutines end.", "quantifier": "all schedules of the three goroutines, all numbers of entries and of variables, all values, all places where reading fails", "why_tests_cant": "the tests run one schedule for each pair of files, and a reading error is not provoked", "anchors": ["groot/rcmd/diff.go: diffCmd.diffTree, diffCmd.treeDump, treeEntry"]}
{"id": "C166", "title": "Formulas over tree variables see the current entry", "statement": "A formula that rtree.Reader.FormulaFunc gave has, in the callback of Read for entry i, the value of its function for the values that its branches hold in entry i, whatever variables the reader was made with, whatever other formulas were asked for, before or after other calls of Read and Reset; the variables of the user hold entry i too. FormulaFunc succeeds exactly if the function has one result and arguments of the types of the branches.", "quantifier": "all trees, all lists of read-variables, all sequences of FormulaFunc, Read and Reset, all entries", "why_tests_cant": "the tests ask for one formula at a time on a fresh reader, and no request fails before another", "anchors": ["groot/rtree/formula.go: newFormula, formulaAutoLoad", "groot/rtree/reader.go: Reader.Formula, Reader.FormulaFunc, Reader.Read, Reader.Reset", "groot/rtree/rfunc/rfunc.go: newGenericFormula, genericFormula.Bind, genericFormula.eval"]}
{"id": "C167", "title": "Events written by one job are read by the next", "statement": "Events written by the rio output streamer of the framework with some ports, and the file closed, are read one by one, in the same order, by an input streamer with some of those ports in any order: each Read puts exactly the values of that event under the names of its ports in the store, and after the last event Read gives io.EOF. Whatever the file, an event that is read without error has exactly one value for every port. Writing an event fails if a value is missing or has another type than its port.", "quantifier": "all lists of ports, all sequences of events, all values that can be encoded, all compressors that are lossless; for the second part all files", "why_tests_cant": "the tests write and read one port of one type and never a damaged file; what Read does after an error of the scanner depends on where the file ends", "anchors": ["fwk/rio/output.go: OutputStreamer.Connect, OutputStreamer.Write, OutputStreamer.Disconnect", "fwk/rio/input.go: InputStreamer.Connect, InputStreamer.Read", "rio/scanner.go: Scanner.Scan, Scanner.Err, Scanner.Select", "fwk/store.go: datastore.Put, datastore.Get"]}
{"id": "C168", "title": "Histograms saved by one job can be booked by the next", "statement": "The histograms, profiles and scatters that were booked for an output stream of the histogram service of the framework are, after the job stopped, those that another job gets when it books the same names from an input stream on that file; a name that is not in the file is an error.", "quantifier": "all lists of histograms, all values that can be encoded, all names, all lossless compressors", "why_tests_cant": "the tests save and read one set of histograms with different names that are all there", "anchors": ["fwk/hbooksvc/stream.go: istream.read, ostream.write", "fwk/hbooksvc/hsvc.go: hsvc.StopSvc, hsvc.BookH1D", "rio/record.go: Record.Connect"]}
{"id": "C169", "title": "xrd-cp makes an image of what is on the server", "statement": "xrd-cp copies a file or, with -r, a directory into an existing directory under its own name: every file below it is then at the same place below the copy with the same content, every directory is there, and nothing else changes; the same for several sources with different names. A directory copied to a name that is not there becomes that directory. A file is copied to a name or to the standard output. Without -r directories are refused, with an error.", "quantifier": "all trees on the server, all lists of sources, all states of the local file system in which the names are free", "why_tests_cant": "there are no tests with nested directories, odd names or destinations that exist", "anchors": ["xrootd/cmd/xrd-cp/main.go: main, xrdcopy, job.run, jobs.run"]}
{"id": "C170", "title": "A recorded drawing can be replayed, also from its JSON form", "statement": "A drawing recorded on a vgop canvas, replayed on another canvas, makes the calls it was made with, in order, with the same arguments. Written as JSON and read back it has the same size and operations, and its replay makes the same calls. It can be written if all its numbers are finite, and the JSON form does not depend on the order in which the map of fonts is visited.", "quantifier": "all sequences of calls with all arguments: paths of any shape, colours, fonts, text in UTF-8, images that the PNG codec keeps", "why_tests_cant": "the test writes one drawing, with opaque colours, and compares the JSON with itself; it never replays it", "anchors": ["hplot/vgop/canvas.go: New, Canvas.ReplayOn, Canvas.Reset, Canvas.add, Canvas.append, Canvas.SetLineWidth, Canvas.SetLineDash, Canvas.SetColor, Canvas.Rotate, Canvas.Translate, Canvas.Scale, Canvas.Push, Canvas.Pop, Canvas.Stroke, Canvas.Fill, Canvas.FillString, Canvas.DrawImage", "hplot/vgop/json.go: JSON.MarshalJSON, JSON.UnmarshalJSON, jsonOpFrom, jsonPathFrom, jsonPathCompFrom, jsonPointFrom", "hplot/vgop/ops.go: opSetColor.MarshalJSON, opSetColor.UnmarshalJSON, opTranslate.MarshalJSON, opTranslate.UnmarshalJSON, opStroke.MarshalJSON, opStroke.UnmarshalJSON, opFill.MarshalJSON, opFill.UnmarshalJSON, opFillString.MarshalJSON, opFillString.UnmarshalJSON, opDrawImage.MarshalJSON, opDrawImage.UnmarshalJSON"]}
{"id": "C171", "title": "LaTeX documents compiled in the background", "statement": "The background LaTeX handler compiles every document that is submitted exactly once, never more of them at a time than it allows, and never blocks for ever; Wait returns when all documents submitted before have been compiled, with nil if and only if all succeeded and otherwise with the error of one of them. Compiling a document puts its PDF beside it and changes no other file; if the command fails nothing changes.", "quantifier": "all sequences of submissions and waits, all limits, all schedules of the goroutines, all results of the compilations", "why_tests_cant": "the tests run one schedule with ten documents, and only look at the error", "anchors": ["hplot/htex/handler.go: NewGoHandler, GoHandler.CompileLatex, GoHandler.Wait", "hplot/htex/latex.go: pdfLatex.CompileLatex"]}
{"id": "C172", "title": "Particles moved to the edge of the detector", "statement": "A particle in the cylinder of the detector, without charge or without magnetic field, is moved along its momentum to the last point of its way in the cylinder, which is on its surface, and its time grows with its energy. A charged particle in a field is moved on its helix: on the circle in the transverse plane that its momentum gives, and along z with the speed pz/e, to the surface. Particles outside are dropped; electrons and muons go into their lists.", "quantifier": "all cylinders, fields, positions, momenta, charges and particle codes, with exact arithmetic", "why_tests_cant": "the tests run one job on one file and look at no position", "anchors": ["fads/propagator.go: Propagator.Process"]}
{"id": "C173", "title": "The streamer of a class is found, and is in the file", "statement": "The registry of streamers gives for a class and a version the streamer added last for them, and without version one with the greatest version; Values gives all of them in one order. Neither depends on the order of a map. After an object has been put into a file the file has a streamer of its class, and after it has been closed without error those of all classes it depends on, each once. Different Go types have different C++ names.", "quantifier": "all sequences of Add, all orders of map iteration and of ties in the sort, all classes, versions and titles", "why_tests_cant": "the tests use the global registry with its few fixed classes, each with one version", "anchors": ["groot/rdict/db.go: streamerDb.Get, streamerDb.Add, streamerDb.Values", "groot/rdict/gen.go: GoName2Cxx, Typename", "groot/riofs/file.go: File.StreamerInfo, File.RegisterStreamer, File.addStreamer, File.findDepStreamers", "groot/riofs/dir.go: tdirectoryFile.Put", "groot/riofs/streamers.go: streamerInfoFrom"]}
{"id": "C174", "title": "Arguments that name a file and a selection", "statement": "An argument of root-cp or root-print is the name of a file, and after a colon the selection of its objects: the name is kept, with its scheme, and the selection is made to start at the root, an anchor staying an anchor; without selection everything is selected. An argument with more colons is refused.", "quantifier": "all names, schemes and selections", "why_tests_cant": "the tests try a dozen arguments, none with a port", "anchors": ["groot/rcmd/rcmd.go: splitArg", "groot/cmd/root-print/main.go: splitArg"]}
{"id": "C175", "title": "A chain of the trees of many files", "statement": "ChainOf makes the chain of the trees of the files in their order if and only if every file can be opened and has a tree of the name; then no file is closed before the function it gives is called, which closes each once and gives the first error. Otherwise it gives the error of the first file that is not as it should be, and every file that was opened has been closed.", "quantifier": "all lists of files, also with repetitions, and all failures of opening, reading and closing", "why_tests_cant": "the tests do not look whether files are closed after an error", "anchors": ["groot/rtree/chain.go: ChainOf"]}
{"id": "C176", "title": "Arrays of clones are written and read", "statement": "A TClonesArray whose elements are all of its class, some of them nil, is read as it was written: its name, class, lower bound, and every element at its place, leaving what follows in the buffer. Writing does not change the array. SetElems gives it the elements and, if it has none yet, the class of the first.", "quantifier": "all arrays, classes, versions, and ways of writing the elements that lose nothing", "why_tests_cant": "the tests write one array of each kind", "anchors": ["groot/rcont/clonesarray.go: ClonesArray"]}
{"id": "C177", "title": "Energies and momenta are scaled and smeared", "statement": "The task that scales energies keeps every candidate, in order, with its momentum and energy multiplied by the scale for its transverse momentum and pseudo-rapidity. The tasks that smear the energy or the transverse momentum keep those whose drawn value is positive, in order, with that value and in the direction they had; the resolution is taken where the candidate is in the detector, and the candidate is recorded as constituent of the new one. With a perfect resolution nothing should change.", "quantifier": "all lists of candidates with physical momenta off the beam axis, all scales, resolutions and random draws", "why_tests_cant": "the tests run one event through the whole chain", "anchors": ["fads/energy_scale.go: Process", "fads/energy_smearing.go: Process", "fads/momentum_smearing.go: Process"]}
{"id": "C178", "title": "Generated particles become candidates", "statement": "The task that reads generated events makes one candidate of every particle of the event, with its code, status, momentum, mass, charge and the position of the vertex where it was produced, and puts them by falling transverse momentum. The stable ones (known, of the final state, without width) and the partons (known quarks, gluons and taus not of the final state) are also in lists of their own, each once, whatever the order in which the map gives the particles.", "quantifier": "all events, orders of the map, tables of particles and ways of sorting", "why_tests_cant": "the tests run one file; the order of a map is random", "anchors": ["fads/hepmcreader.go: Process"]}
{"id": "C179", "title": "Tables of particles are read", "statement": "A table whose lines are particles (six elements), comments or empty is read without error: each particle is found by its code and by its name, with its charge (a third of the number in the table), mass, and width (or the width of its lifetime); nothing else is found, and the length is their number. A line that is none of these is an error, and so is a reader that fails.", "quantifier": "all texts whose white space is spaces, all numbers of particles, repetitions included", "why_tests_cant": "the tests look up three particles of the table that comes with the package", "anchors": ["heppdt/parser.go: parse", "heppdt/pdt.go: New"]}
{"id": "C180", "title": "Jets become candidates", "statement": "The task that finds jets makes of every jet, in the order of falling transverse momentum, a candidate of its momentum with its constituents in their order, whose time is the mean of theirs weighted by the square roots of their energies and whose widths are the largest distances of its constituents from it in pseudo-rapidity and azimuth. If the constituents of a jet cannot be found there is an error.", "quantifier": "all lists of jets and constituents, and all ways of measuring distances", "why_tests_cant": "the tests do not look at the widths of the second jet", "anchors": ["fads/fastjet_finder.go: Process"]}
{"id": "C181", "title": "A directory of a server is removed with all it has", "statement": "RemoveAll removes a path and all that is below it, and nothing else, from the leaves up. It removes everything it can, and its error is that of the first request that fails; there is no error exactly if nothing remains. If the path does not exist there is no error.", "quantifier": "all trees of files and directories, and all failures of requests", "why_tests_cant": "the tests remove one directory, without failures", "anchors": ["xrootd/filesystem.go: RemoveAll"]}
{"id": "C182", "title": "Colours in hexadecimal notation", "statement": "A colour of four bytes written in hexadecimal notation is read as it was; three or four digits mean six or eight with each digit twice; what is not of 3, 4, 6 or 8 hexadecimal digits, with or without a # before them, is a fixed yellow; a colour of 8 bits per component stays the same when it is converted to this notation. The values given for drawing are premultiplied, none greater than the alpha.", "quantifier": "all colours and all texts", "why_tests_cant": "the tests convert a table of a few colours; there are 2^32 of them", "anchors": ["groot/rsrv/internal/hexcolor/hexcolor.go: RGBAToHex", "groot/rsrv/internal/hexcolor/hexcolor.go: HexToRGBA", "groot/rsrv/internal/hexcolor/hexcolor.go: RGBA", "groot/rsrv/internal/hexcolor/hexcolor.go: hexModel"]}
{"id": "C183", "title": "A deleted event keeps nothing alive", "statement": "After the deletion of an event none of its particles points to a vertex, none of its vertices to the event or to a particle, and the event to nothing; particles and vertices of other events are as before.", "quantifier": "all events and all orders in which the maps are walked", "why_tests_cant": "the tests call it and look at nothing afterwards, and the order of a map is random", "anchors": ["hepmc/hepmc.go: Delete"]}
{"id": "C184", "title": "Spins of particles", "statement": "JSpin is 2J+1 for the spin J of a particle; the orbital momentum and the spin of the quarks of a meson are those of the numbering scheme of the Particle Data Group and can be coupled to J; an antiparticle has the spin of the particle.", "quantifier": "all particle ids", "why_tests_cant": "the tests have a table of particles; ids are ten digits", "anchors": ["heppdt/pid.go: JSpin", "heppdt/pid.go: LSpin", "heppdt/pid.go: SSpin"]}
{"id": "C185", "title": "Data connections are not shared", "statement": "Requests with data of a session each use a connection of their own, at most as many as the session may have; a request that gets none uses the main connection. No connection is used by two requests at a time, each is one the session knows, and none is lost.", "quantifier": "all interleavings of requests, of failures to connect and of the numbers the server gives", "why_tests_cant": "which requests overlap depends on the scheduler and on the server; the tests have one request at a time", "anchors": ["xrootd/session.go: claimPathID", "xrootd/session.go: unclaimPathID", "xrootd/session.go: Send"]}
{"id": "C186", "title": "A polynomial fitted to points", "statement": "Poly returns the coefficients, highest power first, of the polynomial of the given degree for which the sum of the squares of the distances to the points is least; for points of a polynomial of that degree it returns that polynomial.", "quantifier": "all points, degrees and coefficients", "why_tests_cant": "the tests fit a few sets of points of low degree", "anchors": ["fit/poly.go: Poly", "fit/poly.go: vandermonde"]}
{"id": "C187", "title": "The map of the segments of a file", "statement": "The map shows every record and every gap of a file once, in their order and at their places, and then its end. If there is an error in the chain of segments it is reported, and the walk always ends.", "quantifier": "all sequences of segments and all contents of a file", "why_tests_cant": "the tests print the map of a few good files; gaps of more than 2 GB do not occur in them", "anchors": ["groot/riofs/file.go: SegmentMap", "groot/riofs/file.go: markFree"]}
{"id": "C188", "title": "Minor ticks of an axis", "statement": "To the labelled ticks of an axis minor ones are added at multiples of the minor distance from the first label: within the range, none nearer to another tick than half that distance, and none missing; only labels, and a last tick at the distance of labels after the last one, are labelled.", "quantifier": "all ranges, labels and distances", "why_tests_cant": "the tests compare images of a few plots", "anchors": ["hplot/internal/talbot/ticks.go: Ticks"]}
{"id": "C189", "title": "Shutting a server down", "statement": "Shutting down a remote-file server closes every listener it serves and every connection it handles, and returns the first error of doing so; after it nothing is accepted or handled, and serving ends with the error of a closed server, which is never returned without a shutdown.", "quantifier": "all interleavings of serving, accepting, registering, ending handlers and shutdowns", "why_tests_cant": "the moment between accepting a connection and registering it is never hit in a test", "anchors": ["xrootd/server.go: Shutdown, Serve, handleConnection"]}
{"id": "C190", "title": "Choosing a security method", "statement": "A client that must authenticate reads the methods the server lists with their parameters, tries them in that order, is authorised by the first that works and sends nothing after it; if none works the error gives the reason of every method.", "quantifier": "all lists of methods, all providers of the client and all answers of the server", "why_tests_cant": "the tests have a server with one method", "anchors": ["xrootd/auth.go: auth"]}
{"id": "C191", "title": "Ticks at a fixed frequency", "statement": "An axis with a given number of ticks has that many: the first at its lower end, the last at its upper end, all at the same distance and in order; the labelled ones are those at multiples of the frequency, with the text of their own value.", "quantifier": "all numbers of ticks, frequencies and ranges", "why_tests_cant": "the tests draw one axis", "anchors": ["hplot/ticks.go: FreqTicks.Ticks"]}
{"id": "C192", "title": "Sessions of a client", "statement": "A remote-file client keeps one session for every server address, different ones for different addresses, sends its requests to the first server it could log in at, and closing it closes every session it opened.", "quantifier": "all interleavings of calls that need sessions, of successes and failures, and of closing", "why_tests_cant": "calls of two goroutines that need the same new session at the same moment are not tested", "anchors": ["xrootd/client.go: getSession, Close"]}
{"id": "C193", "title": "Width and lifetime of a resonance", "statement": "The lifetime of a resonance times its width is Planck's constant, their relative errors are equal, and a lifetime that is set is the one that is read afterwards, with its error; a lifetime not greater than zero changes nothing.", "quantifier": "all widths, lifetimes and errors", "why_tests_cant": "the functions are not tested", "anchors": ["heppdt/resonance.go: Resonance.Lifetime, Resonance.SetTotalWidthFromLifetime"]}
{"id": "C194", "title": "Tiles of plots", "statement": "A set of tiled plots has a plot of its own for every column and row; each is drawn once, in the tile it is asked for by, emptied tiles are left out, and a tile that is not there is refused.", "quantifier": "all numbers of rows and columns and all plots, with any tiles emptied", "why_tests_cant": "the tests draw one set of tiles", "anchors": ["hplot/tiledplot.go: NewTiledPlot, TiledPlot.Plot, TiledPlot.Draw"]}
{"id": "C195", "title": "Opening and closing remote files", "statement": "A remote file that cannot be opened leaves nothing open, neither a connection nor a file at the server; one that was opened by its name has a connection of its own, and closing it closes both even if the server fails to close the file; a connection that was given stays open.", "quantifier": "all failures of naming, connecting, opening, sizing and closing", "why_tests_cant": "servers that fail in the middle of opening a file are not available to the tests", "anchors": ["xrootd/xrdio/xrdio.go: Open, OpenFrom, File.Close"]}
{"id": "C196", "title": "The place of a label", "statement": "A label put in units of the canvas is drawn at that place of the axes if it fits; if not, it is moved just so far that its text ends within the canvas if that was asked for, and refused if not; a label in units of the data is drawn where it was put.", "quantifier": "all places, sizes of text, axes and options", "why_tests_cant": "the tests compare images of a few labels", "anchors": ["hplot/label.go: NewLabel, Label.Plot"]}
{"id": "C197", "title": "Scanning the rows of a query", "statement": "Scanning a query of a tree calls the function with every row in order, stops at its first error and returns that error, stops at a row that cannot be converted without calling it, does not take the end of the data for an error, and refuses what is not a function returning an error; histograms are filled with every row once, and made with the range of all rows if none is given.", "quantifier": "all rows, functions with state, errors and ends", "why_tests_cant": "the tests scan a few files without errors", "anchors": ["groot/rsql/scan.go: Scan, ScanH1D, ScanH2D"]}
