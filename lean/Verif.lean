import Verif.RBytes.Props
import Verif.RBytes.Ints
import Verif.FreeList.Props
import Verif.Riofs.Datime
import Verif.Riofs.RecordProps
import Verif.Riofs.DirProps
import Verif.Compress.Props
import Verif.Riofs.AllocProps
import Verif.Hbook.Rand
import Verif.Hbook.More
import Verif.Lcio.CellIDProps
import Verif.SliceOp.Props
import Verif.HepPDT.Props
import Verif.Rio.Props
import Verif.Sio.Pointers
import Verif.Sio.Values
import Verif.Xrootd.SessionProps
import Verif.Fwk.Tarjan
import Verif.Fwk.Dflow
import Verif.Fwk.Event
import Verif.Fwk.EventProps
import Verif.Fwk.Run
import Verif.Fwk.Phases
import Verif.Fwk.Streams
import Verif.Fwk.Hsvc
import Verif.RTree.Model
import Verif.RTree.Lemmas
import Verif.RTree.Tree
import Verif.RTree.Props
import Verif.RTree.BkReader
import Verif.RTree.Chain
import Verif.RTree.Access
import Verif.RTree.Join
import Verif.FastJet.Model
import Verif.FastJet.Lemmas
import Verif.FastJet.Props
import Verif.FastJet.More
import Verif.FastJet.Heap
import Verif.Riofs.File
import Verif.Riofs.FileLemmas
import Verif.Riofs.FileSpec
import Verif.Riofs.FileInv
import Verif.Riofs.FileClose
import Verif.Riofs.FileOpen
import Verif.Riofs.FileProps
import Verif.RBytes.Refs
import Verif.RBytes.RefsLemmas
import Verif.RBytes.RefsSpec
import Verif.RBytes.RefsRead
import Verif.RBytes.RefsAny
import Verif.RBytes.RefsProps
import Verif.RBytes.RefsMore
import Verif.HepMC.Heap
import Verif.HepMC.Encode
import Verif.HepMC.Decode
import Verif.HepMC.Spec
import Verif.HepMC.TextLemmas
import Verif.HepMC.ParseLemmas
import Verif.HepMC.ReadLemmas
import Verif.HepMC.HeadLemmas
import Verif.HepMC.GraphLemmas
import Verif.HepMC.ConnectLemmas
import Verif.HepMC.RoundTrip
import Verif.HepMC.FileLemmas
import Verif.HepMC.Props
import Verif.HepMC.Copy
import Verif.HepMC.Ends
import Verif.HepMC.Examples
import Verif.HepMC.Graph
import Verif.HepMC.GraphOps
import Verif.HepMC.GraphProps
import Verif.HepMC.GraphExamples
import Verif.Hbook.Brio
import Verif.Hbook.BrioProps
import Verif.Hbook.Profile
import Verif.Hbook.ProfileProps
import Verif.Hbook.ProfileFloat
import Verif.Hbook.Scatter
import Verif.Hbook.Stats
import Verif.Hbook.BrioExamples
import Verif.FastJet.Predicates
import Verif.FastJet.PredicatesProps
import Verif.FastJet.PredicatesFloat
import Verif.Fmom.P4
import Verif.Fmom.Props
import Verif.Fmom.Convert
import Verif.Fmom.Ops
import Verif.Rdict.Cxx
import Verif.Rdict.Ops
import Verif.Rdict.OpsProps
import Verif.Rdict.Trunc
import Verif.Rdict.Build
import Verif.Rdict.GoType
import Verif.Rdict.BuildProps
import Verif.Hbook.RootCnv
import Verif.Hbook.RootCnvProps
import Verif.Hbook.RootCnv2
import Verif.Hbook.RootCnvEx
import Verif.Common.Strconv
import Verif.Csv.Model
import Verif.Csv.Props
import Verif.Fwk.Parallel
import Verif.Remote.Span
import Verif.Remote.Cache
import Verif.Remote.Http
import Verif.Common.Text
import Verif.Remote.Xrd
import Verif.Ntup.Model
import Verif.Ntup.Props
import Verif.Common.Words
import Verif.Slha.Model
import Verif.Slha.Block
import Verif.Slha.Codec
import Verif.Slha.Total
import Verif.Hepevt.Model
import Verif.Hepevt.Props
import Verif.Rsql.Model
import Verif.Rsql.Expr
import Verif.Rsql.Rows
import Verif.Rsql.Driver
import Verif.Common.Fscanf
import Verif.Lhef.Model
import Verif.Lhef.Props
import Verif.Lhef.File
import Verif.Riofs.Nested
import Verif.Riofs.NestedProps
import Verif.Riofs.NestedPut
import Verif.Riofs.NestedWalk
import Verif.Riofs.NestedMore
import Verif.Rcmd.Merge
import Verif.Rcmd.MergeProps
import Verif.Rcmd.Split
import Verif.Rcmd.SplitProps
import Verif.Rcmd.Copy
import Verif.Rcmd.CopyProps
import Verif.Hbook.Yoda
import Verif.Hbook.YodaLemmas
import Verif.Hbook.YodaRead
import Verif.Hbook.YodaToy
import Verif.Hbook.YodaH1DProps
import Verif.Hbook.YodaMore
import Verif.Hbook.YodaMoreProps
import Verif.Hbook.YodaMoreEx
import Verif.Hbook.YodaS2D
import Verif.Hbook.YodaS2DProps
import Verif.Hbook.YodaArchive
import Verif.Hbook.YodaArchiveProps
import Verif.Lcio.Codec
import Verif.Lcio.Records
import Verif.Lcio.RecordsProps
import Verif.Lcio.Event
import Verif.Lcio.EventSpec
import Verif.Lcio.EventLink
import Verif.Lcio.EventProps
import Verif.Lcio.EventEx
import Verif.Hbook.YodaLines
import Verif.HepMC.RootCnv
import Verif.HepMC.RootCnvLemmas
import Verif.HepMC.RootCnvProps
import Verif.HepMC.RootCnvFile
import Verif.Lhef.ToHepMC
import Verif.Lhef.ToHepMCLemmas
import Verif.Lhef.ToHepMCProps
import Verif.Lhef.ToHepMCFile
import Verif.Robj.Rd
import Verif.Robj.Classes
import Verif.Robj.Spec
import Verif.Robj.Lemmas
import Verif.Robj.Registry
import Verif.Robj.Contracts
import Verif.Robj.Hold
import Verif.Robj.Props
import Verif.Robj.Stable
import Verif.Robj.Again
import Verif.Robj.OldSpec
import Verif.Robj.Old
import Verif.Robj.OldMore
import Verif.Robj.Versions
import Verif.Robj.More
import Verif.RTree.LeafModel
import Verif.RTree.LeafSpec
import Verif.RTree.LeafWrite
import Verif.RTree.LeafRead
import Verif.RTree.LeafProps
import Verif.RTree.LeafMore
import Verif.RBytes.PackModel
import Verif.RBytes.PackProps
import Verif.Rdict.Range
import Verif.Rdict.RangeProps
import Verif.Fads.Grid
import Verif.Fads.GridProps
import Verif.Fads.Calo
import Verif.Fads.CaloProps
import Verif.Fads.Select
import Verif.Fads.SelectProps
import Verif.Fads.IsoProps
import Verif.Fads.TagProps
import Verif.RTree.Struct
import Verif.RTree.StructProps
import Verif.Hplot.Range
import Verif.Hplot.RangeProps
import Verif.Csv.Driver
import Verif.Csv.DriverProps
import Verif.Csv.ConnProps
import Verif.Fwk.Job
import Verif.Fwk.JobProps
import Verif.Robj.GraphMerge
import Verif.Robj.GraphMergeProps
import Verif.Rnpy.Record
import Verif.Rnpy.RecordProps
import Verif.Rarrow.Record
import Verif.Rarrow.RecordProps
import Verif.Rarrow.Column
import Verif.Rarrow.ColumnProps
import Verif.Brio.Gen
import Verif.Brio.GenProps
import Verif.Rcmd.Diff
import Verif.Rcmd.DiffProps
import Verif.Rcmd.Lockstep
import Verif.Rcmd.LockstepProps
import Verif.RTree.Formula
import Verif.RTree.FormulaProps
import Verif.Fwk.Streamer
import Verif.Fwk.StreamerProps
import Verif.Fwk.Hstream
import Verif.Fwk.HstreamProps
import Verif.Xrootd.Copy
import Verif.Xrootd.CopyProps
import Verif.Hplot.Vgop
import Verif.Hplot.VgopProps
import Verif.Hplot.Htex
import Verif.Hplot.HtexProps
import Verif.Fads.Propagate
import Verif.Fads.PropagateProps
import Verif.Rdict.Streamers
import Verif.Rdict.StreamersProps
import Verif.Rcmd.SplitArg
import Verif.Rcmd.SplitArgProps
import Verif.RTree.ChainOf
import Verif.RTree.ChainOfProps
import Verif.Robj.Clones
import Verif.Robj.ClonesProps
import Verif.Fads.Smear
import Verif.Fads.SmearProps
import Verif.Fads.McRead
import Verif.Fads.McReadProps
import Verif.HepPDT.PdtRead
import Verif.HepPDT.PdtReadProps
import Verif.Fads.JetCand
import Verif.Fads.JetCandProps
import Verif.Xrootd.RemoveAll
import Verif.Xrootd.RemoveAllProps
import Verif.Rsrv.HexColor
import Verif.Rsrv.HexColorProps
import Verif.HepMC.DeleteEvt
import Verif.HepMC.DeleteEvtProps
import Verif.HepPDT.Spins
import Verif.HepPDT.SpinsProps
import Verif.Xrootd.Paths
import Verif.Xrootd.PathsProps
import Verif.Fit.Poly
import Verif.Fit.PolyProps
import Verif.Riofs.SegMap
import Verif.Riofs.SegMapProps
import Verif.Hplot.MinorTicks
import Verif.Hplot.MinorTicksProps
import Verif.Xrootd.Shutdown
import Verif.Xrootd.ShutdownProps
import Verif.Xrootd.Auth
import Verif.Xrootd.AuthProps
import Verif.Hplot.FreqTicks
import Verif.Hplot.FreqTicksProps
import Verif.Xrootd.Sessions
import Verif.Xrootd.SessionsProps
import Verif.HepPDT.Reso
import Verif.HepPDT.ResoProps
import Verif.Hplot.Tiled
import Verif.Hplot.TiledProps
import Verif.Remote.XrdOpen
import Verif.Remote.XrdOpenProps
import Verif.Hplot.Label
import Verif.Hplot.LabelProps
import Verif.Rsql.Scan
import Verif.Rsql.ScanProps
