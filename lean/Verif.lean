import Verif.Props.Lists
import Verif.Props.Mfset
import Verif.Props.FibHeap
import Verif.Props.Sort
import Verif.Props.Mst
import Verif.Props.Graph
import Verif.Props.Kruskal
import Verif.Props.Prim
import Verif.Props.Constrained
import Verif.Props.Counters
import Verif.Props.ConstrainedKruskal
import Verif.Props.ConstrainedExamples
import Verif.Props.OneTree
import Verif.Props.OneTreeFails
import Verif.Props.Dfs
import Verif.Props.Branch
import Verif.Props.BranchExamples
import Verif.Props.BranchOrder
import Verif.Props.Fixing
import Verif.Props.FixingExamples
import Verif.Props.Bound
import Verif.Props.BoundExamples
import Verif.Props.Nearest
import Verif.Props.Candidate
import Verif.Props.SearchExamples
import Verif.Props.Search
import Verif.Props.SearchFails
import Verif.Props.Termination
import Verif.Props.Sites
import Verif.Props.BranchEdge
import Verif.Props.Reader
import Verif.Props.ReaderLib
import Verif.Props.Print
import Verif.Props.Main
import Verif.Props.MainExamples
import Verif.Props.Incomplete
import Verif.Props.Driver
import Verif.Props.Driver2
import Verif.Props.Driver3
import Verif.Props.DriverExamples
import Verif.Props.Linked
import Verif.Spec.DirectedTour
import Verif.Model.Mtz
import Verif.Proofs.Mtz
import Verif.Props.Mtz
import Verif.Model.Converter
import Verif.Props.Converter
import Verif.Model.TourUtils
import Verif.Proofs.TourUtils
import Verif.Props.TourUtils
import Verif.Proofs.Samples
import Verif.Props.Samples
import Verif.Spec.TopK
import Verif.Model.Beam
import Verif.Proofs.Beam
import Verif.Props.Beam
import Verif.Props.BeamExact
import Verif.Model.Analyzer
import Verif.Props.Analyzer
import Verif.Props.TableHistory
import Verif.Props.TableOverflow
import Verif.Props.TableSearch
import Verif.Props.Memory
import Verif.Props.Anytime
import Verif.Props.AnytimeExamples
import Verif.Model.ResultText
import Verif.Proofs.ResultText
import Verif.Proofs.ResultSegs
import Verif.Proofs.ResultRead
import Verif.Spec.ResultFile
import Verif.Props.ResultFile
import Verif.Props.ResultFails
import Verif.Props.ResultExamples
import Verif.Props.ResultReach
import Verif.Model.Gcn
import Verif.Spec.GcnSpec
import Verif.Proofs.Gcn
import Verif.Props.Gcn
import Verif.Props.GcnFails
import Verif.Model.EdgeError
import Verif.Spec.EdgeErrorSpec
import Verif.Props.EdgeError
import Verif.Model.Run
import Verif.Spec.RunSpec
import Verif.Proofs.Run
import Verif.Proofs.RunLoop
import Verif.Props.Run
import Verif.Props.RunFails
import Verif.Props.Pipeline
import Verif.Props.PipelineExamples
import Verif.Props.Rounding
import Verif.Props.Machine
import Verif.Props.MachineExamples
import Verif.Props.MachineExamples2
import Verif.Props.Pipeline2
import Verif.Props.Pipeline2Examples
import Verif.Props.Tables
import Verif.Props.TablesFails
import Verif.Props.TablesExamples
import Verif.Props.Means
import Verif.Props.MeansExamples
import Verif.Props.MeanText
import Verif.Props.MeanTextExamples
import Verif.Props.MaxK
import Verif.Props.EdgeLen
import Verif.Props.Padding
import Verif.Props.PaddingFails
import Verif.Props.PaddingExamples
import Verif.Props.PrintEdges
import Verif.Props.Reference
import Verif.Model.NetMain
import Verif.Props.NetMain
import Verif.Props.NetMainExamples
