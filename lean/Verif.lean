import Verif.Spec
import Verif.Model.State
import Verif.Model.Core
import Verif.Model.Search
import Verif.Proof.Build
import Verif.Proof.NCRun
import Verif.Proof.DOcc
import Verif.Proof.CReach
import Verif.Props.Chrono
import Verif.Props.NC
import Verif.Props.Counts
import Verif.Proof.LReach
import Verif.Props.Steps
import Verif.Props.Heur
import Verif.Proof.WLRun
import Verif.Props.WL
import Verif.Props.Agree
import Verif.Format
import Verif.Model.Parser
import Verif.Model.CLI
import Verif.Props.Files
import Verif.Props.CLI
import Verif.Model.Benchmarks
import Verif.Props.Benchmarks
import Verif.Model.Encode
import Verif.SpecBool
import Verif.Props.Encode
import Verif.Model.GenBen
import Verif.Props.GenBen
import Verif.Model.WatchList
import Verif.Props.WatchList
import Verif.Model.BitVec
import Verif.Proof.BVBuild
import Verif.Proof.BVAny
import Verif.Proof.BVLoop
import Verif.Proof.BVVsids
import Verif.Props.BitVec
import Verif.Proof.Fuel
import Verif.Props.Clock
import Verif.Props.Learned
import Verif.Model.BVCLI
import Verif.Props.BVCLI
import Verif.Proof.B2fLines
import Verif.Props.Pipeline
import Verif.Props.OneValue
import Verif.Props.QueensCnf
import Verif.Model.Orig
import Verif.Proof.OrigBase
import Verif.Proof.OrigInv
import Verif.Proof.OrigReduce
import Verif.Proof.OrigUndo
import Verif.Proof.OrigProp
import Verif.Proof.OrigChrono
import Verif.Proof.OrigBuild
import Verif.Proof.OrigLearn
import Verif.Props.Orig
import Verif.Model.OrigCLI
import Verif.Props.OrigCLI
import Verif.Props.Meta
import Verif.Props.Reading
import Verif.Props.RandomSat
import Verif.Props.BoolSolve
import Verif.Props.WatchMem
import Verif.Props.ClauseMem
import Verif.Props.BVMem
import Verif.Props.Program
import Verif.Props.Chain
import Verif.Model.Output
import Verif.Props.Output
import Verif.Model.Batch
import Verif.Props.Batch
import Verif.Model.Colouring
import Verif.Props.Colouring
import Verif.Props.BoolChain
import Verif.Model.BVOutput
import Verif.Props.BVOutput
import Verif.Model.OrigOutput
import Verif.Props.OrigOutput
import Verif.Props.Collect
import Verif.Props.Puzzles
import Verif.Props.Numbers
import Verif.Props.GraphText
import Verif.Props.OrigPuzzles
import Verif.Props.EncodeBV
