import Verif.Model.Minimize
import Verif.Props.Determinize
import Verif.Props.Queries
import Verif.Props.Minimize
import Verif.Props.Temporal
import Verif.Props.Retry
import Verif.Props.Calls
import Verif.Props.Canon
import Verif.Props.Count
import Verif.Props.Sources
import Verif.Props.Text
import Verif.Props.Input
import Verif.Props.Stream
import Verif.Props.Tfhe
import Verif.Props.Scheme
import Verif.Props.Backstream
import Verif.Props.Lut
import Verif.Props.Block
import Verif.Props.Flut
import Verif.Props.FlutNoise
import Verif.Props.Par
import Verif.Props.Sched
import Verif.Props.Noise
import Verif.Props.ParCounter
import Verif.Props.Online1
import Verif.Props.Commands
import Verif.Props.Bench
import Verif.Props.Ltl
import Verif.Props.Timeit
import Verif.Props.Convert
import Verif.Props.Counter
import Verif.Props.CounterTest
import Verif.Props.CounterKeys
import Verif.Props.BlockNoise
import Verif.Props.Btt
import Verif.Props.Cli
import Verif.Props.Plain
import Verif.Props.PlainTest
import Verif.Props.Secret
import Verif.Props.Shell
import Verif.Props.Frame
import Verif.Props.Oblivious
import Verif.Props.Crash
import Verif.Props.Fault
import Verif.Props.Cut
import Verif.Props.Alias
import Verif.Props.BenchLog
import Verif.Props.Chance
import Verif.Props.Plan
import Verif.Props.TestBench
import Verif.Props.TestHomfa
import Verif.Props.Tape
import Verif.Props.Convert2
import Verif.Props.TestRepo
import Verif.Check.Test0
import Verif.Props.TfheAlg
import Verif.Props.TfheLib
import Verif.Props.Clean
import Verif.Props.Damage
import Verif.Props.Pieces
import Verif.Props.Test0
import Verif.Props.World
import Verif.Props.KeyParts
import Verif.Props.Parallel
import Verif.Props.SharedOutput
import Verif.Props.BenchEnd
import Verif.Props.Drop
import Verif.Props.Wide
import Verif.Props.Memory
import Verif.Props.WholeTest
import Verif.Props.CounterCalls
import Verif.Props.Verbose
import Verif.Props.Measure
import Verif.Props.Prepared
import Verif.Props.Outage
import Verif.Props.OutageParallel
import Verif.Props.Gap
import Verif.Props.DiskHistory
import Verif.Props.Tree
import Verif.Props.Again
import Verif.Props.Collage
import Verif.Props.Alarm
import Verif.Props.Safety
import Verif.Props.CanonText
import Verif.Props.AttText
import Verif.Props.Picture
import Verif.Props.HomfaLog
import Verif.Props.CryptoTest
import Verif.Props.NfaDot
import Verif.Props.Diagnose
import Verif.Props.Complaint
import Verif.Props.FewestLive
import Verif.Props.LeastWork
