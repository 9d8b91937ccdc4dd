import Verif.Props.Scalars
import Verif.Props.Sparse
import Verif.Props.VecMul
import Verif.Props.Vectors
import Verif.Props.Permutation
import Verif.Props.Kzg
import Verif.Props.Serialize
import Verif.Props.Cs
import Verif.Props.Circuit
import Verif.Props.CircuitPov
import Verif.Props.Complete
import Verif.Props.R1csCircuit
import Verif.Props.Hadamard
import Verif.Props.Fibonacci
import Verif.Props.FibonacciSound
import Verif.Props.Pov
import Verif.Props.PovSound
import Verif.Props.R1csSnark
import Verif.Props.R1csSnarkSound
import Verif.Props.HprSnark
import Verif.Props.HprSnarkSound
import Verif.Props.RangeCheck
import Verif.Props.RangeCheckComplete
import Verif.Props.RangeCheckSound
import Verif.Props.PovPe
import Verif.Props.PovPeSound
import Verif.Props.R1csPe
import Verif.Props.R1csPeSound
import Verif.Props.ProverOkPov
import Verif.Props.ProverOkR1cs
import Verif.Props.ProverOkR1csPe
import Verif.Props.ProverOkHpr
import Verif.Props.ProverOkFib
import Verif.Props.ProverOkExamples
import Verif.Props.CommitArith
import Verif.Props.Hiding
import Verif.Props.PlonkGates
import Verif.Props.PlonkCurve
import Verif.Props.PlonkArgs
import Verif.Props.PlonkLookup
import Verif.Props.PlonkSnark
import Verif.Props.PlonkSound
import Verif.Props.PlonkForge
import Verif.Props.PlonkCircuit
import Verif.Props.PlonkCompile
import Verif.Props.PoseidonMatrix
import Verif.Props.PoseidonHash
import Verif.Props.PoseidonGadget
import Verif.Props.PoseidonZZ
import Verif.Props.PoseidonRounds
import Verif.Props.PoseidonGrain
import Verif.Props.PoseidonConstants
import Verif.Props.CircuitSnark
import Verif.Props.CircuitSnarkDev
import Verif.Props.PlonkCheck
import Verif.Props.PlonkUtil
import Verif.Props.Fields
import Verif.Props.Edwards
import Verif.Props.Examples
import Verif.Props.PlonkShape
import Verif.Props.PlonkExamples
import Verif.Props.ArkSnark
import Verif.Props.CircuitPe
import Verif.Props.PovExamples
import Verif.Props.ArkPov
import Verif.Props.SoundError
import Verif.Props.EvalBinding
import Verif.Props.PlonkErr
import Verif.Props.PlonkCaught
import Verif.Props.PlonkReuse
import Verif.Props.PlonkPermRef
import Verif.Props.CompleteErr
import Verif.Props.PlonkBench
import Verif.Props.PlonkKzg
import Verif.Props.PlonkKzgCircuit
import Verif.Props.PlonkKzgForge
import Verif.Props.PlonkHiding
import Verif.Props.Instances
import Verif.Props.Malleable
import Verif.Props.Transcript
import Verif.Props.HashToField
import Verif.Props.PlonkChallenge
import Verif.Props.PlonkTranscript
import Verif.Props.PlonkSerialize
import Verif.Props.PlonkBytes
import Verif.Props.SnarkBytes
import Verif.Props.PlonkPublicBytes
import Verif.Props.PlonkOutcome
import Verif.Props.SnarkOutcome
