import Verif.Props.U256
import Verif.Props.Division
import Verif.Props.Inverse
import Verif.Props.Montgomery
import Verif.Props.Lehmer
import Verif.Props.Field
import Verif.Props.FieldRoots
import Verif.Props.FieldIso
import Verif.Props.Generic
import Verif.Props.FFT
import Verif.Props.Encoding
import Verif.Props.Conversion
import Verif.Props.Curve
import Verif.Props.Ecdsa
import Verif.Props.Merkle
import Verif.Props.Channel
import Verif.Props.Polynomial
import Verif.Props.Fri
import Verif.Props.Expr
import Verif.Props.Constraints
import Verif.Props.Trace
import Verif.Props.Component
import Verif.Props.MmapVec
import Verif.Props.MmapDrops
import Verif.Props.Allocator
import Verif.Props.Dag
import Verif.Props.Verifier
import Verif.Props.Prover
import Verif.Props.ProofSize
import Verif.Props.Soundness
import Verif.Props.VerifierExact
import Verif.Props.ProofSystem
import Verif.Props.Assembly
import Verif.U256.AsmLost
import Verif.Props.AssemblyExact
import Verif.Props.Transcript
import Verif.Props.Codec
import Verif.Props.Examples
import Verif.Props.Mimc
import Verif.Props.MimcTree
import Verif.Props.Vdf
import Verif.Props.EvmField
import Verif.Props.EvmUtils
import Verif.Props.EvmCoin
import Verif.Props.EvmMerkle
import Verif.Evm.Fri
import Verif.Evm.FriLayer
import Verif.Evm.FriFold
import Verif.Evm.Montgomery
import Verif.Evm.FriLemmas
import Verif.Evm.FriChain
import Verif.Props.EvmFri
import Verif.Evm.DefaultCs
import Verif.Evm.DefaultCsLemmas
import Verif.Evm.Recurrence
import Verif.Evm.RecurrenceLemmas
import Verif.Examples.Recurrence
import Verif.Props.EvmDefaultCs
import Verif.Props.Recurrence
import Verif.Props.EvmRecurrence
import Verif.Evm.StarkVerifier
import Verif.Evm.VerifierSpec
import Verif.Evm.StarkVerifierLemmas
import Verif.Props.EvmVerifier
import Verif.Props.EvmVerifierSound
import Verif.Props.EvmForgery
import Verif.Props.EvmVerifierData
import Verif.Props.EvmVerifierRuns
import Verif.Evm.Generate
import Verif.Evm.GenerateSpec
import Verif.Evm.GenerateLemmas
import Verif.Evm.GenerateEval
import Verif.Evm.GenerateCall
import Verif.Evm.GenerateWrapper
import Verif.Props.EvmGenerate
import Verif.Props.EvmGenerateRuns
import Verif.Props.VerifierErrors
import Verif.Props.TranscriptOps
import Verif.Evm.VerifierComplete
import Verif.Props.EvmVerifierComplete
import Verif.Props.EvmVerifierCompleteRuns
import Verif.Stark.Serialize
import Verif.Stark.Json
import Verif.Stark.JsonLemmas
import Verif.Stark.SerializeLemmas
import Verif.Props.Serialize
import Verif.Props.PedersenMerkle
import Verif.Props.PedersenForgery
import Verif.Props.PedersenCollision
import Verif.Props.MimcPermutation
import Verif.Props.PedersenRun
import Verif.Examples.Pedersen
import Verif.Examples.PedersenRows
import Verif.Examples.PedersenHash
import Verif.Examples.PedersenTrace
import Verif.Examples.PedersenTables
import Verif.Examples.PedersenConcrete
import Verif.Stark.SameShape
import Verif.Props.ClaimBinding
import Verif.Props.ClaimForgery
import Verif.U256.Macros
import Verif.Props.Literals
import Verif.U256.Traits
import Verif.Props.NumTraits
import Verif.Merkle.Layers
import Verif.Props.Layers
import Verif.Par.Model
import Verif.Par.Frame
import Verif.FFT.Par
import Verif.FFT.ParLemmas
import Verif.Merkle.Par
import Verif.Merkle.ParLemmas
import Verif.Stark.DagPar
import Verif.Props.Schedule
import Verif.Stark.Equality
import Verif.Props.Equality
import Verif.Examples.Constant
import Verif.Props.Constant
import Verif.Field.Rand
import Verif.Props.FieldRandom
import Verif.EC.Nonce
import Verif.Props.Signature
import Verif.Props.LehmerSafe
import Verif.Props.RootsExact
import Verif.Stark.Release
import Verif.Stark.ReleaseLemmas
import Verif.Stark.ReleaseForward
import Verif.Stark.ReleaseWords
import Verif.Stark.ReleaseForgery
import Verif.Props.Release
import Verif.Props.Degree
import Verif.Utils.SizeBytes
import Verif.Props.SizeBytes
import Verif.FFT.Small
import Verif.Props.FFTSmall
import Verif.Field.Ints
import Verif.Props.FieldInts
import Verif.Examples.GroupSig
import Verif.Props.CurveGadgets
import Verif.Props.GroupSignature
import Verif.Examples.Recurrence2
import Verif.Props.Recurrence2
import Verif.Props.Seeds
import Verif.Props.EvmIterator
import Verif.Props.EvmInputs
import Verif.Props.EvmEvents
