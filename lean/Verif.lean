import Verif.Model.Res
import Verif.Model.Collections
import Verif.Model.Domain
import Verif.Model.Oracle
import Verif.Model.Expression
import Verif.Model.Precompiled
import Verif.Model.Permutation
import Verif.Model.Lookup
import Verif.Model.Scheme
import Verif.Model.Indexer
import Verif.Model.Multiopen
import Verif.Model.TurboPlonk
import Verif.Spec.Basic
import Verif.Spec.Expression
import Verif.Lemmas.Res
import Verif.Lemmas.Collections
import Verif.Lemmas.Poly
import Verif.Lemmas.Fft
import Verif.Lemmas.F97
import Verif.Lemmas.Expression
import Verif.Properties.Oracles
import Verif.Properties.Expression
import Verif.Properties.Gates
import Verif.Spec.Indexer
import Verif.Lemmas.Indexer
import Verif.Spec.Ideal
import Verif.Properties.Indexer
import Verif.Spec.Constraints
import Verif.Spec.Permutation
import Verif.Lemmas.Chunks
import Verif.Lemmas.Constraints
import Verif.Lemmas.Counting
import Verif.Lemmas.Permutation
import Verif.Properties.Permutation
import Verif.Spec.System
import Verif.Spec.Lookup
import Verif.Lemmas.PermuteLookup
import Verif.Lemmas.System
import Verif.Lemmas.Lookup
import Verif.Properties.Lookup
import Verif.Spec.Transcript
import Verif.Lemmas.Toy
import Verif.Lemmas.Prove
import Verif.Properties.Transcript
import Verif.Properties.Mock
import Verif.Properties.Labels
import Verif.Lemmas.Registry
import Verif.Properties.Registry
import Verif.Lemmas.Labels
import Verif.Spec.Verifier
import Verif.Lemmas.Verify
import Verif.Properties.Verifier
import Verif.Lemmas.Opening
import Verif.Lemmas.Multiopen
import Verif.Spec.Scheme
import Verif.Lemmas.Ideal
import Verif.Properties.Multiopen
import Verif.Properties.Forgery
import Verif.Properties.Rands
import Verif.Lemmas.BadSets
import Verif.Lemmas.OpeningCongr
import Verif.Properties.MultiopenSound
import Verif.Properties.Malleable
import Verif.Spec.Quotient
import Verif.Lemmas.Quotient
import Verif.Lemmas.Numerator
import Verif.Properties.Quotient
import Verif.Properties.Separation
import Verif.Lemmas.Rounds
import Verif.Spec.Completeness
import Verif.Lemmas.Complete
import Verif.Lemmas.Registered
import Verif.Properties.Completeness
import Verif.Properties.CompletenessExamples
import Verif.Model.Commitment
import Verif.Spec.Commitment
import Verif.Properties.Commitment
import Verif.Spec.Blinding
import Verif.Properties.Blinding
import Verif.Spec.Reuse
import Verif.Lemmas.Refine
import Verif.Properties.Reuse
import Verif.Properties.Opened
import Verif.Spec.Soundness
import Verif.Lemmas.Sound
import Verif.Lemmas.SoundRegister
import Verif.Lemmas.SoundPolys
import Verif.Lemmas.SoundRow
import Verif.Properties.Soundness
import Verif.Properties.SoundnessExamples
import Verif.Spec.Success
import Verif.Lemmas.Success
import Verif.Properties.Success
import Verif.Properties.SuccessExamples
import Verif.Spec.Hiding
import Verif.Lemmas.Hiding
import Verif.Lemmas.Blinded
import Verif.Properties.Hiding
import Verif.Properties.HidingKzg
import Verif.Properties.HidingExamples
import Verif.Properties.Separators
import Verif.Properties.SoundnessKzg
import Verif.Properties.SoundnessKzgExamples
import Verif.Lemmas.Tuples
import Verif.Spec.Interactive
import Verif.Properties.SoundnessError
import Verif.Properties.SoundnessErrorExamples
import Verif.Model.Info
import Verif.Properties.ProofSize
import Verif.Properties.ProofSizeExamples
import Verif.Model.Setup
import Verif.Properties.Setup
import Verif.Properties.SetupExamples
import Verif.Properties.Leak
import Verif.Properties.LeakExamples
import Verif.Properties.HidingJoint
import Verif.Properties.HidingJointExamples
import Verif.Properties.Adjust
import Verif.Properties.AdjustExamples
import Verif.Properties.EvalsForm
import Verif.Properties.AnyStatement
import Verif.Properties.AnyStatementExamples
import Verif.Model.Serialize
import Verif.Spec.Serialize
import Verif.Properties.Serialize
import Verif.Properties.SerializeExamples
import Verif.Lemmas.Local
import Verif.Lemmas.Erase
import Verif.Lemmas.Rerun
import Verif.Lemmas.RerunOpening
import Verif.Spec.HonestVerifier
import Verif.Lemmas.RerunProof
import Verif.Lemmas.RerunCount
import Verif.Properties.HidingProof
import Verif.Properties.HidingProofExamples
import Verif.Spec.Answering
import Verif.Properties.CompletenessError
import Verif.Properties.CompletenessErrorExamples
import Verif.Spec.Ready
import Verif.Lemmas.Total
import Verif.Lemmas.TotalQuotient
import Verif.Lemmas.TotalOpening
import Verif.Properties.Panic
import Verif.Properties.PanicExamples
import Verif.Properties.OneMoreRow
import Verif.Properties.OneMoreRowExamples
import Verif.Properties.SoundnessVerify
import Verif.Spec.RandomOracle
import Verif.Lemmas.RandomOracle
import Verif.Properties.RandomOracle
import Verif.Properties.RandomOracleExamples
import Verif.Properties.ForgeAll
import Verif.Properties.ForgeAllExamples
import Verif.Spec.Forger
import Verif.Lemmas.Forger
import Verif.Properties.FiatShamir
import Verif.Properties.FiatShamirExamples
import Verif.Properties.Coset
import Verif.Properties.CosetExamples
import Verif.Lemmas.Outcome
import Verif.Properties.Outcome
import Verif.Properties.OutcomeExamples
import Verif.Properties.Parts
import Verif.Properties.PartsExamples
import Verif.Properties.MockAgrees
import Verif.Properties.WrongWitness
import Verif.Properties.WrongWitnessExamples
import Verif.Properties.Configure
import Verif.Properties.ConfigureExamples
import Verif.Properties.ConfigureSound
import Verif.Properties.ConfigureSoundExamples
import Verif.Spec.Client
import Verif.Model.GateTest
import Verif.Properties.Client
import Verif.Properties.GateTest
import Verif.Properties.ClientExamples
import Verif.Model.CircuitTest
import Verif.Spec.CircuitTest
import Verif.Properties.CircuitTest
import Verif.Properties.CircuitTestExamples
import Verif.Properties.MockTest
import Verif.Spec.NoBlinding
import Verif.Lemmas.NoRows
import Verif.Properties.NoRows
import Verif.Properties.NoRowsTest
import Verif.Properties.NoRowsExamples
import Verif.Spec.Bytes
import Verif.Properties.Bytes
import Verif.Properties.BytesExamples
import Verif.Model.TestInputs
import Verif.Lemmas.Fr381
import Verif.Spec.ClientError
import Verif.Properties.ClientError
import Verif.Properties.RealTest
import Verif.Properties.RealTestExamples
import Verif.Spec.TestSound
import Verif.Properties.TestSound
import Verif.Properties.RealSound
import Verif.Properties.RealSoundExamples
import Verif.Spec.KzgError
import Verif.Lemmas.KzgHandles
import Verif.Properties.KzgError
import Verif.Properties.KzgErrorExamples
import Verif.Model.ArgumentTest
import Verif.Spec.ArgumentTest
import Verif.Lemmas.ArgumentTest
import Verif.Properties.ArgumentTest
import Verif.Properties.ArgumentTestExamples
import Verif.Model.LookupTest
import Verif.Spec.LookupTest
import Verif.Lemmas.LookupTest
import Verif.Properties.LookupTest
import Verif.Properties.LookupTestExamples
import Verif.Model.OpeningTest
import Verif.Spec.OpeningTest
import Verif.Lemmas.OpeningTest
import Verif.Properties.OpeningTest
import Verif.Properties.OpeningTestExamples
import Verif.Model.ProductTest
import Verif.Lemmas.ProductTest
import Verif.Properties.ProductTest
import Verif.Properties.ProductTestExamples
import Verif.Model.GateInputs
import Verif.Properties.GateInputs
import Verif.Model.SmallTests
import Verif.Properties.SmallTests
import Verif.Spec.BlankProof
import Verif.Properties.TestForgery
import Verif.Properties.TestForgeryExamples
import Verif.Spec.Adjusted
import Verif.Properties.AdjustError
import Verif.Properties.TestAdjust
import Verif.Properties.TestAdjustExamples
import Verif.Properties.TestSize
import Verif.Properties.TestSizeExamples
import Verif.Properties.GateForgery
import Verif.Properties.GateForgeryExamples
import Verif.Properties.GateSound
import Verif.Properties.GateSoundExamples
import Verif.Properties.GateKzg
import Verif.Properties.GateKzgExamples
import Verif.Properties.GateSize
import Verif.Properties.GateSizeExamples
