import Verif.Props.Ints
import Verif.Props.Encoding
import Verif.Props.Conversion
import Verif.Props.Sharing
import Verif.Props.Entities
import Verif.Props.Paillier
import Verif.Props.ZkCurve
import Verif.Props.ZkEncElg
import Verif.Props.ZkAffG
import Verif.Props.ZkDec
import Verif.Props.ZkFac
import Verif.Props.ZkFacSound
import Verif.Props.ZkModulus
import Verif.Props.ZkContext
import Verif.Props.Params
import Verif.Props.ZkSoundness
import Verif.Props.Session
import Verif.Props.KeyInit
import Verif.Props.KeyResharing
import Verif.Props.KeyResharingPanics
import Verif.Props.AuxGen
import Verif.Props.KeyRefresh
import Verif.Props.Ecdsa
import Verif.Props.Signing
import Verif.Props.SigningHonest
import Verif.Props.SigningError
import Verif.Props.SigningEvidence
import Verif.Props.SigningPanics
import Verif.Props.EntryPoints
import Verif.Props.LifeCycle
import Verif.Props.Required
import Verif.Props.SigningAgreement
import Verif.Lemmas.SigningMessage
import Verif.Props.SigningMessage
import Verif.Props.Agreement
import Verif.Props.CurveBytes
import Verif.Props.PointHashing
import Verif.Props.ZkSimulation
import Verif.Props.ZkSimulationRepeated
import Verif.Props.ZkSimulationMod
import Verif.Props.Unbiased
import Verif.Spec.SigningBranch
import Verif.Props.SigningBranch
import Verif.Lemmas.SigningEquivocate
import Verif.Props.SigningBlame
import Verif.Spec.Blame
import Verif.Lemmas.Blame
import Verif.Props.Blame
import Verif.Lemmas.SigningBlame
import Verif.Props.SigningBlameEarly
import Verif.Props.Derivation
import Verif.Model.Rounds
import Verif.Spec.Rounds
import Verif.Props.Rounds
import Verif.Props.SharingHiding
import Verif.Model.HashStreams
import Verif.Spec.HashStreams
import Verif.Props.HashStreams
import Verif.Spec.EvidenceAux
import Verif.Props.EvidencePanics
import Verif.Model.KeyGen
import Verif.Spec.KeyGen
import Verif.Props.KeyGen
import Verif.Spec.KeyExtraction
import Verif.Props.MtaHiding
import Verif.Props.SigningFraming
import Verif.Spec.TrapSetup
import Verif.Props.TrapSetup
import Verif.Spec.NonceFixed
import Verif.Lemmas.NonceFixed
import Verif.Props.NonceFixed
import Verif.Props.SigningUnchecked
import Verif.Model.DebugOutput
import Verif.Spec.DebugOutput
import Verif.Props.DebugOutput
import Verif.Model.Limbs
import Verif.Props.Limbs
import Verif.Spec.Derivation
import Verif.Props.DerivationPaths
import Verif.Spec.Proactive
import Verif.Lemmas.Proactive
import Verif.Props.Proactive
import Verif.Model.Stored
import Verif.Props.Stored
import Verif.Spec.SigningDamaged
import Verif.Lemmas.SigningDamaged
import Verif.Props.SigningDamaged
import Verif.Model.Timing
import Verif.Spec.Timing
import Verif.Lemmas.Timing
import Verif.Lemmas.TimingResults
import Verif.Props.Timing
import Verif.Spec.Network
import Verif.Model.Machines
import Verif.Lemmas.Network
import Verif.Lemmas.Machines
import Verif.Lemmas.MachinesIdeal
import Verif.Lemmas.MachinesIdealSigning
import Verif.Lemmas.MachinesHistory
import Verif.Lemmas.NetworkExists
import Verif.Props.Network
import Verif.Props.NetworkRefinement
import Verif.Lemmas.NetworkBlame
import Verif.Lemmas.NetworkScript
import Verif.Lemmas.NetworkScriptSigning
import Verif.Props.NetworkBlame
import Verif.Lemmas.SigningInnocence
import Verif.Lemmas.NetworkStuck
import Verif.Lemmas.MachinesBranch
import Verif.Props.NetworkSplit
import Verif.Lemmas.SigningErrBlame
import Verif.Spec.NetworkWith
import Verif.Spec.Harmless
import Verif.Lemmas.NetworkWith
import Verif.Lemmas.NetworkPanics
import Verif.Lemmas.NetworkSeize
import Verif.Props.NetworkPanics
import Verif.Model.MessageParts
import Verif.Spec.NetworkEvidence
import Verif.Lemmas.NetworkEvidence
import Verif.Props.NetworkEvidence
import Verif.Lemmas.NetworkEvidenceSigning
import Verif.Props.NetworkEvidenceSigning
import Verif.Spec.LifeNetwork
import Verif.Lemmas.LifeNetwork
import Verif.Props.LifeNetwork
import Verif.Model.SecretBox
import Verif.Spec.SecretBox
import Verif.Lemmas.SecretBox
import Verif.Props.SecretBox
import Verif.Model.Wire
import Verif.Spec.Wire
import Verif.Lemmas.Wire
import Verif.Lemmas.WireProofs
import Verif.Lemmas.WireHonest
import Verif.Props.Wire
import Verif.Model.WireNet
import Verif.Spec.WireNet
import Verif.Lemmas.WireNet
import Verif.Lemmas.WireTransport
import Verif.Lemmas.WireCourse
import Verif.Props.WireNet
import Verif.Spec.WireFinish
import Verif.Lemmas.WireFinish
import Verif.Props.WireFinish
import Verif.Model.HashPoints
import Verif.Lemmas.HashPoints
import Verif.Lemmas.WireOnto
import Verif.Lemmas.HashPointsNet
import Verif.Props.HashPoints
import Verif.Spec.WirePanics
import Verif.Lemmas.WireQuiet
import Verif.Lemmas.SigningQuiet
import Verif.Props.WirePanics
import Verif.Model.BitDraws
import Verif.Lemmas.BitDraws
import Verif.Props.BitDraws
import Verif.Spec.WireResults
import Verif.Props.WireResults
import Verif.Spec.SigningZero
import Verif.Lemmas.SigningZero
import Verif.Props.SigningZero
import Verif.Model.WireEvidence
import Verif.Lemmas.WireEvidence
import Verif.Lemmas.WireEvidenceSplits
import Verif.Props.WireEvidence
import Verif.Spec.LifeWire
import Verif.Lemmas.LifeWire
import Verif.Props.LifeWire
import Verif.Spec.AuxWire
import Verif.Lemmas.AuxWire
import Verif.Props.AuxWire
import Verif.Lemmas.WireEvidenceSigning
import Verif.Props.WireEvidenceSigning
import Verif.Lemmas.WireFraming
import Verif.Props.WireFraming
import Verif.Spec.EndToEnd
import Verif.Lemmas.EndToEnd
import Verif.Props.EndToEnd
import Verif.Model.SecretBounded
import Verif.Spec.SecretBounded
import Verif.Lemmas.SecretBounded
import Verif.Props.SecretBounded
import Verif.Model.SecretKeys
import Verif.Spec.SecretKeys
import Verif.Lemmas.SecretKeys
import Verif.Props.SecretKeys
import Verif.Model.SecretRns
import Verif.Spec.SecretRns
import Verif.Lemmas.SecretRns
import Verif.Props.SecretRns
import Verif.Model.SecretScalar
import Verif.Lemmas.SecretScalar
import Verif.Props.SecretScalar
import Verif.Model.SecretSharing
import Verif.Spec.SecretSharing
import Verif.Lemmas.SecretSharing
import Verif.Props.SecretSharing
