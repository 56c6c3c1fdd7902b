import Verif.Props.Groups
import Verif.Props.Dkg
import Verif.Props.EndToEnd
import Verif.Props.Instance
import Verif.Props.Gpp
import Verif.Props.Hash
import Verif.Props.OnChain
import Verif.Props.Serialise
import Verif.Props.Layout
import Verif.Props.History
import Verif.Props.LayoutExact
import Verif.Props.LayoutHonest
import Verif.Props.Liveness
import Verif.Props.Blocking
import Verif.Props.Contract
import Verif.Props.ContractRounds
import Verif.Props.Lottery
import Verif.Props.ContractPre
import Verif.Props.ContractPre2
import Verif.Props.Cache
import Verif.Props.Entrypoint
import Verif.Props.Clean
import Verif.Props.Setup
import Verif.Props.Spellings
import Verif.Props.Client
import Verif.Props.Poseidon
import Verif.Props.Svdw
import Verif.Props.GrumpkinChip
import Verif.Props.Integer2
import Verif.Props.FixedPoint
import Verif.Props.DkgCircuit
import Verif.Props.ClientDkg
import Verif.Props.Services
import Verif.Props.ServicesLive
import Verif.Props.ServicesFiles
import Verif.Props.ServicesLimits
import Verif.Props.ServicesStart
import Verif.Props.Halo2
import Verif.Props.Halo2Sound
import Verif.Props.Halo2Complete
import Verif.Props.Events
import Verif.Props.Demo
import Verif.Props.Mock
import Verif.Props.Config
import Verif.Props.Secrecy
import Verif.Props.Sigma
import Verif.Props.Halo2Combi
import Verif.Props.DkgCircuitNoG2
import Verif.Props.Draws
import Verif.Props.DemoMembers
import Verif.Props.Deploy
import Verif.Props.Witnesses
import Verif.Props.WitnessesContract
import Verif.Props.WitnessesPre
import Verif.Props.LotteryPre
import Verif.Props.LayoutWitness
import Verif.Props.Files
import Verif.Props.FilesTogether
import Verif.Props.FilesRefine
import Verif.Props.FilesMock
import Verif.Props.Proof
import Verif.Props.CommandLine
import Verif.Props.ServicesProofs
import Verif.Props.ServicesHonest
import Verif.Props.GppReport
import Verif.Props.Overlap
import Verif.Props.Clock
import Verif.Props.OverlapKill
import Verif.Props.OverlapOthers
import Verif.Props.OverlapOthersAny
import Verif.Props.OverlapProofs
