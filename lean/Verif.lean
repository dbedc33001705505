import Verif.Props.Pow
import Verif.Props.Elements
import Verif.Props.Headers
import Verif.Props.Blocks
import Verif.Props.Compact
import Verif.Props.Validity
import Verif.Props.Difficulty
import Verif.Props.Cuckoo
import Verif.Props.CuckooWitness
import Verif.Props.Schnorr
import Verif.Props.Secp256k1
import Verif.Props.Messages
import Verif.Props.Handshake
import Verif.Vectors.Consensus
import Verif.Props.ReadLoop
import Verif.Props.Decoders
import Verif.Props.Chain
import Verif.Props.Genesis
import Verif.Props.ChainWitness
import Verif.Model.Sync
import Verif.Props.Pool
import Verif.Props.Sync
import Verif.Props.SyncWitness
import Verif.Props.Lifecycle
import Verif.Props.PoolRun
import Verif.Props.PoolRace
import Verif.Props.Delivery
import Verif.Props.Cut
import Verif.Props.Gaps
import Verif.Props.SessionWitness
import Verif.Props.ExchangeWitness
import Verif.Props.Size
import Verif.Props.SharedWitness
import Verif.Props.Stall
import Verif.Props.Waited
import Verif.Props.Whole
import Verif.Props.Silent
import Verif.Props.Addresses
import Verif.Props.Print
import Verif.Props.Record
import Verif.Props.Progress
import Verif.Props.AddressText
import Verif.Props.Refusal
import Verif.Props.RefusalWitness
import Verif.Props.Announce
import Verif.Props.BanRun
import Verif.Props.Commitment
import Verif.Props.Relay
import Verif.Props.Deliver
import Verif.Props.Place
import Verif.Props.Talk
import Verif.Props.Rest
import Verif.Model.Program
import Verif.Spec.Program
import Verif.Spec.ProgramRest
import Verif.Proofs.Program
import Verif.Proofs.ProgramInv
import Verif.Proofs.ProgramSent
import Verif.Proofs.ProgramCount
import Verif.Proofs.ProgramRelay
import Verif.Proofs.ProgramRest
import Verif.Proofs.ProgramEnds
import Verif.Props.Program
import Verif.Props.ProgramWitness
import Verif.Props.ProgramCount
import Verif.Props.ProgramRelay
import Verif.Props.ProgramRest
import Verif.Model.Full
import Verif.Spec.Full
import Verif.Proofs.Full
import Verif.Proofs.FullRest
import Verif.Props.Full
import Verif.Props.FullRest
import Verif.Props.FullWitness
import Verif.Spec.Survive
import Verif.Proofs.Survive
import Verif.Props.Survive
import Verif.Spec.Isolation
import Verif.Props.Isolation
import Verif.Proofs.Closers
import Verif.Proofs.StopRest
import Verif.Props.StopRest
import Verif.Spec.Pile
import Verif.Proofs.Pile
import Verif.Props.Pile
import Verif.Spec.Traffic
import Verif.Proofs.Traffic
import Verif.Props.Traffic
import Verif.Model.Gossip
import Verif.Proofs.Gossip
import Verif.Props.Gossip
import Verif.Proofs.Reach
import Verif.Props.Reach
import Verif.Model.Locks
import Verif.Spec.Locks
import Verif.Proofs.Locks
import Verif.Props.Locks
import Verif.Model.GoSyntax
import Verif.Props.GoSyntax
import Verif.Vectors.Network
import Verif.Spec.Dial
import Verif.Proofs.Dial
import Verif.Props.Dial
import Verif.Props.Alias
import Verif.Props.Fetch
import Verif.Props.Crowd
import Verif.Props.Restart
import Verif.Props.Crammed
import Verif.Props.InOrder
import Verif.Props.Maturity
import Verif.Props.Cases
import Verif.Props.Unspoken
import Verif.Props.Told
import Verif.Props.Reason
import Verif.Props.Silence
