import Verif.Base.SMap
import Verif.Model.Types
import Verif.Model.Value
import Verif.Model.Cert
import Verif.Model.Storage
import Verif.Model.System
import Verif.Spec.Replay
import Verif.Spec.Request
import Verif.Proof.TxHash
import Verif.Proof.Ident
import Verif.Proof.Effects
import Verif.Proof.Allow
import Verif.Proof.Appended
import Verif.Proof.Prune
import Verif.Proof.PruneExact
import Verif.Proof.Inv
import Verif.Proof.SysInv
import Verif.Proof.Config
import Verif.Proof.Toy
import Verif.Proof.Results
import Verif.Proof.Exec
import Verif.Proof.Traps
import Verif.Proof.Cases
import Verif.Props.Accounting
import Verif.Props.Requests
import Verif.Props.Validity
import Verif.Proof.Pending
import Verif.Props.Burns
import Verif.Props.Spending
import Verif.Proof.Origin
import Verif.Proof.Keys
import Verif.Proof.Dedup
import Verif.Props.Dedup
import Verif.Props.TrapWitness
import Verif.Props.Refunds
import Verif.Props.Pruning
import Verif.Model.Decode
import Verif.Model.Wire
import Verif.Spec.Cbor
import Verif.Spec.Digest
import Verif.Proof.Values
import Verif.Proof.Codec
import Verif.Proof.Fields
import Verif.Proof.Wire
import Verif.Proof.Leb
import Verif.Proof.HashInj
import Verif.Props.Integrity
import Verif.Props.Codec
import Verif.Props.Upgrade
import Verif.Props.Repay
import Verif.Props.Strangers
import Verif.Props.Order
import Verif.Props.Solvency
import Verif.Props.Queries
import Verif.Spec.Writing
import Verif.Proof.Alike
import Verif.Proof.AlikeSys
import Verif.Props.Writing
import Verif.Props.Storage
import Verif.Props.Acceptance
import Verif.Props.Failures
import Verif.Spec.Client
import Verif.Proof.Client
import Verif.Props.Client
import Verif.Model.Meta
import Verif.Spec.Text
import Verif.Proof.Text
import Verif.Props.Revenue
import Verif.Props.Install
import Verif.Props.Meta
import Verif.Model.Metrics
import Verif.Proof.Float
import Verif.Props.Metrics
import Verif.Model.ConfigStore
import Verif.Model.Oracle
import Verif.Model.Helpers
import Verif.Props.ConfigStore
import Verif.Props.Oracle
import Verif.Model.Sha256
import Verif.Props.Sha
import Verif.Spec.Rules
import Verif.Proof.Rules
import Verif.Props.Rules
import Verif.Props.Helpers
import Verif.Props.Recover
import Verif.Props.Reach
import Verif.Props.Exit
import Verif.Model.Log
import Verif.Proof.Log
import Verif.Proof.LogExact
import Verif.Props.Log
import Verif.Proof.Canonical
import Verif.Proof.SameHash
import Verif.Props.Format
import Verif.Props.Spam
import Verif.Props.Repeat
import Verif.Spec.Fips
import Verif.Proof.Fips
import Verif.Props.Browse
import Verif.Spec.Machine
import Verif.Proof.Machine
import Verif.Props.Machine
import Verif.Props.Penalize
import Verif.Props.Certificate
import Verif.Props.Follow
import Verif.Props.Retry
import Verif.Props.Fate
import Verif.Props.Size
import Verif.Props.Named
import Verif.Props.Generator
import Verif.Props.Stable
import Verif.Model.Pages
import Verif.Spec.Json
import Verif.Proof.Pages
import Verif.Props.Pages
import Verif.Model.Candid
import Verif.Spec.Candid
import Verif.Proof.Candid
import Verif.Proof.CandidArgs
import Verif.Proof.CandidSound
import Verif.Proof.CandidWrite
import Verif.Props.Candid
import Verif.Model.CandidReply
import Verif.Spec.CandidReply
import Verif.Proof.CandidReply
import Verif.Proof.CandidErrors
import Verif.Proof.CandidResults
import Verif.Proof.CandidTimes
import Verif.Props.CandidReply
import Verif.Props.CandidIdle
import Verif.Spec.CandidCoerce
import Verif.Proof.CandidCoerce
import Verif.Proof.CandidCoerces
import Verif.Proof.CandidCoerceRest
import Verif.Props.CandidCoerce
import Verif.Model.CandidCalls
import Verif.Spec.CandidCalls
import Verif.Proof.CandidCalls
import Verif.Props.CandidCalls
import Verif.Model.CandidBlocks
import Verif.Spec.CandidBlocks
import Verif.Proof.CandidBlocks
import Verif.Props.CandidBlocks
import Verif.Model.CandidMeta
import Verif.Spec.CandidMeta
import Verif.Proof.CandidMeta
import Verif.Props.CandidMeta
import Verif.Props.Cleanup
import Verif.Model.Life
import Verif.Spec.Life
import Verif.Proof.CandidLife
import Verif.Props.Life
import Verif.Props.Bystanders
import Verif.Props.Independent
import Verif.Model.CandidTest
import Verif.Props.CandidTest
import Verif.Model.CandidHelpers
import Verif.Spec.CandidHelpers
import Verif.Proof.CandidHelpers
import Verif.Props.CandidHelpers
import Verif.Model.CandidFake
import Verif.Spec.CandidFake
import Verif.Proof.CandidFake
import Verif.Props.CandidFake
import Verif.Model.CandidEnv
import Verif.Props.CandidEnv
