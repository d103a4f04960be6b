import Verif.Prelude
import Verif.Base64
import Verif.Codes
import Verif.Prefix
import Verif.PrefixFacts
import Verif.Seal
import Verif.Nom
import Verif.NomFacts
import Verif.Serde
import Verif.Threshold
import Verif.KeyConfig
import Verif.ThresholdFacts
import Verif.Event
import Verif.Message
import Verif.Db
import Verif.Processor
import Verif.Refine
import Verif.Spec
import Verif.KelFacts
import Verif.KelInv
import Verif.Props.Codec
import Verif.Props.Codec2
import Verif.Props.KeyCfg
import Verif.Props.Commit
import Verif.KelStep
import Verif.Build
import Verif.Example
import Verif.Props.Kel
import Verif.Props.Signed
import Verif.Props.Events
import Verif.Props.Deleg
import Verif.Props.Binding
import Verif.Props.State
import Verif.Props.Replay
import Verif.Props.Receipts
import Verif.Props.Store
import Verif.Param
import Verif.Step
import Verif.Props.Crash
import Verif.Props.Concur
import Verif.NumFacts
import Verif.Json
import Verif.JsonFacts
import Verif.Wire
import Verif.Props.Format
import Verif.WireFacts
import Verif.Props.Wire
import Verif.KerlFacts
import Verif.Props.Kerl
import Verif.Props.Panic
import Verif.Props.Panic2
import Verif.Props.Reply
import Verif.Keri
import Verif.KeriFacts
import Verif.KeriExample
import Verif.Frozen
import Verif.Async
import Verif.Props.Async
import Verif.Props.Controller
import Verif.Props.Interact
import Verif.Props.Honest
import Verif.Props.Witness
import Verif.Props.Sync
import Verif.Props.Respond
import Verif.Props.Handshake
import Verif.Props.Seed
import Verif.Props.Reader
import Verif.QueryWire
import Verif.Props.QueryReader
import Verif.Props.QueryPanic
import Verif.Props.Notice
import Verif.Props.QueryCrash
import Verif.Props.WitnessQuery
import Verif.Props.Words
import Verif.Props.Builder
import Verif.Props.Delegate
import Verif.Props.Attach
import Verif.Props.Manager
import Verif.Props.Reincept
import Verif.Props.Counting
import Verif.Props.Consume
import Verif.Wallet
import Verif.Props.Wallet
import Verif.Props.Diary
import Verif.Props.Fresh
import Verif.Props.Verify
import Verif.DryRun
import Verif.Props.DryRun
import Verif.Props.Stream
import Verif.Props.RctBuilder
import Verif.Props.Network
import Verif.Props.Forge
import Verif.Props.Takeover
import Verif.Props.Answers
import Verif.Props.StateText
import Verif.EventDb
import Verif.Props.EventDb
import Verif.Props.Local
import Verif.Props.Export
import Verif.Payload
import Verif.Props.Payload
import Verif.Stamped
import Verif.Props.Stamped
import Verif.Props.Dirty
import Verif.Props.Roots
import Verif.Props.Past
import Verif.Rel
import Verif.Props.Threads
import Verif.Props.Node
import Verif.Poison
import Verif.Props.Poison
import Verif.Cbor
import Verif.CborFacts
import Verif.Mgpk
import Verif.MgpkFacts
import Verif.Props.Cbor
import Verif.Props.Mgpk
import Verif.Props.MgpkRct
import Verif.Props.BinConsume
import Verif.Props.SealReader
import Verif.Storage
import Verif.Props.Storage
import Verif.Props.Survive
import Verif.Props.Gather
import Verif.Props.Recover
import Verif.Props.Exact
import Verif.Props.Cost
import Verif.Props.Spelling
import Verif.Props.Incept
import Verif.Props.Extra
import Verif.Props.NetBytes
import Verif.Props.Named
import Verif.Props.Ledger
import Verif.Props.Guard
import Verif.Props.Family
import Verif.Props.Duplicity
import Verif.Props.RctExact
import Verif.Props.ReplyExact
import Verif.Props.QueryExact
import Verif.Props.FrontCheck
