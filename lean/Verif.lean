import Verif.Model.Rpc
import Verif.Props.Resume
import Verif.Props.Rpc
import Verif.Model.Conc
import Verif.Spec.Linear
import Verif.Lemmas.Conc
import Verif.Props.Linear
import Verif.Props.Keys
import Verif.Props.SqlTexts
import Verif.Props.Acks
import Verif.Props.Client
import Verif.Lemmas.Prefix
import Verif.Lemmas.Alone
import Verif.Spec.Backup
import Verif.Model.Client
import Verif.Props.Server
import Verif.Props.Options
import Verif.Lemmas.ServerRun
import Verif.Model.Server
import Verif.Props.Schema
import Verif.Model.Schema
import Verif.Props.Lifecycle
import Verif.Model.Lifecycle
import Verif.Props.Prepared
import Verif.Model.Prepared
import Verif.Model.Batched
import Verif.Lemmas.BatchedInv
import Verif.Props.Batched
import Verif.Model.Ttl
import Verif.Lemmas.NReach
import Verif.Lemmas.TtlInv
import Verif.Lemmas.TExec
import Verif.Props.Ttl
import Verif.Model.Stream
import Verif.Lemmas.StreamInv
import Verif.Lemmas.SExec
import Verif.Props.Streams
import Verif.Props.Requests
import Verif.Props.Cancel
import Verif.Props.Polling
import Verif.Spec.Watch
import Verif.Model.Watch
import Verif.Lemmas.Watch
import Verif.Lemmas.WatchInv
import Verif.Lemmas.NExec
import Verif.Props.Watches
import Verif.Props.Rows
import Verif.Props.Txns
import Verif.Lemmas.Reach
import Verif.Spec.Etcd
import Verif.Props.Crash
import Verif.Lemmas.Stmts
import Verif.Lemmas.CompactRun
import Verif.Props.Compaction
import Verif.Props.Reads
import Verif.Props.Writes
import Verif.Props.Demo
import Verif.Lemmas.Exec
import Verif.Lemmas.Txn
import Verif.Lemmas.Range
import Verif.Lemmas.Write
import Verif.Lemmas.Read
import Verif.Lemmas.Run
import Verif.Lemmas.Rely
import Verif.Lemmas.Compact
import Verif.Lemmas.Steps
import Verif.Lemmas.Inv
import Verif.Model.System
import Verif.Lemmas.List
import Verif.Lemmas.Sql
import Verif.Lemmas.Bytes
import Verif.Lemmas.History
import Verif.Model.Sql
import Verif.Spec.History
import Verif.Model.Composed
import Verif.Lemmas.Composed
import Verif.Lemmas.Routed
import Verif.Props.Composed
import Verif.Props.Sessions
import Verif.Props.Delivery
import Verif.Lemmas.Live
import Verif.Props.Expiry
import Verif.Model.Pool
import Verif.Props.Pool
import Verif.Model.Shutdown
import Verif.Props.Shutdown
import Verif.Model.Process
import Verif.Props.Process
import Verif.Model.Endpoint
import Verif.Props.Endpoint
import Verif.Model.Tracing
import Verif.Props.Tracing
import Verif.Model.Errors
import Verif.Props.Errors
import Verif.Model.Cursor
import Verif.Props.Cursor
import Verif.Model.Listener
import Verif.Props.Listener
import Verif.Model.MigratorCmd
import Verif.Props.MigratorCmd
import Verif.Model.GoTextBackend
import Verif.Model.GoTextDriver
import Verif.Props.GoTexts
import Verif.Model.GoTextDqlite
import Verif.Props.GoSource
import Verif.Props.GoBatchedText
import Verif.Lemmas.GoWatch
import Verif.Model.GoWatchSys
import Verif.Lemmas.GoWatchRun
import Verif.Lemmas.GoWatchRel
import Verif.Lemmas.GoWatchMem
import Verif.Lemmas.GoWatchFrame
import Verif.Lemmas.GoWatchInv
import Verif.Lemmas.GoWatchClient
import Verif.Lemmas.GoWatchPoll
import Verif.Lemmas.GoWatchPublish
import Verif.Lemmas.GoWatchSim
import Verif.Lemmas.GoWatchExec
import Verif.Lemmas.WatchAnswered
import Verif.Props.GoWatchText
import Verif.Model.GoTextStream
import Verif.Model.GoTextPrepared
import Verif.Model.GoStream
import Verif.Model.GoStreamSys
import Verif.Lemmas.GoStream
import Verif.Lemmas.GoStreamRel
import Verif.Lemmas.GoStreamSim
import Verif.Lemmas.GoStreamRun
import Verif.Lemmas.GoStreamExec
import Verif.Props.GoStreamText
import Verif.Props.GoPreparedText
import Verif.Props.GoTtlText
import Verif.Props.GoSchemaText
import Verif.Props.GoClientText
import Verif.Props.GoLifeText
import Verif.Props.GoErrorsText
import Verif.Props.GoRowText
import Verif.Props.GoCompactText
import Verif.Props.GoTextsParsed
