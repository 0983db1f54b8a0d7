import Verif.Props.Value
import Verif.Props.Queue
import Verif.Props.Arbiter
import Verif.Props.Hierarchy
import Verif.Props.Node
import Verif.Props.Exec
import Verif.Props.Quiet
import Verif.Props.Sync
import Verif.Props.Order
import Verif.Props.Conditions
import Verif.Props.Expr
import Verif.Props.Arith
import Verif.Props.Compare
import Verif.Props.Types
import Verif.Props.Lookup
import Verif.Props.Notify
import Verif.Props.Var
import Verif.Props.App
import Verif.Props.Completion
import Verif.Props.Input
import Verif.Props.Time
import Verif.Props.Scope
import Verif.Props.Udp
import Verif.Props.Text
import Verif.Props.Timepoint
import Verif.Props.Keys
import Verif.Props.Links
import Verif.Props.Command
import Verif.Props.CommandRes
import Verif.Props.Cache
import Verif.Props.Message
import Verif.Props.Listen
import Verif.Props.Sim
import Verif.Props.Wiring
import Verif.Props.Life
import Verif.Props.Route
import Verif.Props.Ipc
import Verif.Props.Rendezvous
import Verif.Props.Wire
import Verif.Props.Decl
import Verif.Props.Launcher
import Verif.Props.Library
import Verif.Props.Sockets
import Verif.Props.Exit
import Verif.Props.SyncRun
import Verif.Props.Epx
import Verif.Props.EpxSeq
import Verif.Props.EpxIf
import Verif.Props.EpxElse
import Verif.Props.EpxTry
import Verif.Props.EpxLoop
import Verif.Props.EpxCommand
import Verif.Props.EpxOnCommand
import Verif.Props.Script
import Verif.Props.ScriptValue
import Verif.Props.Finalize
import Verif.Props.Debug
import Verif.Props.Luv
import Verif.Props.EpxWait
import Verif.Props.ScopeRef
import Verif.Props.Bits
import Verif.Props.Analyze
import Verif.Props.EpxOnMessage
import Verif.Props.Assign
import Verif.Props.Main
import Verif.Props.SimScript
import Verif.Props.Factory
import Verif.Props.Runner
import Verif.Props.UpdateXml
import Verif.Props.IpcAdapter
import Verif.Props.Config
import Verif.Props.Print
import Verif.Props.Follow
import Verif.Props.IpcPlans
import Verif.Props.Sema
import Verif.Props.Logging
import Verif.Props.Init
import Verif.Props.NodeType
