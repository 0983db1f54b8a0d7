import Verif.Command.Model
/-!
Many commands and the arbiter: `PlexilExec.cc:610-650` (`executeOutboundQueue`), `AdapterConfiguration.cc:506-528`, `CommandImpl.cc:493-523` (`deactivate` with an arbiter).
-/
namespace Verif.Command
open Verif.Arbiter (Hierarchy Request)
variable {Env V : Type}

/-- The commands (identified as in the arbiter model), the queue of commands to execute, the arbiter. `PlexilExec.cc:820-850`. -/
structure Sys (V : Type) where
  cmds : Verif.Arbiter.Cmd → St V := fun _ => {}
  queue : List Verif.Arbiter.Cmd := []
  arb : Verif.Arbiter.State := Verif.Arbiter.State.init

/-- Replace one command. (bookkeeping for `PlexilExec.cc:610-650`) -/
def Sys.put (s : Sys V) (c : Verif.Arbiter.Cmd) (t : St V) : Sys V := { s with cmds := fun c' => if c' = c then t else s.cmds c' }

/-- `specializedHandleExecution`, `CommandNode.cc:524-530`. -/
def Sys.start (d : Verif.Arbiter.Cmd → Def Env V) (c : Verif.Arbiter.Cmd) (e : Env) (s : Sys V) : Option (Sys V) := do
  let t ← Command.start (d c) e (s.cmds c)
  some { s.put c t with queue := s.queue ++ [c] }

/-- One pass over a list of commands, `PlexilExec.cc:620-633`. -/
def Sys.each (f : Verif.Arbiter.Cmd → St V → Option (St V)) (l : List Verif.Arbiter.Cmd) (s : Sys V) : Option (Sys V) :=
  l.foldlM (fun s c => (f c (s.cmds c)).map (s.put c)) s

/-- `executeOutboundQueue` with an arbiter, `PlexilExec.cc:610-634` (the part about commands to execute); `throws c` = the handler of `c` throws an InterfaceError. The arbiter asks each
command for its resources (`ResourceArbiterInterface.cc:343`). -/
def Sys.outbound (fuel : Nat) (h : Hierarchy) (throws : Verif.Arbiter.Cmd → Bool) (s : Sys V) : Option (Sys V × List Verif.Arbiter.Cmd) := do
  let batch ← s.queue.mapM (fun c => (getResourceValues (s.cmds c)).map (fun r => (c, r)))
  let (arb, acc, rej) ← Verif.Arbiter.arbitrate fuel h s.arb batch
  let s ← Sys.each (fun c => executeCommand (throws c)) acc { s with arb := arb, queue := [] }
  let s ← Sys.each (fun _ => reportDenied) rej s
  some (s, acc)

/-- The node leaves: `CommandImpl::deactivate` with an arbiter, `CommandImpl.cc:493-523`: the resources are released unless the handle is COMMAND_DENIED. -/
def Sys.leave (c : Verif.Arbiter.Cmd) (s : Sys V) : Option (Sys V) := do
  let t ← Command.leave (s.cmds c)
  let s' := s.put c t
  some (if (s.cmds c).handle ≠ denied then { s' with arb := Verif.Arbiter.release s.arb c } else s')

/-- Everything else that happens to one command, `CommandImpl.cc:468-491`, `CommandNode.cc:458-462`. -/
def Sys.other (d : Verif.Arbiter.Cmd → Def Env V) (c : Verif.Arbiter.Cmd) (x : Ev Env V) (s : Sys V) : Option (Sys V) :=
  (step (d c) (s.cmds c) x).map (s.put c)

end Verif.Command
