import Verif.Epx.Model
import Verif.Text.Model
/-
Model of the translation of SynchronousCommand, OnCommand and OnMessage.
Sources: `/repo/schema/epx-translator/synchronous-command.xsl`, `on-command.xsl`, `on-message.xsl`.

The handle of a command, and whether the variable that receives its result has a value, are functions of what can be observed: they change at any time.
-/
set_option autoImplicit false
namespace Verif.Epx
open Verif.Node Verif.Exec
open Verif.Text (Handle)

variable {Val Env : Type}

/-- `EQInternal` of a command handle and a literal: unknown if the command has no handle. `Comparisons.cc:57-67`, `CommandHandleVariable.cc`. -/
def handleIs (h : Obs Val Env → Handle) (v : Handle) (o : Obs Val Env) : Option Bool :=
  if h o = .none then none else some (decide (h o = v))

/-- `NEInternal` of a command handle and a literal. `Comparisons.cc:57-67`. -/
def handleIsNot (h : Obs Val Env → Handle) (v : Handle) (o : Obs Val Env) : Option Bool :=
  if h o = .none then none else some (decide (h o ≠ v))

/-- `CommandHandleKnown`, `CommandImpl.cc:124-160`; see C78. -/
def handleIsKnown (h : Obs Val Env → Handle) (o : Obs Val Env) : Option Bool := some (decide (h o ≠ .none))

/-- `CommandHandleInterruptible`, `CommandNode.cc:48-71`. -/
def handleIsFinal (h : Obs Val Env → Handle) (o : Obs Val Env) : Option Bool := some (decide (h o = .denied ∨ h o = .failed ∨ h o = .interfaceError))

/-- `AND` of conditions, those that are there: `BooleanOperators.cc` (see C27). -/
def conj (a b : UCond Val Env) : UCond Val Env :=
  match a, b with
  | none, b => b
  | a, none => a
  | some a, some b => some fun o => and3 (a o) (b o)

/-! ## SynchronousCommand -/

/-- `sync-cmd-base-end`, `synchronous-command.xsl:418-444`. -/
def syncEnd (h : Obs Val Env → Handle) (own : UCond Val Env) : UCond Val Env :=
  match own with
  | none => some (handleIs h .success)
  | some c => some fun o => or3 (c o) (handleIs h .success o)

/-- `sync-cmd-base-post`, `synchronous-command.xsl:446-472`. -/
def syncPost (checked : Bool) (h : Obs Val Env → Handle) (own : UCond Val Env) : UCond Val Env :=
  if checked then conj own (some (handleIs h .success)) else own

/-- `sync-cmd-base`, `synchronous-command.xsl:368-415`: no result. `d` has the conditions the author wrote, and the command's arguments; `timeout` is the test that the time is not over
(`sync-cmd-timeout-invariant`, `synchronous-command.xsl:475-492`), if a Timeout is given. -/
def syncBase (checked : Bool) (timeout : UCond Val Env) (h : Obs Val Env → Handle) (d : NodeDef Val Env) : NodeDef Val Env :=
  { d with type := .command, inv := conj d.inv timeout, endc := syncEnd h d.endc, post := syncPost checked h d.post,
           handleKnown := handleIsKnown h, interruptible := handleIsFinal h }

/-- `sync-cmd-cmd-invariant`, `synchronous-command.xsl:331-361`. -/
def syncCmdInv (checked : Bool) (timeout : UCond Val Env) (h : Obs Val Env → Handle) : UCond Val Env :=
  if checked then
    conj timeout (some fun o => and3 (handleIsNot h .denied o) (and3 (handleIsNot h .failed o) (handleIsNot h .interfaceError o)))
  else timeout

/-- `sync-cmd-return-common`, `synchronous-command.xsl:217-329`: with a result. `known`: the temporary variable that receives the result has a value, `ret` that value. (The translator also copies
an InvariantCondition of the author's unchanged, because `$userConditions/* except InvariantCondition` looks for the exception in another document; the parser rejects the result. The model has
what was meant.) -/
def syncReturn (p : NodeId) (d : NodeDef Val Env) (checked : Bool) (timeout : UCond Val Env) (h : Obs Val Env → Handle) (known : Obs Val Env → Bool) (ret : Obs Val Env → Val)
    (cmd : NodeId) (args : Obs Val Env → Val) (abortDone : Obs Val Env → Option Bool) (asg : NodeId) (var : Nat) : Block Val Env :=
  [(p, { d with type := .list, children := [cmd, asg], inv := if checked then successInvariant [cmd, asg] d.inv else d.inv }),
   (cmd, { type := .command, anc := p :: d.anc, inv := syncCmdInv checked timeout h, endc := some (handleIs h .success),
           post := if checked then some fun o => some (known o) else none,
           handleKnown := handleIsKnown h, interruptible := handleIsFinal h, abortDone := abortDone, rhs := args }),
   (asg, { type := .assignment, anc := p :: d.anc, start := some fun o => some (known o), dest := var, rhs := ret })]

/-! ## OnCommand -/

/-- A command whose result goes to a variable, with the end and post condition of `on-command-command-wait` and `get-param-command-node`: `on-command.xsl:185-214, 217-281`. `known`: the variable has a value. -/
structure Query (Val Env : Type) where
  /-- The node. -/
  node : NodeId
  /-- The command's handle. -/
  handle : Obs Val Env → Handle
  /-- `IsKnown` of the variable, or of its first element if it is an array. -/
  known : Obs Val Env → Bool
  /-- Abort complete, as for every command. -/
  abortDone : Obs Val Env → Option Bool
  /-- The arguments. -/
  args : Obs Val Env → Val

/-- `on-command-command-wait` and `get-param-command-node`, `on-command.xsl:185-214, 217-281`. -/
def Query.def (q : Query Val Env) (anc : List NodeId) (start : UCond Val Env) : NodeDef Val Env :=
  { type := .command, anc := anc, start := start, endc := some fun o => some (q.known o), post := some (handleIs q.handle .success),
    handleKnown := handleIsKnown q.handle, interruptible := handleIsFinal q.handle, abortDone := q.abortDone, rhs := q.args }

/-- `AND` of any number of operands, `/repo/src/expr/BooleanOperators.cc` (see C27). -/
def andAll (l : List (Option Bool)) : Option Bool := l.foldr and3 (some true)

/-- `on-command-body-start-condition`, `on-command.xsl:328-361`. -/
def onCommandStart (wait : Query Val Env) (params : List (Query Val Env)) (o : Obs Val Env) : Option Bool :=
  match params with
  | [] => some (wait.known o)
  | [q] => nodeSucceeded q.node o
  | qs => andAll (qs.map fun q => nodeSucceeded q.node o)

/-- `OnCommand`, `on-command.xsl:59-182`: wait for the command, get its parameters, run the action, and send a return value if the action has no SendReturnValue in it. The action's own StartCondition is
replaced (the translator leaves both there, and the parser rejects the result: `tr:conditions($action) except StartCondition`, `on-command.xsl:311`). -/
def onCommand (p : NodeId) (d : NodeDef Val Env) (wait : Query Val Env) (params : List (Query Val Env)) (act : NodeId × NodeDef Val Env)
    (reply : Option (NodeId × NodeDef Val Env)) : Block Val Env :=
  let anc := p :: d.anc
  let kids := wait.node :: params.map (·.node) ++ act.1 :: reply.toList.map Prod.fst
  (p, { d with type := .list, children := kids, inv := successInvariant kids d.inv }) ::
    (wait.node, wait.def anc none) ::
    (params.map fun q => (q.node, q.def anc (some fun o => some (wait.known o)))) ++
    (act.1, { act.2 with start := some (onCommandStart wait params) }) ::
    reply.toList.map fun r => (r.1, { r.2 with start := some (nodeFinished act.1) })

/-! ## OnMessage -/

/-- `OnMessage`, `on-message.xsl:41-107`: a CheckedSequence of the node that waits for the message (`run-wait-command`, `on-message.xsl:110-147`: the same conditions as in `on-command.xsl:185-214`) and the body, if
there is one. `d` has what the author wrote: of this only priority and mutexes are copied (`on-message.xsl:69-82`, `handle-common-clauses`, `translate-plexil.xsl:266-270`); conditions (`tr:conditions`) and variables are
not. `parent`: the element around it has a NodeId (`parent-id-value`, `translate-plexil.xsl:212-231`). -/
def onMessage (p : NodeId) (d : NodeDef Val Env) (parent : Option NodeId) (wait : Query Val Env) (body : Option (NodeId × NodeDef Val Env)) : Block Val Env :=
  checkedSequence p { d with skip := none, start := none, pre := none, exit := none, endc := none, post := none, rep := none, locals := [], inv := parent.map nodeExecuting }
    ((wait.node, wait.def (p :: d.anc) none) :: body.toList)

end Verif.Epx
