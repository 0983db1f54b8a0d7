import Verif.Text.Model
set_option autoImplicit false
/-!
Model of `/repo/src/app-framework/Launcher.cc`: the commands `StartPlan` and `ExitPlan` and the listener that publishes `PlanState`, `PlanOutcome` and `PlanFailureType`; with the parts of
`/repo/src/xml-parser` and `InterfaceManager::handleAddPlan` that read the wrapper plan the launcher writes.

Simplified: a library is known by whether it can be loaded and built (`Libs`), and by which arguments its interface accepts (C64 to C66 are about that); reals are of an arbitrary type with
arbitrary functions for writing and reading them; strings are lists of characters. Not modelled: what the parser leaks when it refuses a plan.
-/
namespace Verif.Launcher
open Verif.Text

/-- Writing and reading of reals: `printValue<Real>`, `PlexilTypeTraits.cc`, and `parseValue<Real>`, `src/value/ValueType.cc`; arbitrary here. -/
structure Reals (R : Type) where
  zero : R
  print : R → List Char
  parse : List Char → Option R

/-- Known values of the array types, `ArrayImpl.hh`; an element may be unknown. -/
inductive ArrVal (R : Type)
  | bools (l : List (Option Bool))
  | ints (l : List (Option (BitVec 32)))
  | reals (l : List (Option R))
  | strs (l : List (Option (List Char)))
deriving DecidableEq

/-- `Value`, `Value.hh`. -/
inductive Val (R : Type)
  | unknown
  | bool (b : Bool)
  | int (i : BitVec 32)
  | real (r : R)
  | str (s : List Char)
  | state (x : NState)
  | outcome (x : Outcome)
  | failure (x : Failure)
  | handle (x : Handle)
  | array (a : ArrVal R)
deriving DecidableEq

/-- The XML of an alias's value, as `valueToExprXml` writes it, `Launcher.cc:131-151`. -/
inductive ExprXml
  | lit (tag : String) (text : List Char)
  | arr (type : String) (els : List El)

/-- `c_str()`: what is left of a string for functions that expect a C string, as `pugi::xml_text::set_value`; `Launcher.cc:143, 149, 192, 200, 204, 208`. -/
def cstr (s : List Char) : List Char := s.takeWhile (fun c => c ≠ '\x00')

/-- `valueToString` of an unknown value, `Value.cc:922-926, 989-994`. -/
def unknownText : List Char := "[unknown_value]".toList

/-- The elements of an array, `Launcher.cc:140-144`. -/
def elems {α : Type} (tag : String) (print : α → List Char) (l : List (Option α)) : List El :=
  l.map (fun o => ⟨tag.toList, match o with | some a => cstr (print a) | none => unknownText⟩)

/-- `valueToExprXml`, `Launcher.cc:131-151`, with `typeNameAsValue`, `parser-utils.cc:231-271`; the attribute `Type` is that name too (`Launcher.cc:136-137`). -/
def toXml {R : Type} (rd : Reals R) : Val R → ExprXml
  | .array (.bools l) => .arr "BooleanValue" (elems "BooleanValue" printBoolean l)
  | .array (.ints l) => .arr "IntegerValue" (elems "IntegerValue" (fun i => printInteger i.toInt) l)
  | .array (.reals l) => .arr "RealValue" (elems "RealValue" rd.print l)
  | .array (.strs l) => .arr "StringValue" (elems "StringValue" id l)
  | .bool b => .lit "BooleanValue" (cstr (printBoolean b))
  | .int i => .lit "IntegerValue" (cstr (printInteger i.toInt))
  | .real r => .lit "RealValue" (cstr (rd.print r))
  | .str s => .lit "StringValue" (cstr s)
  | .state x => .lit "NodeStateValue" (stateName x).toList
  | .outcome x => .lit "NodeOutcomeValue" (outcomeName x).toList
  | .failure x => .lit "NodeFailureValue" (failureName x).toList
  | .handle x => .lit "NodeCommandHandleValue" (handleName x).toList
  | .unknown => .lit "" unknownText

/-- A literal that has been read: known, unknown or refused. `ConstantFactory.cc:116-260`. -/
def fromParsed {R α : Type} (mk : α → Val R) : Parsed α → Option (Val R)
  | .known a => some (mk a)
  | .unknown => some .unknown
  | .error => none

/-- Values and flags of an array as a list, `ArrayImpl.hh`. -/
def optList {α : Type} (a : Arr α) : List (Option α) := (a.vals.zip a.known).map (fun p => if p.2 then some p.1 else none)

/-- `parseValue<Real>` with an arbitrary reader of numbers; empty or `UNKNOWN` is unknown. `src/value/ValueType.cc`. -/
def parseReal {R : Type} (rd : Reals R) (s : List Char) : Parsed R :=
  if s = [] ∨ s = "UNKNOWN".toList then .unknown else match rd.parse s with | some r => .known r | none => .error

/-- `createExpression` of an alias's value (`parseLibraryCall.cc:148-156`): `ConstantFactory.cc:116-260`, `ArrayLiteralFactory.cc:196-224`. `none`: a `ParserException`. -/
def create {R : Type} (rd : Reals R) : ExprXml → Option (Val R)
  | .lit tag text =>
    if tag = "BooleanValue" then fromParsed .bool (parseBoolean text)
    else if tag = "IntegerValue" then fromParsed (fun i => .int (BitVec.ofInt 32 i)) (parseInteger text)
    else if tag = "RealValue" then fromParsed .real (parseReal rd text)
    else if tag = "StringValue" then fromParsed .str (parseString text)
    else if tag = "NodeStateValue" then (stateConstant (String.ofList text)).map .state
    else if tag = "NodeOutcomeValue" then (outcomeConstant (String.ofList text)).map .outcome
    else if tag = "NodeFailureValue" then (failureConstant (String.ofList text)).map .failure
    else if tag = "NodeCommandHandleValue" then (handleConstant (String.ofList text)).map .handle
    else none
  | .arr type els =>
    match parseType type with
    | .boolean => (arrayLiteral false parseBoolean els).map (fun a => .array (.bools (optList a)))
    | .integer => (arrayLiteral 0 parseInteger els).map (fun a => .array (.ints ((optList a).map (Option.map (BitVec.ofInt 32)))))
    | .real => (arrayLiteral rd.zero (parseReal rd) els).map (fun a => .array (.reals (optList a)))
    | .string => some (.array (.strs (optList (stringArrayLiteral els))))
    | _ => none

/-- The wrapper plan, `makeWrapperPlanXml`, `Launcher.cc:182-212`: its identifier, the lookup in its exit condition, the library called, the aliases. -/
structure Wrapper where
  id : List Char
  exitName : List Char
  exitArg : List Char
  callee : List Char
  aliases : List (List Char × ExprXml)

/-- `makeWrapperPlanXml`, `Launcher.cc:182-212`. -/
def wrapper {R : Type} (rd : Reals R) (caller callee : List Char) (args : List (List Char × Val R)) : Wrapper where
  id := cstr caller
  exitName := "ExitPlan".toList
  exitArg := cstr caller
  callee := cstr callee
  aliases := args.map (fun p => (cstr p.1, toXml rd p.2))

/-- A root plan in the exec: its identifier; the lookup that is its exit condition, if it has such a one; the library called and the arguments with which it was called. A plan that is not
from the launcher has neither. `NodeImpl.hh`, `LibraryCallNode.hh`. -/
structure Plan (R : Type) where
  id : List Char
  exit : Option (List Char × List Char) := none
  call : Option (List Char × List (List Char × Val R)) := none
deriving DecidableEq

/-- `getLibraryNode` and `constructPlan` for the callee (`parseLibraryCall.cc:122-140`): nothing if it cannot be loaded or built, else whether its interface accepts given aliases
(`finalizeNode` of the callee, `parseLibraryCall.cc:176-184`). -/
abbrev Libs (R : Type) := List Char → Option (List (List Char × Val R) → Bool)

/-- `checkAlias` for all aliases of a call, `parseLibraryCall.cc:52-102`: each one is compared with those before it. -/
def checkAliases (before : List (List Char)) : List (List Char) → Bool
  | [] => true
  | a :: r => a ≠ [] && !before.contains a && checkAliases (a :: before) r

/-- `finalizeAliases`, `parseLibraryCall.cc:143-157`. -/
def createAll {R : Type} (rd : Reals R) : List (List Char × ExprXml) → Option (List (List Char × Val R))
  | [] => some []
  | p :: r => match create rd p.2, createAll rd r with
    | some v, some vs => some ((p.1, v) :: vs)
    | _, _ => none

/-- `finalizeLibraryCall`, `parseLibraryCall.cc:160-185`, after the aliases have been made. -/
def finishCall {R : Type} (w : Wrapper) (accepts : List (List Char × Val R) → Bool) : Option (List (List Char × Val R)) → Option (Plan R)
  | none => none
  | some vs => if accepts vs then some { id := w.id, exit := some (w.exitName, w.exitArg), call := some (w.callee, vs) } else none

/-- `parsePlan` of a wrapper, `parsePlan.cc:130-152`, `parseLibraryCall.cc:88-185`. `none`: a `ParserException`. -/
def parseWrapper {R : Type} (rd : Reals R) (L : Libs R) (w : Wrapper) : Option (Plan R) :=
  if w.id = [] ∨ w.callee = [] then none
  else if checkAliases [] (w.aliases.map Prod.fst) = false then none
  else match L w.callee with
    | none => none
    | some accepts => finishCall w accepts (createAll rd w.aliases)

/-- A value published for a state: a Boolean or the name of a state, outcome or failure type. `Launcher.cc:94-110, 343`. -/
inductive Pub
  | bool (b : Bool)
  | text (s : String)
deriving DecidableEq, Repr

/-- Calls of `AdapterExecInterface`: `handleAddPlan` (when it does not throw), `handleCommandReturn`, `handleCommandAck` with success or failure, `handleValueChange` for a state with
one string argument, `notifyOfExternalEvent`. `AdapterExecInterface.hh`. -/
inductive Call (R : Type)
  | addPlan (p : Plan R)
  | ret (c : Nat) (s : List Char)
  | ack (c : Nat) (ok : Bool)
  | value (name : List Char) (arg : List Char) (v : Pub)
  | notify
deriving DecidableEq

/-- The replies to a command that is refused, `Launcher.cc:221-222, 289-290, 321-322, 339-340`. -/
def refuse {R : Type} (c : Nat) : List (Call R) := [.ack c false, .notify]

/-- `checkPlanNameArgument`, `Launcher.cc:159-179`. -/
def planName {R : Type} : List (Val R) → Option (List Char)
  | .str s :: _ => some s
  | _ => none

/-- The loop over pairs of names and values, `Launcher.cc:229-262`. `none`: the command is refused. -/
def pairs {R : Type} : List (Val R) → Option (List (List Char × Val R))
  | [] => some []
  | [_] => none
  | .str f :: v :: r => match v with
    | .unknown => none
    | _ => (pairs r).map ((f, v) :: ·)
  | _ :: _ :: _ => none

/-- `nextSerialNumber`, `Launcher.cc:153-157`: the counter is an `unsigned int`. -/
def nextSerial (n : Nat) : Nat := (n + 1) % 2 ^ 32

/-- The identifier of the wrapper, `Launcher.cc:269-271`. -/
def callerId (name : List Char) (serial : Nat) : List Char := name ++ '_' :: decimal serial

/-- The outcome of `handleAddPlan` (`InterfaceManager.cc:346-361`) and what follows, `Launcher.cc:278-292`. -/
def launch {R : Type} (c : Nat) (id : List Char) : Option (Plan R) → List (Call R)
  | some p => [.addPlan p, .ret c id, .ack c true, .notify]
  | none => refuse c

/-- `executeStartPlanCommand`, `Launcher.cc:218-293`: the calls it makes and the serial number it leaves. -/
def startPlan {R : Type} (rd : Reals R) (L : Libs R) (serial : Nat) (c : Nat) (args : List (Val R)) : List (Call R) × Nat :=
  match planName args, pairs args.tail with
  | some name, some ps =>
    (launch c (callerId name (nextSerial serial)) (parseWrapper rd L (wrapper rd (callerId name (nextSerial serial)) name ps)), nextSerial serial)
  | _, _ => (refuse c, serial)

/-- `findNode`, `Launcher.cc:296-315`: the first root plan of that name, unless there is another one after it. -/
def findPlan {R : Type} (name : List Char) : List (Plan R) → Option (Plan R)
  | [] => none
  | p :: r => if p.id = name then (if r.any (fun q => q.id = name) then none else some p) else findPlan name r

/-- The end of `executeExitPlanCommand`, `Launcher.cc:336-345`. -/
def exitFound {R : Type} (c : Nat) (name : List Char) : Option (Plan R) → List (Call R)
  | none => refuse c
  | some _ => [.value "ExitPlan".toList name (.bool true), .ack c true, .notify]

/-- `executeExitPlanCommand`, `Launcher.cc:318-348`. -/
def exitPlan {R : Type} (plans : List (Plan R)) (c : Nat) : List (Val R) → List (Call R)
  | [.str s] => exitFound c s (findPlan s plans)
  | _ => refuse c

/-! ### The launcher in an application -/

/-- The application as far as the launcher is concerned: the serial number, the input queue (first in, first out: `InterfaceManager.cc:97-361`, `SerializedInputQueue.cc`), the plans in the exec
(`PlexilExec.cc:174`), those that have been deleted (`PlexilExec.cc:224-237`), the entries that have been processed. -/
structure Sys (R : Type) where
  serial : Nat := 0
  queue : List (Call R) := []
  plans : List (Plan R) := []
  gone : List (Plan R) := []
  seen : List (Call R) := []

/-- What can happen: a command is executed; something else calls the interface (but publishes no `ExitPlan`); the next entry of the queue is processed; a plan that has finished is deleted.
`InterfaceManager.cc:455-589`, `PlexilExec.cc:224-237`. -/
inductive Act (R : Type)
  | start (c : Nat) (args : List (Val R))
  | exit (c : Nat) (args : List (Val R))
  | other (k : Call R)
  | process
  | delete (i : Nat)

/-- `processQueue` for one entry: a plan is given to the exec (`InterfaceManager.cc:545-560`, `PlexilExec.cc:160-172`). -/
def addTo {R : Type} (plans : List (Plan R)) : Call R → List (Plan R)
  | .addPlan p => plans ++ [p]
  | _ => plans

/-- One thing that happens. See `Act`. -/
def Sys.step {R : Type} (rd : Reals R) (L : Libs R) (s : Sys R) : Act R → Sys R
  | .start c args => { s with serial := (startPlan rd L s.serial c args).2, queue := s.queue ++ (startPlan rd L s.serial c args).1 }
  | .exit c args => { s with queue := s.queue ++ exitPlan s.plans c args }
  | .other k => { s with queue := s.queue ++ [k] }
  | .process => match s.queue with
    | [] => s
    | k :: r => { s with queue := r, plans := addTo s.plans k, seen := s.seen ++ [k] }
  | .delete i => { s with plans := s.plans.eraseIdx i, gone := s.gone ++ (s.plans[i]?).toList }

/-- A history. See `Act`. -/
def Sys.run {R : Type} (rd : Reals R) (L : Libs R) (s : Sys R) (as : List (Act R)) : Sys R := as.foldl (Sys.step rd L) s

/-! ### The listener -/

/-- What the listener asks of a node: `getParent`, `getNodeId`, `getOutcome`, `getFailureType`. `Node.hh`. -/
structure Info where
  root : Bool
  id : List Char
  outcome : Outcome
  failure : Failure

/-- The publications for one transition to `new`, `Launcher.cc:83-112`. -/
def publish {R : Type} (i : Info) (new : NState) : List (Call R) :=
  if i.root = false then []
  else .value "PlanState".toList i.id (.text (stateName new)) ::
    (if i.outcome = .none then []
     else .value "PlanOutcome".toList i.id (.text (outcomeName i.outcome)) ::
      (if i.failure = .none then [] else [.value "PlanFailureType".toList i.id (.text (failureName i.failure))]))

/-- `implementNotifyNodeTransitions`, `Launcher.cc:77-121`: for the transitions of a cycle, with the nodes as they are at its end (`ExecListenerHub.cc:101-113`). -/
def listen {R N : Type} (info : N → Info) (ts : List (N × NState)) : List (Call R) :=
  ts.flatMap (fun t => publish (info t.1) t.2) ++ (if ts.any (fun t => (info t.1).root) then [.notify] else [])

/-- The reports of a history of cycles. `ExecListenerHub.cc:101-113`. -/
def listenAll {R N : Type} (h : List ((N → Info) × List (N × NState))) : List (Call R) := h.flatMap (fun b => listen b.1 b.2)

end Verif.Launcher
