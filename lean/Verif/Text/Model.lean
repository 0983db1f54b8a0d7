import Mathlib.Data.Nat.Digits.Defs
/-!
Model of values written as text: literals in plans, names of types, states, outcomes, failures and command handles; array literals and declared array sizes.
Sources: `/repo/src/value/{ValueType,NodeConstants,CommandHandle}.cc`, `/repo/src/utils/stricmp.c`, `/repo/src/xml-parser/{ConstantFactory,ArrayLiteralFactory,ArrayVariableFactory}.cc`.

Simplifications.  A C string is a list of characters (without a zero).  `strtol` of the C library is modelled as the C standard defines it, in the "C" locale, with a 64-bit `long`.
Reals are left out (`strtod` is the C library's).  The XML is parsed: an element is its tag and its text.
-/
namespace Verif.Text

/-- The result of parsing: `parseValue` returns true with a value, returns false, or throws `ParserException` (`ValueType.hh:246-253`). -/
inductive Parsed (α : Type)
  | known (a : α)
  | unknown
  | error
deriving DecidableEq, Repr

/-! ### The C library -/

/-- `isspace` (C library, used by `strtol`, `ValueType.cc:462`). -/
def isSpace (c : Char) : Bool := c = ' ' || c = '\t' || c = '\n' || c = '\x0b' || c = '\x0c' || c = '\r'

/-- The value of a digit or letter (C library `strtol`, `ValueType.cc:462`). -/
def digitVal (c : Char) : Option Nat :=
  if '0' ≤ c ∧ c ≤ '9' then some (c.toNat - 48)
  else if 'a' ≤ c ∧ c ≤ 'z' then some (c.toNat - 87)
  else if 'A' ≤ c ∧ c ≤ 'Z' then some (c.toNat - 55)
  else none

/-- Is it a digit in this base? (C library `strtol`, `ValueType.cc:462`) -/
def isDigit (b : Nat) (c : Char) : Bool := match digitVal c with
  | some d => decide (d < b)
  | none => false

/-- The loop over the digits (C library `strtol`, `ValueType.cc:462`): the number and the rest. -/
def scanDigits (b : Nat) : List Char → Nat → Nat × List Char
  | [], n => (n, [])
  | c :: cs, n => match digitVal c with
    | some d => if d < b then scanDigits b cs (n * b + d) else (n, c :: cs)
    | none => (n, c :: cs)

/-- The base: `strtol` with base 0 looks at the prefix (`ValueType.cc:462`), with base 10 it does not (`ArrayVariableFactory.cc:189`). -/
def numBase (base : Nat) (s : List Char) : Nat × List Char :=
  if base = 0 then
    match s with
    | '0' :: x :: c :: r => if (x = 'x' ∨ x = 'X') ∧ isDigit 16 c then (16, c :: r) else (8, s)
    | '0' :: _ => (8, s)
    | _ => (10, s)
  else (base, s)

/-- The sign (C library `strtol`). -/
def sign : List Char → Bool × List Char
  | '-' :: r => (true, r)
  | '+' :: r => (false, r)
  | r => (false, r)

/-- `strtol(s, &ends, base)` of the C library: `none` is no conversion (`ends == s`); otherwise the value, whether `errno` is set, and what `ends` points to. -/
def strtol (base : Nat) (s : List Char) : Option (Int × Bool × List Char) :=
  let (neg, s2) := sign (s.dropWhile isSpace)
  let (b, s3) := numBase base s2
  match s3 with
  | [] => none
  | c :: _ =>
    if isDigit b c then
      let (n, rest) := scanDigits b s3 0
      let v : Int := if neg then -n else n
      if v > 2 ^ 63 - 1 then some (2 ^ 63 - 1, true, rest)
      else if v < -2 ^ 63 then some (-2 ^ 63, true, rest)
      else some (v, false, rest)
    else none

/-! ### Scalars -/

/-- `parseValue<Integer>`, `ValueType.cc:453-471`. -/
def parseInteger (s : List Char) : Parsed Int :=
  if s = [] ∨ s = "UNKNOWN".toList then .unknown
  else match strtol 0 s with
    | none => .error
    | some (v, erange, rest) =>
      if rest ≠ [] then .error
      else if erange then .error
      else if v ≤ 2 ^ 31 - 1 ∧ v ≥ -2 ^ 31 then .known v else .error

/-- Coercion of a letter to upper case: `stricmp.c:44-47`. -/
def upper (c : Char) : Char := if 'a' ≤ c ∧ c ≤ 'z' then Char.ofNat (c.toNat - 0x20) else c

/-- `stricmp(s1, s2) == 0`: `stricmp.c:27-66` (pointers not null). -/
def sameNoCase : List Char → List Char → Bool
  | [], [] => true
  | a :: as, b :: bs => if a = b then sameNoCase as bs else if upper a = upper b then sameNoCase as bs else false
  | _, _ => false

/-- `parseValue<Boolean>`, `ValueType.cc:407-451`. -/
def parseBoolean (s : List Char) : Parsed Bool :=
  if s.length = 1 then
    if s = ['0'] then .known false else if s = ['1'] then .known true else .error
  else if s.length = 4 then (if sameNoCase s "true".toList then .known true else .error)
  else if s.length = 5 then (if sameNoCase s "false".toList then .known false else .error)
  else if s.length = 7 then (if s = "UNKNOWN".toList then .unknown else .error)
  else .error

/-- `parseValue<String>`, `ValueType.cc:492-498`. -/
def parseString (s : List Char) : Parsed (List Char) := .known s

/-- `printValue<Boolean>`, `ValueType.cc:343-347`. -/
def printBoolean (b : Bool) : List Char := if b then "true".toList else "false".toList

/-- A natural number in decimal, as `operator<<` of the C++ library prints it. -/
def decimal (n : Nat) : List Char := if n = 0 then ['0'] else (Nat.digits 10 n).reverse.map Nat.digitChar

/-- `printValue<Integer>`, `ValueType.cc:336-340, 755`. -/
def printInteger (i : Int) : List Char := if i < 0 then '-' :: decimal i.natAbs else decimal i.natAbs

/-! ### Names -/

/-- `NodeState`, `NodeConstants.hh:47-57`. -/
inductive NState
  | none | inactive | waiting | executing | iterationEnded | finished | failing | finishing
deriving DecidableEq, Repr
/-- `NodeOutcome`, `NodeConstants.hh:93-100`. -/
inductive Outcome
  | none | success | failure | skipped | interrupted
deriving DecidableEq, Repr
/-- `FailureType`, `NodeConstants.hh:136-145`. -/
inductive Failure
  | none | pre | post | invariant | parentFailed | exited | parentExited
deriving DecidableEq, Repr
/-- `CommandHandleValue`, `CommandHandle.hh:39-52`. -/
inductive Handle
  | none | sent | accepted | rcvd | failed | denied | success | aborted | abortFailed | interfaceError
deriving DecidableEq, Repr

/-- `ALL_STATE_NAMES`, `NodeConstants.cc:32-41`, in the order of the enumeration. -/
def stateTable : List (NState × String) :=
  [(.none, "NO_STATE"), (.inactive, "INACTIVE"), (.waiting, "WAITING"), (.executing, "EXECUTING"), (.iterationEnded, "ITERATION_ENDED"),
   (.finished, "FINISHED"), (.failing, "FAILING"), (.finishing, "FINISHING")]
/-- `ALL_OUTCOME_NAMES`, `NodeConstants.cc:43-49`. -/
def outcomeTable : List (Outcome × String) :=
  [(.none, "NO_OUTCOME"), (.success, "SUCCESS"), (.failure, "FAILURE"), (.skipped, "SKIPPED"), (.interrupted, "INTERRUPTED")]
/-- `ALL_FAILURE_NAMES`, `NodeConstants.cc:51-59`. -/
def failureTable : List (Failure × String) :=
  [(.none, "NO_FAILURE"), (.pre, "PRE_CONDITION_FAILED"), (.post, "POST_CONDITION_FAILED"), (.invariant, "INVARIANT_CONDITION_FAILED"),
   (.parentFailed, "PARENT_FAILED"), (.exited, "EXITED"), (.parentExited, "PARENT_EXITED")]
/-- `ALL_COMMAND_HANDLE_NAMES`, `CommandHandle.cc:36-47`. -/
def handleTable : List (Handle × String) :=
  [(.none, "NO_COMMAND_HANDLE"), (.sent, "COMMAND_SENT_TO_SYSTEM"), (.accepted, "COMMAND_ACCEPTED"), (.rcvd, "COMMAND_RCVD_BY_SYSTEM"),
   (.failed, "COMMAND_FAILED"), (.denied, "COMMAND_DENIED"), (.success, "COMMAND_SUCCESS"), (.aborted, "COMMAND_ABORTED"),
   (.abortFailed, "COMMAND_ABORT_FAILED"), (.interfaceError, "COMMAND_INTERFACE_ERROR")]

/-- The search loops `NodeConstants.cc:69-71, 94-96, 119-121`, `CommandHandle.cc:51-53`: the first entry after the zeroth with that name. -/
def searchName {α : Type} (dflt : α) : List (α × String) → String → α
  | [], _ => dflt
  | (a, n) :: t, s => if n = s then a else searchName dflt t s

/-- The lookups `NodeConstants.cc:75-80, 100-105, 125-130`, `CommandHandle.cc:57-62`. -/
def nameOf {α : Type} [DecidableEq α] (dflt : String) : List (α × String) → α → String
  | [], _ => dflt
  | (b, n) :: t, a => if b = a then n else nameOf dflt t a

/-- `parseNodeState`, `NodeConstants.cc:67-73`. -/
def parseState (s : String) : NState := searchName .none stateTable.tail s
/-- `parseNodeOutcome`, `NodeConstants.cc:92-98`. -/
def parseOutcome (s : String) : Outcome := searchName .none outcomeTable.tail s
/-- `parseFailureType`, `NodeConstants.cc:117-123`. -/
def parseFailure (s : String) : Failure := searchName .none failureTable.tail s
/-- `parseCommandHandleValue`, `CommandHandle.cc:49-55`. -/
def parseHandle (s : String) : Handle := searchName .none handleTable.tail s
/-- `nodeStateName`, `NodeConstants.cc:75-80`. -/
def stateName (x : NState) : String := nameOf "NO_STATE" stateTable x
/-- `outcomeName`, `NodeConstants.cc:100-105`. -/
def outcomeName (x : Outcome) : String := nameOf "NO_OUTCOME" outcomeTable x
/-- `failureTypeName`, `NodeConstants.cc:125-130`. -/
def failureName (x : Failure) : String := nameOf "NO_FAILURE" failureTable x
/-- `commandHandleValueName`, `CommandHandle.cc:57-62`. -/
def handleName (x : Handle) : String := nameOf "NO_COMMAND_HANDLE" handleTable x

/-- The constant a `NodeStateValue` element makes: `ConstantFactory.cc:224-281`. -/
def stateConstant (s : String) : Option NState := match parseState s with
  | .inactive => some .inactive
  | .waiting => some .waiting
  | .executing => some .executing
  | .iterationEnded => some .iterationEnded
  | .finished => some .finished
  | .failing => some .failing
  | .finishing => some .finishing
  | _ => none
/-- `NodeOutcomeValue`: `ConstantFactory.cc:283-328`. -/
def outcomeConstant (s : String) : Option Outcome := match parseOutcome s with
  | .success => some .success
  | .failure => some .failure
  | .skipped => some .skipped
  | .interrupted => some .interrupted
  | _ => none
/-- `NodeFailureValue`: `ConstantFactory.cc:330-383`. -/
def failureConstant (s : String) : Option Failure := match parseFailure s with
  | .pre => some .pre
  | .post => some .post
  | .invariant => some .invariant
  | .parentFailed => some .parentFailed
  | .exited => some .exited
  | .parentExited => some .parentExited
  | _ => none
/-- `NodeCommandHandleValue`: `ConstantFactory.cc:385-438`. -/
def handleConstant (s : String) : Option Handle := match parseHandle s with
  | .sent => some .sent
  | .accepted => some .accepted
  | .rcvd => some .rcvd
  | .failed => some .failed
  | .denied => some .denied
  | .success => some .success
  | _ => none

/-- `ValueType`, `ValueType.hh:112-147`. -/
inductive VT
  | unknown | boolean | integer | real | string | date | duration
  | array | booleanArray | integerArray | realArray | stringArray
  | state | nodeState | outcome | failure | commandHandle
deriving DecidableEq, Repr

/-- `valueTypeName`, `ValueType.cc:47-120`. -/
def VT.name : VT → String
  | .boolean => "Boolean" | .integer => "Integer" | .real => "Real" | .string => "String" | .date => "Date" | .duration => "Duration"
  | .booleanArray => "BooleanArray" | .integerArray => "IntegerArray" | .realArray => "RealArray" | .stringArray => "StringArray"
  | .state => "State" | .nodeState => "NodeState" | .outcome => "NodeOutcome" | .failure => "NodeFailure" | .commandHandle => "NodeCommandHandle"
  | _ => "UNKNOWN"

/-- `parseValueType`, `ValueType.cc:205-328`: by the first character, then the length, then the whole. -/
def parseType (s : String) : VT :=
  match s.toList with
  | 'A' :: _ => if s = "Array" then .array else .unknown
  | 'B' :: _ =>
    if s.length = 7 then (if s = "Boolean" then .boolean else .unknown)
    else if s.length = 12 then (if s = "BooleanArray" then .booleanArray else .unknown)
    else .unknown
  | 'D' :: _ => if s = "Date" then .date else if s = "Duration" then .duration else .unknown
  | 'I' :: _ =>
    if s.length = 7 then (if s = "Integer" then .integer else .unknown)
    else if s.length = 12 then (if s = "IntegerArray" then .integerArray else .unknown)
    else .unknown
  | 'N' :: _ =>
    if s.length = 9 then (if s = "NodeState" then .nodeState else .unknown)
    else if s.length = 11 then
      (if s.toList[4]? = some 'F' ∧ s = "NodeFailure" then .failure else if s = "NodeOutcome" then .outcome else .unknown)
    else if s.length = 17 then (if s = "NodeCommandHandle" then .commandHandle else .unknown)
    else .unknown
  | 'R' :: _ =>
    if s.length = 4 then (if s = "Real" then .real else .unknown)
    else if s.length = 9 then (if s = "RealArray" then .realArray else .unknown)
    else .unknown
  | 'S' :: _ =>
    if s.length = 5 then (if s = "State" then .state else .unknown)
    else if s.length = 6 then (if s = "String" then .string else .unknown)
    else if s.length = 11 then (if s = "StringArray" then .stringArray else .unknown)
    else .unknown
  | _ => .unknown

/-! ### Arrays -/

/-- An XML element of an array literal: its tag and its text. -/
structure El where
  tag : List Char
  text : List Char
deriving DecidableEq, Repr

/-- `testSuffix`, `parser-utils.cc:52-59`, with `"Value"`. -/
def endsInValue (tag : List Char) : Bool :=
  decide (5 ≤ tag.length) && decide (tag.drop (tag.length - 5) = "Value".toList)

/-- `strncmp(a, b, n) == 0` (C library, `ArrayLiteralFactory.cc:55-57`). -/
def strncmpEq : List Char → List Char → Nat → Bool
  | _, _, 0 => true
  | a :: as, b :: bs, n + 1 => decide (a = b) && strncmpEq as bs n
  | [], [], _ + 1 => true
  | _, _, _ + 1 => false

/-- `checkArrayLiteral<T>`, `ArrayLiteralFactory.cc:47-68`: `ty` is the name of the element type. -/
def checkElems {α : Type} (parse : List Char → Parsed α) (ty : List Char) : List El → Bool
  | [] => true
  | e :: es =>
    endsInValue e.tag && strncmpEq e.tag ty (e.tag.length - 5) && decide (e.text ≠ []) &&
    (match parse e.text with | .error => false | _ => true) && checkElems parse ty es

/-- `checkArrayLiteral<String>`, `ArrayLiteralFactory.cc:71-84`. -/
def checkStringElems : List El → Bool
  | [] => true
  | e :: es => decide (e.tag = "StringValue".toList) && checkStringElems es

/-- An array: values and which are known (`ArrayImpl.hh`). -/
structure Arr (α : Type) where
  vals : List α
  known : List Bool
deriving DecidableEq, Repr

/-- The loop of `createArrayLiteral<T>`, `ArrayLiteralFactory.cc:97-111`: values and the indices of the unknown ones; `none` is the exception. -/
def collect {α : Type} (dflt : α) (parse : List Char → Parsed α) : Nat → List El → Option (List α × List Nat)
  | _, [] => some ([], [])
  | i, e :: es => match parse e.text with
    | .error => none
    | .known v => (collect dflt parse (i + 1) es).map fun r => (v :: r.1, r.2)
    | .unknown => (collect dflt parse (i + 1) es).map fun r => (dflt :: r.1, i :: r.2)

/-- `createArrayLiteral<T>`, `ArrayLiteralFactory.cc:90-121`. -/
def arrayLiteral {α : Type} (dflt : α) (parse : List Char → Parsed α) (es : List El) : Option (Arr α) :=
  (collect dflt parse 0 es).map fun r =>
    { vals := r.1, known := r.2.foldl (fun k i => k.set i false) (List.replicate r.1.length true) }

/-- `createArrayLiteral<String>`, `ArrayLiteralFactory.cc:123-138`. -/
def stringArrayLiteral (es : List El) : Arr (List Char) :=
  { vals := es.map El.text, known := List.replicate es.length true }

/-- The element of an array: `ArrayImpl::getElement`. -/
def Arr.get {α : Type} (a : Arr α) (i : Nat) : Option α := if a.known[i]? = some true then a.vals[i]? else none

/-- The check of an array declaration with a `MaxSize` and an array literal of `n` elements (or none): `ArrayVariableFactory.cc:65-159`. -/
def checkArrayDecl (maxSize : Option (List Char)) (n : Option Nat) : Bool :=
  match maxSize with
  | none => true
  | some sz =>
    match parseInteger sz with
    | .known m => decide (sz ≠ []) && decide (m ≥ 0) &&
      (match n with | some n => decide ((n : Int) ≤ m) | none => true)
    | _ => false

/-- A C conversion to `int32_t` (`ArrayVariableFactory.cc:190`). -/
def toInt32 (v : Int) : Int := (v + 2 ^ 31) % 2 ^ 32 - 2 ^ 31

/-- The size given to the array variable: `ArrayVariableFactory.cc:186-192` (`strtol` gives 0 when there is nothing to convert). -/
def allocatedSize (sz : List Char) : Int := match strtol 10 sz with
  | some (v, _, _) => toInt32 v
  | none => 0

end Verif.Text
