import Verif.Text.Model
/-
Model of the values in a script of TestExec.
Source: `/repo/src/apps/TestExec/TestExternalInterface.cc:346-498`.

An XML element is its tag, its `type` attribute and its text (`child_value`; an element without children has the empty text). Numbers with a fraction are not modelled: the text is kept.
-/
set_option autoImplicit false
namespace Verif.Script
open Verif.Text

/-- A child element: tag, `type` attribute (empty if there is none), text. `pugixml`. -/
structure XEl where
  /-- Tag. -/
  tag : String
  /-- Attribute `type`. -/
  type : String := ""
  /-- Text. -/
  text : List Char

/-- A value. `Value.hh`. -/
inductive SV where
  | unknown
  | string (s : List Char)
  | int (i : Int)
  /-- Not modelled: the number is that which `operator>>` reads from the text. -/
  | real (s : List Char)
  | bool (b : Bool)
  /-- A variable that was never written: `TestExternalInterface.cc:406-409, 418-421, 470-473, 488-491`. -/
  | garbage
deriving DecidableEq

/-- A scalar or an array. `Value.hh`. -/
inductive SVal where
  | scalar (v : SV)
  | array (l : List SV)
deriving DecidableEq

/-- `istringstream >> int32_t` of the C++ library (`TestExternalInterface.cc:408, 471`): blanks, sign and digits; 0 if there are none (C++11), the nearest if it is too large. What follows is not looked at. If there is
nothing but blanks the stream ends before the number is begun, and the variable is not written. -/
def streamInt (s : List Char) : SV :=
  if s.dropWhile isSpace = [] then .garbage
  else match strtol 10 s with
  | none => .int 0
  | some (v, _, _) => .int (if v > 2 ^ 31 - 1 then 2 ^ 31 - 1 else if v < -2 ^ 31 then -2 ^ 31 else v)

/-- `istringstream >> bool` of the C++ library, without `boolalpha` (`TestExternalInterface.cc:420, 490`): reads a number; 0 is false, 1 is true, another number is true, no number is false; nothing but blanks leaves the variable unwritten. -/
def streamBool (s : List Char) : SV :=
  if s.dropWhile isSpace = [] then .garbage
  else match strtol 10 s with
  | none => .bool false
  | some (v, _, _) => .bool (decide (v ≠ 0))

/-- `parseOneValue`, `TestExternalInterface.cc:457-498`; `none`: an exception. -/
def parseOneValue (type : String) (s : List Char) : Option SV :=
  if sameNoCase s "Plexil_Unknown".toList then some .unknown
  else if "string".toList.isPrefixOf type.toList then some (.string s)
  else if "int".toList.isPrefixOf type.toList then some (streamInt s)
  else if "real".toList.isPrefixOf type.toList then some (.real s)
  else if "bool".toList.isPrefixOf type.toList then
    if sameNoCase s "true".toList then some (.bool true)
    else if sameNoCase s "false".toList then some (.bool false)
    else some (streamBool s)
  else none

/-- `parseParam`, `TestExternalInterface.cc:385-430`; `none`: an exception. The unknown values of different types are not told apart. -/
def parseParam (e : XEl) : Option SV :=
  if e.text = [] ∧ e.type ≠ "string" then none
  else if e.text = "UNKNOWN".toList then some .unknown
  else if e.type = "int" then some (streamInt e.text)
  else if e.type = "real" then some (.real e.text)
  else if e.type = "bool" then some (streamBool e.text)
  else some (.string e.text)

/-- `parseParams`, `TestExternalInterface.cc:370-383`. -/
def parseParams (kids : List XEl) : Option (List SV) := (kids.filter fun e => decide (e.tag = "Param")).mapM parseParam

/-- Whether the name of the type has "array" in it: `type.rfind("array")`, `TestExternalInterface.cc:356, 442`. -/
def isArray (type : String) : Bool := type.toList.tails.any fun t => "array".toList.isPrefixOf t

/-- The value of an element with child elements `kids`: `parseResult` with tag `Result` and `nonEmpty`, `parseStateValue` with tag `Value`: `TestExternalInterface.cc:346-368, 432-454`. For an array the
loop goes over all elements after the first one with the tag, whatever they are (`:362-365, 448-451`). -/
def parseTagged (tag : String) (nonEmpty : Bool) (type : String) (kids : List XEl) : Option SVal :=
  match kids.dropWhile fun e => decide (e.tag ≠ tag) with
  | [] => none
  | e :: es =>
    if nonEmpty && decide (e.text = []) then none
    else if type = "" then none
    else if isArray type then ((e :: es).mapM fun x => parseOneValue type x.text).map .array
    else (parseOneValue type e.text).map .scalar

/-- `parseResult`, `TestExternalInterface.cc:346-368`. -/
def parseResult (type : String) (kids : List XEl) : Option SVal := parseTagged "Result" true type kids

/-- `parseStateValue`, `TestExternalInterface.cc:432-454`. -/
def parseStateValue (type : String) (kids : List XEl) : Option SVal := parseTagged "Value" false type kids

end Verif.Script
