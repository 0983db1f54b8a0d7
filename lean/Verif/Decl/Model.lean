import Verif.Text.Model

/-!
# Global declarations and the calls checked against them

Code: `src/xml-parser/SymbolTable.cc`, `parseGlobalDeclarations.cc`, `LookupFactory.cc`,
`commandXmlParser.cc`, `parsePlan.cc`, `parseLibraryCall.cc`, `src/value/ValueType.cc`.

Simplifications: the XML of a declaration is a real tree; the XML of a call is given by its parts.
Of an argument, tolerance, resource or result expression only its type matters here: the one its
`check` returns and the one of the expression created, `none` standing for a parser exception.
-/
set_option autoImplicit false

namespace Verif.Decl
open Verif.Text (VT parseType)

/-! ### Types -/

/-- `isArrayType`, `ValueType.cc:151-154` (an array type proper, not the generic one). -/
def isArrayT : VT → Bool
  | .booleanArray | .integerArray | .realArray | .stringArray => true
  | _ => false

/-- `isNumericType`, `ValueType.cc:132-144`. -/
def isNumericT : VT → Bool
  | .integer | .real | .date | .duration => true
  | _ => false

/-- `arrayType`, `ValueType.cc:163-168`: the array type with elements of that type, or unknown. -/
def arrayType : VT → VT
  | .boolean => .booleanArray
  | .integer => .integerArray
  | .real => .realArray
  | .string => .stringArray
  | _ => .unknown

/-- `areTypesCompatible`, `ValueType.cc:170-198`. -/
def compatible (dest src : VT) : Bool :=
  if dest = .unknown then true
  else if src = .unknown then true
  else if dest = src then true
  else match dest with
    | .date | .duration => decide (src = .real) || decide (src = .integer)
    | .real => decide (src = .integer) || decide (src = .date) || decide (src = .duration)
    | .array => isArrayT src
    | _ => false

/-! ### XML -/

/-- A node of the XML document (pugixml): an element with its children, or text. -/
inductive Xml
  | elem (tag : String) (kids : List Xml)
  | text (s : String)

/-- `xml_node::name()`: empty for text. -/
def Xml.name : Xml → String
  | .elem t _ => t
  | .text _ => ""

/-- The children of a node (pugixml `first_child`, `next_sibling`). -/
def Xml.kids : Xml → List Xml
  | .elem _ k => k
  | .text _ => []

/-- The first text among some nodes (pugixml, `child_value`). -/
def firstText : List Xml → String
  | [] => ""
  | .text s :: _ => s
  | .elem _ _ :: r => firstText r

/-- `xml_node::child_value()`: the text of the first text child, or the empty string. -/
def Xml.childValue (x : Xml) : String := firstText x.kids

/-- The siblings from the first element with that tag on: `child(tag)` and what follows it. -/
def fromTag (tag : String) : List Xml → List Xml
  | [] => []
  | x :: r => if x.name = tag then x :: r else fromTag tag r

/-- `child_value(tag)`: the text of the first child with that tag, or the empty string. -/
def Xml.childValueOf (x : Xml) (tag : String) : String :=
  match fromTag tag x.kids with
  | [] => ""
  | c :: _ => c.childValue

/-! ### Checking declarations -/

/-- `checkValueDeclaration`, `parseGlobalDeclarations.cc:40-72`. -/
def checkValueDecl (elt : Xml) : Bool :=
  match fromTag "Type" elt.kids with
  | [] => false
  | t :: rest =>
    decide (t.childValue ≠ "") &&
    (decide (parseType t.childValue ≠ .unknown) || decide (t.childValue = "Any")) &&
    (match rest with
     | [] => true
     | m :: _ => decide (m.name = "MaxSize") && decide (arrayType (parseType t.childValue) ≠ .unknown))

/-- The `<Return>`, if it comes next: `parseGlobalDeclarations.cc:88-91`. The siblings after it, or
`none` for an exception. -/
def checkReturn : List Xml → Option (List Xml)
  | [] => some []
  | e :: r => if e.name = "Return" then (if checkValueDecl e then some r else none) else some (e :: r)

/-- The loop over `<Parameter>`s: `parseGlobalDeclarations.cc:93-96`, `122-125`. -/
def checkParams : List Xml → Option (List Xml)
  | [] => some []
  | e :: r => if e.name = "Parameter" then (if checkValueDecl e then checkParams r else none) else some (e :: r)

/-- Past `<AnyParameters>`, if it comes next: `parseGlobalDeclarations.cc:98-100`, `127-129`. -/
def skipAny : List Xml → List Xml
  | [] => []
  | e :: r => if e.name = "AnyParameters" then r else e :: r

/-- `checkCommandDeclaration`, `parseGlobalDeclarations.cc:74-105`: what follows `<AnyParameters>`
is not looked at. -/
def checkCommandDecl (decl : Xml) : Bool :=
  match decl.kids with
  | [] => false
  | n :: rest =>
    decide (n.name = "Name") && decide (n.childValue ≠ "") &&
    (match checkReturn rest with
     | none => false
     | some r1 => (checkParams r1).isSome)

/-- `checkStateDeclaration`, `parseGlobalDeclarations.cc:107-135`. -/
def checkStateDecl (decl : Xml) : Bool :=
  match decl.kids with
  | [] => false
  | n :: rest =>
    decide (n.name = "Name") && decide (n.childValue ≠ "") &&
    (match rest with
     | [] => false
     | ret :: r1 =>
       decide (ret.name = "Return") && checkValueDecl ret &&
       (match checkParams r1 with
        | none => false
        | some r2 => (skipAny r2).isEmpty))

/-- `checkMutexDeclaration`, `parseGlobalDeclarations.cc:260-269`. -/
def checkMutexDecl (decl : Xml) : Bool :=
  match decl.kids with
  | [] => false
  | n :: _ => decide (n.name = "Name") && decide (n.childValue ≠ "")

/-- `checkGlobalDeclarations`, `parseGlobalDeclarations.cc:271-289`, for command, state and mutex
declarations. Library node declarations (230-258) are left out: the code never uses them
(`getLibraryNodeSymbol`, `SymbolTable.cc:331`, has no caller). -/
def checkGlobals : List Xml → Bool
  | [] => true
  | d :: ds =>
    (if d.name = "CommandDeclaration" then checkCommandDecl d
     else if d.name = "StateDeclaration" then checkStateDecl d
     else if d.name = "DeclareMutex" then checkMutexDecl d
     else false) && checkGlobals ds

/-! ### The symbol table -/

/-- `Symbol`, `SymbolTable.hh`, `SymbolTable.cc:41-104`. -/
structure Sym where
  ret : VT := .unknown
  params : List VT := []
  anyParams : Bool := false
deriving DecidableEq, Repr

/-- `SymbolTableImpl`, `SymbolTable.cc:173-184`: maps from names to symbols. -/
structure Table where
  commands : List (String × Sym) := []
  lookups : List (String × Sym) := []
  mutexes : List String := []
deriving DecidableEq, Repr

/-- `getCommand`, `getLookup`: `std::map::find`, `SymbolTable.cc:242-260`. -/
def find (m : List (String × Sym)) (n : String) : Option Sym :=
  match m with
  | [] => none
  | (k, s) :: r => if k = n then some s else find r n

/-- `addCommand`, `addLookup`, `SymbolTable.cc:191-213`, with the symbol filled in later by the
caller: `none` for a duplicate. -/
def add (m : List (String × Sym)) (n : String) (s : Sym) : Option (List (String × Sym)) :=
  match find m n with
  | some _ => none
  | none => some ((n, s) :: m)

/-- `parseValueDeclaration`, `parseGlobalDeclarations.cc:295-306`. -/
def parseValueDecl (elt : Xml) : VT :=
  match fromTag "MaxSize" elt.kids with
  | [] => parseType (elt.childValueOf "Type")
  | _ => arrayType (parseType (elt.childValueOf "Type"))

/-- The children with that tag: `child(tag)` and then `next_sibling(tag)`. -/
def withTag (tag : String) : List Xml → List Xml
  | [] => []
  | x :: r => if x.name = tag then x :: withTag tag r else withTag tag r

/-- The return type of a declaration, unknown if there is none:
`parseGlobalDeclarations.cc:316-319`, `346-347`. -/
def retType (decl : Xml) : VT :=
  match fromTag "Return" decl.kids with
  | [] => .unknown
  | r :: _ => parseValueDecl r

/-- The symbol of a declaration: `parseGlobalDeclarations.cc:316-330`, `346-357`. -/
def parseSym (decl : Xml) : Sym :=
  { ret := retType decl
    params := (withTag "Parameter" decl.kids).map parseValueDecl
    anyParams := match fromTag "AnyParameters" decl.kids with | [] => false | _ => true }

/-- `parseCommandDeclaration` and the others, `parseGlobalDeclarations.cc:308-358`, `424-431`;
`none` is the exception for a duplicate. -/
def parseDecl (t : Table) (d : Xml) : Option Table :=
  if d.name = "CommandDeclaration" then
    (add t.commands (d.childValueOf "Name") (parseSym d)).map fun m => { t with commands := m }
  else if d.name = "StateDeclaration" then
    (add t.lookups (d.childValueOf "Name") (parseSym d)).map fun m => { t with lookups := m }
  else if d.name = "DeclareMutex" then
    (if d.childValueOf "Name" ∈ t.mutexes then none
     else some { t with mutexes := d.childValueOf "Name" :: t.mutexes })
  else some t

/-- `parseGlobalDeclarations`, `parseGlobalDeclarations.cc:433-456`. -/
def parseGlobals : Table → List Xml → Option Table
  | t, [] => some t
  | t, d :: ds => match parseDecl t d with
    | none => none
    | some t' => parseGlobals t' ds

/-- The part of `checkPlan` that makes the table, `parsePlan.cc:74-85`. -/
def declare (ds : List Xml) : Option Table :=
  if checkGlobals ds then parseGlobals {} ds else none

/-! ### Calls -/

/-- An expression of the plan: the type its `check` returns and the type of the expression made
from it (`createExpression.cc:79-95`, `119-139`); `none` is an exception. -/
structure Ex where
  checked : Option VT
  made : Option VT
deriving DecidableEq, Repr

/-- The expression for a name: a `StringValue` literal, or another expression together with its
value if it is a constant, such as an alias of a literal (`Alias.cc:76-79`). -/
inductive NameEx
  | lit (s : String)
  | other (e : Ex) (const : Option String)
deriving DecidableEq, Repr

/-- The type `checkExpression` returns for the name. `ConstantFactory.cc` for literals. -/
def NameEx.checked : NameEx → Option VT
  | .lit _ => some .string
  | .other e _ => e.checked

/-- The type of the expression made for the name. `ConstantFactory.cc` for literals. -/
def NameEx.made : NameEx → Option VT
  | .lit _ => some .string
  | .other e _ => e.made

/-- The text of the name if it is a literal: `testTag(STRING_VAL_TAG, ..)`, `LookupFactory.cc:74`,
`commandXmlParser.cc:227`. -/
def NameEx.literal : NameEx → Option String
  | .lit s => some s
  | .other _ _ => none

/-- The value of the name if it is a constant: `LookupFactory.cc:178-181`,
`commandXmlParser.cc:369-370`. -/
def NameEx.constant : NameEx → Option String
  | .lit s => some s
  | .other _ c => c

/-- `<LookupNow>` or `<LookupOnChange>`: name, optional tolerance, optional arguments. -/
structure LookupCall where
  onChange : Bool
  name : NameEx
  tol : Option Ex
  args : Option (List Ex)
deriving DecidableEq, Repr

/-- A string expression, or one of unknown type: `LookupFactory.cc:65`, `172`,
`commandXmlParser.cc:358`. -/
def strOk : Option VT → Bool
  | some t => decide (t = .string) || decide (t = .unknown)
  | none => false

/-- A numeric expression, or one of unknown type: `LookupFactory.cc:93`, `241`. -/
def numOk : Option VT → Bool
  | some t => isNumericT t || decide (t = .unknown)
  | none => false

/-- The symbol found for an optional name: `LookupFactory.cc:73-78`, `commandXmlParser.cc:226-230`. -/
def findOpt (m : List (String × Sym)) : Option String → Option Sym
  | none => none
  | some n => find m n

/-- The loop over the declared parameters in `factoryCheck<Lookup>`, `LookupFactory.cc:116-149`:
the arguments are compared with the parameter types while both last; too few or too many is an
exception; the rest are only checked by themselves. -/
def checkArgs (anyP : Bool) : List VT → List Ex → Bool
  | [], [] => true
  | [], es => anyP && es.all (fun e => e.checked.isSome)
  | _ :: _, [] => false
  | p :: ps, e :: es => match e.checked with
    | none => false
    | some t => compatible p t && checkArgs anyP ps es

/-- The tolerance when checked, `LookupFactory.cc:84-97`: only for a lookup on change, and a number. -/
def tolCheckOk (onChange : Bool) : Option Ex → Bool
  | none => true
  | some e => onChange && numOk e.checked

/-- The tolerance when made, `LookupFactory.cc:236-242`. -/
def tolMakeOk : Option Ex → Bool
  | none => true
  | some e => numOk e.made

/-- `factoryCheck<Lookup>`, `LookupFactory.cc:46-159`: the type of the lookup. -/
def checkLookup (tab : Table) (c : LookupCall) : Option VT :=
  if strOk c.name.checked = false then none
  else
    let sym := findOpt tab.lookups c.name.literal
    let res := match sym with | some s => s.ret | none => VT.unknown
    if tolCheckOk c.onChange c.tol = false then none
    else match c.args with
      | none => some res
      | some as =>
        (match sym with
         | some s => if checkArgs s.anyParams s.params as then some res else none
         | none => if as.all (fun e => e.checked.isSome) then some res else none)

/-- The number of arguments agrees with the declaration: `LookupFactory.cc:205-206`,
`commandXmlParser.cc:393-394`. -/
def countOk (s : Sym) (n : Nat) : Bool :=
  decide (n = s.params.length) || (s.anyParams && decide (s.params.length < n))

/-- The loop over the arguments made: `LookupFactory.cc:216-233`, `commandXmlParser.cc:406-423`:
each is compared with the parameter at its place, if there is one. -/
def makeArgs : List VT → List Ex → Bool
  | _, [] => true
  | [], e :: es => e.made.isSome && makeArgs [] es
  | p :: ps, e :: es => match e.made with
    | none => false
    | some t => compatible p t && makeArgs ps es

/-- The parameter types to compare with: none without a declaration. `LookupFactory.cc:224`,
`commandXmlParser.cc:411`. -/
def paramsOf : Option Sym → List VT
  | some s => s.params
  | none => []

/-- `factoryAllocate<Lookup>`, `LookupFactory.cc:162-259`: the type of the expression made; `want` is
the type asked for by the context. -/
def makeLookup (tab : Table) (c : LookupCall) (want : VT) : Option VT :=
  if strOk c.name.made = false then none
  else
    let sym := findOpt tab.lookups c.name.constant
    let res := match sym with | some s => s.ret | none => want
    let as := c.args.getD []
    let cnt := match sym with | some s => countOk s as.length | none => true
    if cnt && makeArgs (paramsOf sym) as && tolMakeOk c.tol then some res else none

/-- A command call: optional result variable, name, optional arguments. -/
structure CommandCall where
  dest : Option Ex
  name : NameEx
  args : Option (List Ex)
deriving DecidableEq, Repr

/-- A result expression agrees with what the command returns: `commandXmlParser.cc:233-241`,
`374-382`. -/
def destOk : Option Sym → Option VT → Bool
  | some s, some d => compatible d s.ret
  | _, _ => true

/-- `checkCommandBody`, `commandXmlParser.cc:195-255`, apart from the resource list. -/
def checkCommand (tab : Table) (c : CommandCall) : Bool :=
  (match c.dest with | none => true | some d => d.checked.isSome) &&
  (match c.name.checked with | none => false | some t => compatible .string t) &&
  destOk (findOpt tab.commands c.name.literal) (c.dest.bind Ex.checked) &&
  (match c.args with | none => true | some as => as.all (fun e => e.checked.isSome))

/-- The symbol `finalizeCommand` finds: only if the name is a constant string,
`commandXmlParser.cc:368-372`. -/
def cmdSym (tab : Table) (n : NameEx) : Option Sym :=
  if n.made = some .string then findOpt tab.commands n.constant else none

/-- `finalizeCommand`, `commandXmlParser.cc:331-426`, apart from the resource list: without an
`<Arguments>` element (line 386) nothing is compared. -/
def makeCommand (tab : Table) (c : CommandCall) : Bool :=
  (match c.dest with | none => true | some d => d.made.isSome) &&
  strOk c.name.made &&
  destOk (cmdSym tab c.name) (c.dest.bind Ex.made) &&
  (match c.args with
   | none => true
   | some as =>
     (match cmdSym tab c.name with | some s => countOk s as.length | none => true) &&
     makeArgs (paramsOf (cmdSym tab c.name)) as)

/-! ### The resource list of a command -/

/-- One `<Resource>`: what its children are, in order. -/
inductive ResPart
  | name (n : NameEx) | priority (e : Ex) | upperBound (e : Ex) | release (e : Ex) | junk
deriving DecidableEq, Repr

/-- One child of a `<Resource>` by itself: `commandXmlParser.cc:60-148`. Upper bound and release may
be repeated: the variables that should notice it are declared inside the loop (line 59). -/
def checkResPart : ResPart → Bool
  | .name n => strOk n.checked
  | .priority e => numOk e.checked
  | .upperBound e => numOk e.checked
  | .release e => (match e.checked with | none => false | some t => compatible .boolean t)
  | .junk => false

/-- The names among the parts of a resource, `commandXmlParser.cc:61-81`, `175`. -/
def resNames : List ResPart → List NameEx
  | [] => []
  | .name n :: r => n :: resNames r
  | _ :: r => resNames r

/-- The priorities among the parts of a resource, `commandXmlParser.cc:83-103`. -/
def resPrios : List ResPart → List Ex
  | [] => []
  | .priority e :: r => e :: resPrios r
  | _ :: r => resPrios r

/-- `checkResource`, `commandXmlParser.cc:47-160`. -/
def checkResource (r : List ResPart) : Bool :=
  r.all checkResPart && decide ((resNames r).length = 1) && decide ((resPrios r).length = 1)

/-- The literal name of a resource: `commandXmlParser.cc:175-177`. -/
def litName (r : List ResPart) : Option String :=
  match resNames r with
  | [] => none
  | n :: _ => n.literal

/-- The double loop of `checkResourceList`, `commandXmlParser.cc:172-191`. -/
def noDupNames : List (List ResPart) → Bool
  | [] => true
  | r :: rs =>
    (match litName r with
     | none => true
     | some n => rs.all (fun r' => decide (litName r' ≠ some n))) && noDupNames rs

/-- `checkResourceList`, `commandXmlParser.cc:163-192`. -/
def checkResources (rs : List (List ResPart)) : Bool :=
  rs.all checkResource && noDupNames rs

/-- One child when the command is made: `commandXmlParser.cc:278-318`. -/
def makeResPart : ResPart → Bool
  | .name n => strOk n.made
  | .priority e => (match e.made with | none => false | some t => decide (t = .integer) || decide (t = .unknown))
  | .upperBound e => numOk e.made
  | .release e => (match e.made with | none => false | some t => decide (t = .boolean) || decide (t = .unknown))
  | .junk => false

/-- `finalizeResourceList`, `commandXmlParser.cc:258-328`. -/
def makeResources (rs : List (List ResPart)) : Bool := rs.all (fun r => r.all makeResPart)

/-! ### Which table is in force -/

/-- `s_symbolTable` and `s_symtabStack`, `SymbolTable.cc:289-291`. Tables are named by `τ`. -/
structure Ctx (τ : Type) where
  cur : Option τ := none
  stack : List τ := []

/-- `pushSymbolTable`, `SymbolTable.cc:293-299`. -/
def Ctx.push {τ : Type} (c : Ctx τ) (t : τ) : Ctx τ :=
  match c.cur with
  | none => { cur := some t, stack := c.stack }
  | some x => { cur := some t, stack := x :: c.stack }

/-- `popSymbolTable`, `SymbolTable.cc:301-313`. -/
def Ctx.pop {τ : Type} (c : Ctx τ) : Ctx τ :=
  match c.stack with
  | [] => { c with cur := none }
  | x :: r => { cur := some x, stack := r }

/-- What is done while a file is read: look up a name; fail with an exception; read another file
(a called library) with its own table (`parsePlan.cc:88-97`, `106-124`, `137-147`,
`parseLibraryCall.cc:176-184`); or read one whose failure is caught (`planLibrary.cc:163-176`). -/
inductive Act (τ : Type)
  | use (what : Nat)
  | fail
  | file (t : τ) (acts : List (Act τ))
  | guarded (t : τ) (acts : List (Act τ))

mutual
/-- One action: the context after, what was looked up in which table, and whether it ended without
an exception. `parsePlan.cc:88-97`, `106-124`, `137-147`. -/
def Act.run {τ : Type} (c : Ctx τ) : Act τ → Ctx τ × List (Nat × Option τ) × Bool
  | .use n => (c, [(n, c.cur)], true)
  | .fail => (c, [], false)
  | .file t as =>
    let r := runActs (c.push t) as
    (r.1.pop, r.2.1, r.2.2)
  | .guarded t as =>
    let r := runActs (c.push t) as
    (r.1.pop, r.2.1, true)

/-- Actions in a row; an exception skips the rest. `parsePlan.cc:88-97`. -/
def runActs {τ : Type} (c : Ctx τ) : List (Act τ) → Ctx τ × List (Nat × Option τ) × Bool
  | [] => (c, [], true)
  | a :: as =>
    let r := a.run c
    if r.2.2 then
      let r2 := runActs r.1 as
      (r2.1, r.2.1 ++ r2.2.1, r2.2.2)
    else r
end

end Verif.Decl
