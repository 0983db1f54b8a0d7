/-
Model of how the application finds the factories of its components (interface adapters, listeners, listener filters), loading libraries for them.
Source: `/repo/src/app-framework/AdapterFactory.cc`, `ExecListenerFactory.cc`, `ExecListenerFilterFactory.cc` and their headers, `/repo/src/utils/DynamicLoader.cc`.

A function of a library is known by what it registers when it is called; a function that is not an initialisation function of a module (`foreign`) must not be called as one. What else is run when a library is opened is left out. The symbols of a library are those
found with its handle, those of the libraries it depends on included. A factory is a number: the first one made is 0.
What stands before the name of the type is known (the configuration is there and has a type) is left out, and so is making the component itself.
-/
set_option autoImplicit false
namespace Verif.Factory

/-- The three kinds of factories with a table of their own. `AdapterFactory.cc:98`, `ExecListenerFactory.cc:114`, `ExecListenerFilterFactory.cc:119`. -/
inductive Kind where
  | adapter | listener | filter
deriving DecidableEq, Repr

/-- The tables, and what became of the factories: those destroyed, and those whose constructor went on after they had been destroyed. `AdapterFactory.cc:98-107`, `ExecListenerFactory.cc:114-122`. -/
structure Reg where
  map : List ((Kind × String) × Nat)
  next : Nat
  freed : List Nat
  broken : List Nat

/-- Nothing registered. `AdapterFactory.cc:100`. -/
def Reg.new : Reg := ⟨[], 0, [], []⟩

/-- `find` in the table of the kind. `AdapterFactory.cc:65`, `ExecListenerFactory.cc:85`, `ExecListenerFilterFactory.cc:81`. -/
def Reg.get (r : Reg) (k : Kind × String) : Option Nat := (r.map.find? fun p => decide (p.1 = k)).map (·.2)

/-- A factory is made with that name: its base class registers it while it is constructed (`AdapterFactory.hh:93-97`, `ExecListenerFactory.hh:108-112`, `ExecListenerFilterFactory.hh:100-104`). `registerFactory`: `AdapterFactory.cc:122-127` puts it in the place of
another with the name, which is destroyed; `ExecListenerFactory.cc:138-152` and `ExecListenerFilterFactory.cc:143-157` destroy the new one, whose constructor then goes on. -/
def Reg.register (r : Reg) (k : Kind × String) : Reg :=
  match r.get k with
  | none => { r with map := r.map ++ [(k, r.next)], next := r.next + 1 }
  | some old =>
    if k.1 = .adapter then { r with map := r.map.map fun p => if p.1 = k then (k, r.next) else p, next := r.next + 1, freed := r.freed ++ [old] }
    else { r with next := r.next + 1, freed := r.freed ++ [r.next], broken := r.broken ++ [r.next] }

/-- `purge` of all kinds, at the end. `AdapterFactory.cc:112-115`, `ExecListenerFactory.cc:128-131`, `ExecListenerFilterFactory.cc:133-136`. -/
def Reg.purge (r : Reg) : Reg := { r with map := [], freed := r.freed ++ r.map.map (·.2) }

/-- A function that can be found by its name: an initialisation function, by what it registers, or another one. `DynamicLoader.cc:159-176`. -/
inductive Fn where
  | init (regs : List (Kind × String))
  | foreign
deriving DecidableEq, Repr

/-- What there is to be found: the functions of the program itself and what it was linked with, and the files that can be opened as libraries, with the functions in them. `DynamicLoader.cc:72-87, 131-149`. -/
structure World where
  own : String → Option Fn
  files : String → Option (String → Option Fn)

/-- The process: the libraries opened (`s_handles`, `DynamicLoader.cc:43`), in the order they were opened; the names tried; the tables; and whether a function was called that is not an initialisation function. -/
structure Proc where
  opened : List String
  tried : List String
  reg : Reg
  undefined : Bool

/-- `findSymbol` with the default handle, `DynamicLoader.cc:131-149`: the program first, then what was opened, in order (`RTLD_GLOBAL`, `:76`). -/
def visible (W : World) (p : Proc) (s : String) : Option Fn :=
  match W.own s with
  | some f => some f
  | none => p.opened.findSome? fun l => (W.files l).bind fun m => m s

/-- The call in `initModule`, `DynamicLoader.cc:169-171`. -/
def Proc.call (p : Proc) : Fn → Proc
  | .init regs => { p with reg := regs.foldl Reg.register p.reg }
  | .foreign => { p with undefined := true }

/-- `tryLoadFile`, `DynamicLoader.cc:72-87`: whether it could be opened. -/
def tryLoadFile (W : World) (p : Proc) (file : String) : Bool × Proc :=
  if (W.files file).isSome then (true, { p with opened := p.opened ++ [file], tried := p.tried ++ [file] }) else (false, { p with tried := p.tried ++ [file] })

/-- The loop in `loadLibrary`, `DynamicLoader.cc:107-116`. -/
def loadExt (W : World) (lib : String) : List String → Proc → Option String × Proc
  | [], p => (none, p)
  | e :: es, p => let r := tryLoadFile W p (lib ++ e); if r.1 then (some (lib ++ e), r.2) else loadExt W lib es r.2

/-- `loadLibrary`, `DynamicLoader.cc:96-121`. The extensions: `:41`. -/
def loadLibrary (W : World) (p : Proc) (lib : String) : Option String × Proc :=
  let r := tryLoadFile W p lib
  if r.1 then (some lib, r.2) else loadExt W lib [".so", ".dylib"] r.2

/-- The name of the library, `DynamicLoader.cc:216-225`. -/
def libName (name : String) (path : Option String) : String :=
  match path with
  | some s => if s = "" then "lib" ++ name else s
  | none => "lib" ++ name

/-- `dynamicLoadModule`, `DynamicLoader.cc:205-247`. -/
def loadModule (W : World) (p : Proc) (name : String) (path : Option String) : Bool × Proc :=
  match visible W p ("init" ++ name) with
  | some f => (true, p.call f)
  | none =>
    let r := loadLibrary W p (libName name path)
    match r.1 with
    | none => (false, r.2)
    | some file =>
      match (W.files file).bind fun m => m ("init" ++ name) with
      | some f => (true, r.2.call f)
      | none => (false, r.2)

/-- `createInstance`: the factory that is used for that type. `AdapterFactory.cc:52-92`, `ExecListenerFactory.cc:81-112`, `ExecListenerFilterFactory.cc:78-111`. -/
def createInstance (W : World) (p : Proc) (k : Kind) (name : String) (path : Option String) : Option Nat × Proc :=
  match p.reg.get (k, name) with
  | some id => (some id, p)
  | none =>
    let r := loadModule W p name path
    if r.1 then (r.2.reg.get (k, name), r.2) else (none, r.2)

/-! ### Timebases -/

/-- A timebase factory by its name and priority; the table is ordered by name. `TimebaseFactory.hh:73-140`. -/
structure TB (κ : Type) where
  name : κ
  priority : Int
  id : Nat
deriving DecidableEq, Repr

/-- Registration while the factory is constructed: `factoryMap()[name].reset(this)`, `TimebaseFactory.cc:116-121`. -/
def TB.register {κ : Type} [LT κ] [DecidableEq κ] [DecidableLT κ] (t : TB κ) : List (TB κ) → List (TB κ)
  | [] => [t]
  | u :: us => if t.name = u.name then t :: us else if t.name < u.name then t :: u :: us else u :: TB.register t us

/-- `get`, `TimebaseFactory.cc:65-73`. -/
def TB.get {κ : Type} [DecidableEq κ] (m : List (TB κ)) (n : κ) : Option (TB κ) := m.find? fun t => decide (t.name = n)

/-- The least `int`. `TimebaseFactory.cc:83`. -/
def intMin : Int := -2147483648

/-- The loop of `getBest`, `TimebaseFactory.cc:85-90`. -/
def bestLoop {κ : Type} : List (TB κ) → Int → Option (TB κ) → Option (TB κ)
  | [], _, b => b
  | t :: ts, p, b => if t.priority > p then bestLoop ts t.priority (some t) else bestLoop ts p b

/-- `getBest`, `TimebaseFactory.cc:75-95`. -/
def getBest {κ : Type} (m : List (TB κ)) : Option (TB κ) := bestLoop m intMin none

/-- `makeTimebase`, `TimebaseFactory.cc:42-63`: the factory used; none: an error is raised. -/
def makeTimebase {κ : Type} [DecidableEq κ] (m : List (TB κ)) (type : Option κ) : Option (TB κ) :=
  match type with
  | some n => TB.get m n
  | none => getBest m

end Verif.Factory
