/-
Model of the printing commands. Sources: `/repo/src/exec/plan-utils.cc:38-80`, `/repo/src/app-framework/UtilityAdapter.cc:52-76`.

Simplification. How one value is written (`operator<<` of `Value`) is a function given from outside; output never fails.
-/
set_option autoImplicit false
namespace Verif.Print
variable {V : Type}

/-- The loop of `print_aux`, `plan-utils.cc:40-46`: the stream after it. -/
def loop (shown : V → List Char) (pretty : Bool) : List Char → List V → List Char
  | s, [] => s
  | s, v :: vs => loop shown pretty ((s ++ shown v) ++ (if pretty then [' '] else [])) vs

/-- `print_aux`, `plan-utils.cc:38-50`. -/
def printAux (shown : V → List Char) (s : List Char) (args : List V) (pretty : Bool) : List Char :=
  loop shown pretty s args ++ (if pretty then ['\n'] else [])

/-- The four commands, `UtilityAdapter.cc:91-98`. -/
inductive Cmd
  | print
  | pprint
  | printToString
  | pprintToString
deriving DecidableEq, Repr

/-- What a handler tells the executive, in order. `UtilityAdapter.cc:55, 67-68`. -/
inductive Told
  | result (text : List Char)
  | success
deriving DecidableEq, Repr

/-- The handlers, `UtilityAdapter.cc:52-76`, with `plan-utils.cc:52-80`: standard output afterwards, and what the executive is told. -/
def execute (shown : V → List Char) (out : List Char) (args : List V) : Cmd → List Char × List Told
  | .print => (printAux shown out args false, [.success])
  | .pprint => (printAux shown out args true, [.success])
  | .printToString => (out, [.result (printAux shown [] args false), .success])
  | .pprintToString => (out, [.result (printAux shown [] args true), .success])

/-- A sequence of commands, each as in `UtilityAdapter.cc:52-76`. -/
def session (shown : V → List Char) : List Char → List (Cmd × List V) → List Char
  | out, [] => out
  | out, c :: cs => session shown (execute shown out c.2 c.1).1 cs

end Verif.Print
