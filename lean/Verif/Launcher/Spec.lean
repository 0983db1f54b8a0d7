import Verif.Launcher.Model
set_option autoImplicit false
/-! What C107 to C109 say, without the launcher's own functions. -/
namespace Verif.Launcher
open Verif.Text

/-- A string without a zero byte. -/
def NoNul (s : List Char) : Prop := '\x00' ∉ s

/-- No string among the arguments of a command has a zero byte, and reals are written without. -/
def Plain {R : Type} (rd : Reals R) (args : List (Val R)) : Prop :=
  ∀ v ∈ args, (∀ s, v = .str s → NoNul s) ∧ (∀ r, v = .real r → NoNul (rd.print r))

/-- What a value becomes on its way through the text of a plan: nothing but reals can change, and those as much as writing and reading changes them. Unknown values and arrays do not get
through; neither do three of the command handles. -/
inductive Arrives {R : Type} (rd : Reals R) : Val R → Val R → Prop
  | bool (b : Bool) : Arrives rd (.bool b) (.bool b)
  | int (i : BitVec 32) : Arrives rd (.int i) (.int i)
  | str (s : List Char) : Arrives rd (.str s) (.str s)
  | state (x : NState) : x ≠ .none → Arrives rd (.state x) (.state x)
  | outcome (x : Outcome) : x ≠ .none → Arrives rd (.outcome x) (.outcome x)
  | failure (x : Failure) : x ≠ .none → Arrives rd (.failure x) (.failure x)
  | handle (x : Handle) : x ∈ [Handle.sent, .accepted, .rcvd, .failed, .denied, .success] → Arrives rd (.handle x) (.handle x)
  | real (r r' : R) : parseReal rd (rd.print r) = .known r' → Arrives rd (.real r) (.real r')
  | realUnknown (r : R) : parseReal rd (rd.print r) = .unknown → Arrives rd (.real r) .unknown

/-- The arguments of a good `StartPlan`: the library's name; then, in turn, the names of its parameters, all different and not empty, and their values, which arrive as `got`; and the
library is there and takes them. -/
def Startable {R : Type} (rd : Reals R) (L : Libs R) (args : List (Val R)) (name : List Char) (got : List (List Char × Val R)) : Prop :=
  ∃ given : List (List Char × Val R), args = .str name :: given.flatMap (fun p => [.str p.1, p.2]) ∧ name ≠ [] ∧
    (given.map Prod.fst).Nodup ∧ (∀ p ∈ given, p.1 ≠ []) ∧ List.Forall₂ (fun p q => p.1 = q.1 ∧ Arrives rd p.2 q.2) given got ∧
    ∃ accepts, L name = some accepts ∧ accepts got = true

/-- The value of a state after some publications: the last one, if any. -/
def board {R : Type} (ks : List (Call R)) (name arg : List Char) : Option Pub :=
  (ks.reverse.findSome? (fun k => match k with | .value n a v => if n = name ∧ a = arg then some v else none | _ => none))

/-- The thing that happens concerns the command `c`: it is one of the launcher's commands with that name, or a reply to it. -/
def Concerns {R : Type} (c : Nat) : Act R → Prop
  | .start d _ => d = c
  | .exit d _ => d = c
  | .other (.ret d _) => d = c
  | .other (.ack d _) => d = c
  | _ => False

/-- Nobody but the launcher publishes `ExitPlan`. -/
def Honest {R : Type} : Act R → Prop
  | .other (.value n _ _) => n ≠ "ExitPlan".toList
  | _ => True

/-- All new states in a history of cycles of root nodes with a given identifier, in order. -/
def rootStates {N : Type} (h : List ((N → Info) × List (N × NState))) (id : List Char) : List NState :=
  h.flatMap (fun b => (b.2.filter (fun t => (b.1 t.1).root && (b.1 t.1).id = id)).map Prod.snd)

/-- The outcome and failure type of a node at the end of a history of cycles; none before the first. -/
def after {N : Type} (n : N) (h : List ((N → Info) × List (N × NState))) : Outcome × Failure :=
  match h.getLast? with
  | some b => ((b.1 n).outcome, (b.1 n).failure)
  | none => (.none, .none)

/-- A root plan that runs once, like those the launcher starts: no other root plan has its identifier; its outcome changes only in a cycle in which it makes a transition, and not again once it has
one (there is no repeat condition); a failure type comes with an outcome. -/
structure Once {N : Type} (n : N) (id : List Char) (h : List ((N → Info) × List (N × NState))) : Prop where
  is : ∀ b ∈ h, (b.1 n).root = true ∧ (b.1 n).id = id
  alone : ∀ b ∈ h, ∀ m, (b.1 m).root = true → (b.1 m).id = id → m = n
  steady : ∀ pre b post, h = pre ++ b :: post → ((after n pre).1 ≠ .none ∨ n ∉ b.2.map Prod.fst) → after n (pre ++ [b]) = after n pre
  failed : ∀ b ∈ h, (b.1 n).outcome = .none → (b.1 n).failure = .none

end Verif.Launcher
