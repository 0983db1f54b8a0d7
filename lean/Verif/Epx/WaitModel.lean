import Verif.Epx.Model
import Verif.Lookup.Model
/-
Model of the translation of Wait.
Source: `/repo/schema/epx-translator/wait.xsl`.

The time the LookupOnChange reports is what the model of lookups (`Verif.Lookup`) says; the time the node started EXECUTING and the units are functions of what can be observed. Times are exact numbers.
-/
set_option autoImplicit false
namespace Verif.Epx
open Verif.Node Verif.Exec

variable {Val Env : Type}

/-- `wait-timed-out`, `wait.xsl:72-103`: `GE` of the lookup and the sum. `Comparisons.cc`, `ArithmeticOperators.cc`: unknown if a part is (see C37, C39). -/
def waitOver (reported units start : Option Int) : Option Bool :=
  match reported, units, start with
  | some t, some u, some s => some (decide (t ≥ u + s))
  | _, _, _ => none

/-- `wait-end-condition`, `wait.xsl:51-70`. -/
def waitEnd (own : UCond Val Env) (over : Obs Val Env → Option Bool) : UCond Val Env :=
  match own with
  | none => some over
  | some c => some fun o => or3 (c o) (over o)

/-- `Wait`, `wait.xsl:34-49`. `d` has what the author wrote; `look` is the state of the lookups and lookup `i` that of the node. -/
def waitNode (d : NodeDef Val Env) (look : Env → Verif.Lookup.Sys) (i : Nat) (units start : Obs Val Env → Option Int) : NodeDef Val Env :=
  { d with type := .empty, endc := waitEnd d.endc fun o => waitOver ((look o.env).value i) (units o) (start o) }

end Verif.Epx
