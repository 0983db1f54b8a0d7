import Verif.Exec.NotifySpec
/-
Specification: a plan told to exit.
-/
set_option autoImplicit false
namespace Verif.Exec
open Verif.Node

variable {Val Env : Type}

/-- The exit condition of node `r` is there and true. -/
def ToldToExit (P : Plan Val Env) (r : NodeId) (o : Obs Val Env) : Prop := ∃ c, (P.node r).exit = some c ∧ c o = some true

/-- `k` is `r` or a node underneath it. -/
def Within (P : Plan Val Env) (r k : NodeId) : Prop := k = r ∨ r ∈ (P.node k).anc

/-- How many transitions of node `k` a history reports. -/
def moves (k : NodeId) : List (Event Val Env) → Nat
  | [] => 0
  | .trans n _ _ _ :: rest => (if n = k then 1 else 0) + moves k rest
  | _ :: rest => moves k rest

/-- The nodes form finite trees: the ancestors of a child are its parent and the parent's ancestors, only lists have children, and
something grows from each child to its parent. -/
structure PlanTree (P : Plan Val Env) : Prop where
  child : ∀ p c, c ∈ (P.node p).children → (P.node c).anc = p :: (P.node p).anc
  parent : ∀ p c l, (P.node c).anc = p :: l → c ∈ (P.node p).children ∧ (P.node p).type = .list ∧ l = (P.node p).anc
  finite : ∃ h : NodeId → Nat, ∀ p c, c ∈ (P.node p).children → h c < h p

end Verif.Exec
