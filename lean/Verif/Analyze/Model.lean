/-
Model of the statistics of a plan.
Source: `/repo/src/xml-parser/analyzePlan.cc:53-193`.

A vector is a list; access to an element it does not have is `none` (undefined behaviour). `std::map` is an association list. Statistics of expressions (`RECORD_EXPRESSION_STATS`) are not modelled.
-/
set_option autoImplicit false
namespace Verif.Analyze

/-- `PlexilNodeType`, `PlexilNodeType.hh:52-58`. -/
inductive NType where
  | list | command | assignment | update | empty | call
deriving DecidableEq

/-- What is looked at in a node, `analyzePlan.cc:124-193`: type, `NodeId`, the size of the map of local variables if there is one, the conditions it has (indices below `conditionIndexMax` = 13, as `getNodeCondition`
gives them: the first three are 0, 1, 2, `abortComplete` is 12), children. -/
inductive PNode where
  | mk (type : NType) (id : String) (vars : Option Nat) (conds : List Nat) (kids : List PNode)

/-- Type. (`analyzePlan.cc:162`.) -/
def PNode.type : PNode → NType
  | .mk t _ _ _ _ => t
/-- `NodeId`. (`analyzePlan.cc:177`.) -/
def PNode.id : PNode → String
  | .mk _ i _ _ _ => i
/-- Variables. (`analyzePlan.cc:166`.) -/
def PNode.vars : PNode → Option Nat
  | .mk _ _ v _ _ => v
/-- Conditions. (`analyzePlan.cc:124-140`.) -/
def PNode.conds : PNode → List Nat
  | .mk _ _ _ c _ => c
/-- Children. (`analyzePlan.cc:172`.) -/
def PNode.kids : PNode → List PNode
  | .mk _ _ _ _ k => k

/-- `resize`: `std::vector`, new elements are zero; only used to grow (`analyzePlan.cc:82, 89`). -/
def resize (v : List Nat) (n : Nat) : List Nat := v ++ List.replicate (n - v.length) 0

/-- `++v[i]`; `none` if there is no such element. -/
def inc (v : List Nat) (i : Nat) : Option (List Nat) := if i < v.length then some (v.set i (v.getD i 0 + 1)) else none

/-- `incrementNodeChildCount`, `incrementNodeVariableCount`: `analyzePlan.cc:79-91`. -/
def count (v : List Nat) (n : Nat) : Option (List Nat) := inc (if n ≥ v.length then resize v (n * 2) else v) n

/-- `incrementLibraryCallCount`, `analyzePlan.cc:93-100`. -/
def countLib : List (String × Nat) → String → List (String × Nat)
  | [], n => [(n, 1)]
  | (m, k) :: l, n => if m = n then (m, k + 1) :: l else (m, k) :: countLib l n

/-- The statistics: `analyzePlan.cc:53-77`. -/
structure Stats where
  /-- `g_nodeCount` -/
  nodes : Nat
  /-- `g_nodeTypeCounts` -/
  types : NType → Nat
  /-- `g_nodeChildCounts` -/
  kids : List Nat
  /-- `g_nodeVariableCounts` -/
  vars : List Nat
  /-- `g_conditionCounts` -/
  conds : Nat → Nat
  /-- `g_conditionCountNodes` -/
  condNodes : List Nat
  /-- `g_conditionCountListNodes` -/
  condLists : List Nat
  /-- `g_calledLibs` -/
  libs : List (String × Nat)
  /-- `g_currentCallDepth` -/
  depth : Nat
  /-- `g_maxCallDepth` -/
  maxDepth : Nat

/-- `initializeStatistics`, `analyzePlan.cc:102-122`. -/
def Stats.init : Stats := ⟨0, fun _ => 0, [], [], fun _ => 0, List.replicate 13 0, List.replicate 13 0, [], 0, 0⟩

/-- The conditions the node has: the loop in `getConditionStatistics`, `analyzePlan.cc:146-150`. -/
def PNode.has (p : PNode) : List Nat := (List.range 13).filter fun i => decide (i ∈ p.conds)

/-- `getConditionStatistics`, `analyzePlan.cc:142-154`. -/
def conditions (p : PNode) (s : Stats) : Option Stats :=
  match inc s.condNodes p.has.length with
  | none => none
  | some cn =>
    let s := { s with conds := fun i => s.conds i + (if i ∈ p.has then 1 else 0), condNodes := cn }
    if p.type = .list then
      match inc s.condLists p.has.length with
      | none => none
      | some cl => some { s with condLists := cl }
    else some s

/-- `getNodeStatistics`, the variables: `analyzePlan.cc:166-167`. -/
def variables (p : PNode) (s : Stats) : Option Stats :=
  match p.vars with
  | none => some s
  | some n => match count s.vars n with
    | none => none
    | some v => some { s with vars := v }

/-- `getNodeStatistics` up to the children: `analyzePlan.cc:157-173`. -/
def here (p : PNode) (s : Stats) : Option Stats :=
  match variables p { s with nodes := s.nodes + 1, types := fun t => s.types t + (if t = p.type then 1 else 0) } with
  | none => none
  | some s => match conditions p s with
    | none => none
    | some s => match count s.kids p.kids.length with
      | none => none
      | some k => some { s with kids := k }

mutual
/-- `getNodeStatistics`, `analyzePlan.cc:157-193`. -/
def gather : PNode → Stats → Option Stats
  | .mk t i v c ks, s => match here (.mk t i v c ks) s with
    | none => none
    | some s => match t with
      | .call => match ks with
        | [] => none
        | k :: _ =>
          let d := s.depth + 1
          match gather k { s with libs := countLib s.libs k.id, depth := d, maxDepth := if d > s.maxDepth then d else s.maxDepth } with
          | none => none
          | some s => some { s with depth := s.depth - 1 }
      | _ => gatherAll ks s
/-- The loop over the children: `analyzePlan.cc:189-190`. -/
def gatherAll : List PNode → Stats → Option Stats
  | [], s => some s
  | k :: ks, s => match gather k s with
    | none => none
    | some s => gatherAll ks s
end

/-- `loadAndAnalyzePlan`, `analyzePlan.cc:335-336`. -/
def analyze (p : PNode) : Option Stats := gather p .init

end Verif.Analyze
