import Verif.Exec.Model
/-
Model of the node predicates of Core PLEXIL and of the translation of Extended PLEXIL constructs to Core PLEXIL.
Sources: `/repo/src/exec/NodeOperators.cc`, `/repo/schema/epx-translator/*.xsl`.

A construct is translated to a list of nodes. The nodes of its actions (already translated) are given with the conditions their author wrote;
the templates add conditions to them. Identifiers generated by the translator (`tr:prefix`) are given as node ids. Only the conditions,
types and children are modelled, not names, source locations or declarations.
-/
set_option autoImplicit false
namespace Verif.Epx
open Verif.Node Verif.Exec

variable {Val Env : Type}

/-! ## Node predicates -/

/-- `NodeInactive`, `NodeOperators.cc:33-42`. -/
def nodeInactive (n : NodeId) (o : Obs Val Env) : Option Bool := some (o.st n == .inactive)
/-- `NodeWaiting`, `NodeOperators.cc:44-53`. -/
def nodeWaiting (n : NodeId) (o : Obs Val Env) : Option Bool := some (o.st n == .waiting)
/-- `NodeExecuting`, `NodeOperators.cc:55-64`. -/
def nodeExecuting (n : NodeId) (o : Obs Val Env) : Option Bool := some (o.st n == .executing)
/-- `NodeIterationEnded`, `NodeOperators.cc:66-75`. -/
def nodeIterationEnded (n : NodeId) (o : Obs Val Env) : Option Bool := some (o.st n == .iterationEnded)
/-- `NodeFinished`, `NodeOperators.cc:77-86`. -/
def nodeFinished (n : NodeId) (o : Obs Val Env) : Option Bool := some (o.st n == .finished)
/-- `NodeSucceeded`, `NodeOperators.cc:88-98`. -/
def nodeSucceeded (n : NodeId) (o : Obs Val Env) : Option Bool := some (o.st n == .finished && o.out n == .success)
/-- `NodeFailed`, `NodeOperators.cc:100-110`. -/
def nodeFailed (n : NodeId) (o : Obs Val Env) : Option Bool := some (o.st n == .finished && o.out n == .failure)
/-- `NodeSkipped`, `NodeOperators.cc:112-121`: the state is not looked at. -/
def nodeSkipped (n : NodeId) (o : Obs Val Env) : Option Bool := some (o.out n == .skipped)
/-- `NodePostconditionFailed`, `NodeOperators.cc:123-132`: neither state nor outcome is looked at. -/
def nodePostconditionFailed (n : NodeId) (o : Obs Val Env) : Option Bool := some (o.fail n == .postFailed)
/-- `NodeNoChildFailed`, `NodeOperators.cc:134-150`, of a node with the given children. -/
def noChildFailed (kids : List NodeId) (o : Obs Val Env) : Option Bool := some (kids.all fun k => !(o.st k == .finished && o.out k == .failure))

/-- The nodes whose changes make a predicate be evaluated again: `doPropagationSources`, the node itself by default (`NodeOperator.hh`), the children for
`NoChildFailed` (`NodeOperators.cc:152-157`). -/
inductive Pred | inactive | waiting | executing | iterationEnded | finished | succeeded | failed | skipped | postconditionFailed | noChildFailed
deriving DecidableEq, Repr

/-- The value of a predicate of node `n` with children `kids`: never unknown. `NodeOperators.cc:33-150`. -/
def Pred.eval (q : Pred) (n : NodeId) (kids : List NodeId) (o : Obs Val Env) : Option Bool :=
  match q with
  | .inactive => nodeInactive n o
  | .waiting => nodeWaiting n o
  | .executing => nodeExecuting n o
  | .iterationEnded => nodeIterationEnded n o
  | .finished => nodeFinished n o
  | .succeeded => nodeSucceeded n o
  | .failed => nodeFailed n o
  | .skipped => nodeSkipped n o
  | .postconditionFailed => nodePostconditionFailed n o
  | .noChildFailed => Epx.noChildFailed kids o

/-- `doPropagationSources`: `/repo/src/exec/NodeOperatorImpl.hh`, `NodeOperators.cc:152-157`. -/
def Pred.sources (q : Pred) (n : NodeId) (kids : List NodeId) : List NodeId :=
  match q with
  | .noChildFailed => kids
  | _ => [n]

/-! ## Operators -/

/-- `NOT`, `/repo/src/expr/BooleanOperators.cc` (see C27). -/
def not3 : Option Bool → Option Bool
  | some b => some (!b)
  | none => none

/-- `OR` of any number of operands, `/repo/src/expr/BooleanOperators.cc` (see C27). -/
def orAll (l : List (Option Bool)) : Option Bool := l.foldr or3 (some false)

/-- A translated construct: nodes with their definitions. (Elements written by the templates, e.g. `sequences.xsl:110-131`.) -/
abbrev Block (Val Env : Type) := List (NodeId × NodeDef Val Env)

/-- The plan contains the nodes of a translated construct. (Reading the result of the translator, `/repo/src/xml-parser/parseNode.cc`.) -/
def Contains (P : Plan Val Env) (b : Block Val Env) : Prop := ∀ x ∈ b, P.node x.1 = x.2

/-! ## Sequences -/

/-- `ordered-start-condition`, `sequences.xsl:146-183`. -/
def orderedStart (prev : NodeId) (own : UCond Val Env) : UCond Val Env :=
  match own with
  | none => some (nodeFinished prev)
  | some c => some fun o => and3 (nodeFinished prev o) (c o)

/-- `ordered-skip-condition`, `sequences.xsl:185-208`. -/
def orderedSkip (prev : NodeId) (own : UCond Val Env) : UCond Val Env :=
  match own with
  | none => none
  | some c => some fun o => and3 (nodeFinished prev o) (c o)

/-- `sequence-linkage`, `sequences.xsl:124-139`, of a node with the given preceding sibling. -/
def linkage (prev : Option NodeId) (d : NodeDef Val Env) : NodeDef Val Env :=
  match prev with
  | none => d
  | some a => { d with start := orderedStart a d.start, skip := orderedSkip a d.skip }

/-- `link-sequence-children`, `sequences.xsl:108-120`. -/
def linkChildren : Option NodeId → Block Val Env → Block Val Env
  | _, [] => []
  | prev, (c, d) :: rest => (c, linkage prev d) :: linkChildren (some c) rest

/-- `UncheckedSequence`, `sequences.xsl:41-52`: node `p`, whose own conditions are those of `d`, with the actions `kids`. -/
def uncheckedSequence (p : NodeId) (d : NodeDef Val Env) (kids : Block Val Env) : Block Val Env :=
  (p, { d with type := .list, children := kids.map Prod.fst }) :: linkChildren none kids

/-- `success-invariant-condition`, `sequences.xsl:78-93`. -/
def successInvariant (kids : List NodeId) (own : UCond Val Env) : UCond Val Env :=
  match own with
  | none => some (noChildFailed kids)
  | some c => some fun o => and3 (c o) (noChildFailed kids o)

/-- `CheckedSequence`, also for `Sequence`: `sequences.xsl:54-76`. -/
def checkedSequence (p : NodeId) (d : NodeDef Val Env) (kids : Block Val Env) : Block Val Env :=
  (p, { d with type := .list, children := kids.map Prod.fst, inv := successInvariant (kids.map Prod.fst) d.inv }) :: linkChildren none kids

/-! ## If -/

/-- `if-then-start-condition` and `if-else-start-condition`, `if-then-else.xsl:101-116, 178-197`. `test` is the condition, or its negation
for the else part. -/
def ifStart (test : Obs Val Env → Option Bool) (own : UCond Val Env) : UCond Val Env :=
  match own with
  | none => some test
  | some c => some fun o => and3 (test o) (c o)

/-- `if-then-skip-condition` and `if-else-skip-condition`, `if-then-else.xsl:118-140, 199-214`. `untest` is the negation of the condition, or the
condition itself for the else part. -/
def ifSkip (untest : Obs Val Env → Option Bool) (own : UCond Val Env) : UCond Val Env :=
  match own with
  | none => some untest
  | some c => some fun o => or3 (untest o) (c o)

/-- The Then node of a basic If, `if-then-else.xsl:76-99`. (If the action has a SkipCondition of its own the translator also copies it,
because `* except StartCondition|SkipCondition` means `(* except StartCondition) | SkipCondition` in XPath; the parser then
rejects the plan, `parseNode.cc:651-656`. The model has what was meant.) -/
def thenNode (cond : Obs Val Env → Option Bool) (d : NodeDef Val Env) : NodeDef Val Env :=
  { d with start := ifStart cond d.start, skip := ifSkip (fun o => not3 (cond o)) d.skip }

/-- The Else node of a basic If, `if-then-else.xsl:156-176`. See `thenNode`. -/
def elseNode (cond : Obs Val Env → Option Bool) (d : NodeDef Val Env) : NodeDef Val Env :=
  { d with start := ifStart (fun o => not3 (cond o)) d.start, skip := ifSkip cond d.skip }

/-- `basic-if-then`, `if-then-else.xsl:63-99`. -/
def ifThen (p : NodeId) (d : NodeDef Val Env) (cond : Obs Val Env → Option Bool) (a : NodeId × NodeDef Val Env) : Block Val Env :=
  [(p, { d with type := .list, children := [a.1] }), (a.1, thenNode cond a.2)]

/-- `basic-if-then-else`, `if-then-else.xsl:142-176`. -/
def ifThenElse (p : NodeId) (d : NodeDef Val Env) (cond : Obs Val Env → Option Bool) (a b : NodeId × NodeDef Val Env) : Block Val Env :=
  [(p, { d with type := .list, children := [a.1, b.1] }), (a.1, thenNode cond a.2), (b.1, elseNode cond b.2)]

/-! ## If with ElseIf -/

/-- `If` or `ElseIf` with its condition and its Then clause; `test` is the generated test node. `if-then-else.xsl:225-268, 326-406`. -/
structure Branch (Val Env : Type) where
  /-- `IfTest` or `ElseIf-n`, `if-then-else.xsl:226-228, 319-324`. -/
  test : NodeId
  /-- The Condition element. -/
  cond : Obs Val Env → Option Bool
  /-- The Then element's action, or the list around it if that has a Start or Skip condition (`if-clause-body`, `if-then-else.xsl:276-293`). -/
  clause : NodeId × NodeDef Val Env

/-- `if-clause-body`, `if-then-else.xsl:270-317`. -/
def clauseNode (start skip : Obs Val Env → Option Bool) (d : NodeDef Val Env) : NodeDef Val Env := { d with start := some start, skip := some skip }

/-- The SkipCondition of what follows a test, `if-then-else.xsl:367-385, 425-434, 449-453`: the preceding test was skipped (not written if it is `IfTest`)
or succeeded. -/
def testSkip (first : Bool) (prev : NodeId) (o : Obs Val Env) : Option Bool :=
  if first then nodeSucceeded prev o else or3 (nodeSkipped prev o) (nodeSucceeded prev o)

/-- The SkipCondition of a clause, `if-then-else.xsl:239-243, 394-403`. -/
def clauseSkip (first : Bool) (test : NodeId) (o : Obs Val Env) : Option Bool :=
  if first then nodePostconditionFailed test o else or3 (nodeSkipped test o) (nodePostconditionFailed test o)

/-- `elseif-clause` for each `ElseIf`, then `else-clause`: `if-then-else.xsl:326-457`. `prev` is the preceding test, `first` if that is `IfTest`.
`anc` are the ancestors of the children. -/
def elseIfs (anc : List NodeId) (v : Obs Val Env → Val) : Bool → NodeId → List (Branch Val Env) → Option (NodeId × NodeDef Val Env) → Block Val Env
  | _, _, [], none => []
  | first, prev, [], some e => [(e.1, clauseNode (nodePostconditionFailed prev) (testSkip first prev) e.2)]
  | first, prev, b :: rest, e =>
    (b.test, { type := .empty, anc := anc, start := some (nodePostconditionFailed prev), skip := some (testSkip first prev), post := some b.cond, rhs := v }) ::
      (b.clause.1, clauseNode (nodeSucceeded b.test) (clauseSkip false b.test) b.clause.2) :: elseIfs anc v false b.test rest e

/-- `generalized-if`, `if-body`: `if-then-else.xsl:216-268`. -/
def ifElseIf (p : NodeId) (d : NodeDef Val Env) (b : Branch Val Env) (rest : List (Branch Val Env)) (els : Option (NodeId × NodeDef Val Env)) : Block Val Env :=
  (p, { d with type := .list, children := b.test :: b.clause.1 :: (elseIfs (p :: d.anc) d.rhs true b.test rest els).map Prod.fst }) ::
    (b.test, { type := .empty, anc := p :: d.anc, post := some b.cond, rhs := d.rhs }) ::
    (b.clause.1, clauseNode (nodeSucceeded b.test) (clauseSkip true b.test) b.clause.2) :: elseIfs (p :: d.anc) d.rhs true b.test rest els

/-! ## While -/

/-- The test node of `while-body-1`, `while.xsl:85-92`, under parent `p` with ancestors `anc`: Empty, with the loop condition as post condition.
(`rhs` is not used by Empty nodes.) -/
def testNode (anc : List NodeId) (cond : Obs Val Env → Option Bool) (v : Obs Val Env → Val) : NodeDef Val Env :=
  { type := .empty, anc := anc, post := some cond, rhs := v }

/-- `while-body-conds`, `while.xsl:143-160`. -/
def whileAction (test : NodeId) (d : NodeDef Val Env) : NodeDef Val Env :=
  { d with start := some (nodeSucceeded test), skip := some (nodePostconditionFailed test) }

/-- `while-body-1`, `while.xsl:74-104`, for the node `p` that carries it: the While node itself if it has no declarations, mutexes, Repeat or Start condition,
else the wrapper (`while.xsl:52-72`). The action is the node the author wrote, or a list around it if that has a Start or Skip condition
(`while-body-2`, `while.xsl:106-141`). -/
def whileLoop (p : NodeId) (d : NodeDef Val Env) (test : NodeId) (cond : Obs Val Env → Option Bool) (a : NodeId × NodeDef Val Env) : Block Val Env :=
  [(p, { d with type := .list, children := [test, a.1], rep := some (nodeSucceeded test) }),
   (test, testNode (p :: d.anc) cond d.rhs),
   (a.1, whileAction test a.2)]

/-! ## Try -/

/-- `try-end-condition`, `try.xsl:70-99`, for a Try without EndCondition of its own (with one, the translator puts the whole EndCondition element into the
disjunction, which the parser rejects): all but the last child Succeeded, or the last one Finished. -/
def tryEnd (kids : List NodeId) : UCond Val Env :=
  if kids.length < 2 then none
  else some fun o => orAll ((kids.dropLast.map fun k => nodeSucceeded k o) ++ (kids.getLast?.map fun k => nodeFinished k o).toList)

/-- `try-post-condition`, `try.xsl:101-145`, for a Try without PostCondition of its own (see `tryEnd`). (With no children the translator writes an empty
PostCondition, which the parser rejects; the model has none.) -/
def tryPost (kids : List NodeId) : UCond Val Env :=
  match kids with
  | [] => none
  | [k] => some (nodeSucceeded k)
  | kids => some fun o => orAll (kids.map fun k => nodeSucceeded k o)

/-- `Try`, `try.xsl:42-68`. -/
def tryNode (p : NodeId) (d : NodeDef Val Env) (kids : Block Val Env) : Block Val Env :=
  (p, { d with type := .list, children := kids.map Prod.fst, endc := tryEnd (kids.map Prod.fst), post := tryPost (kids.map Prod.fst) }) ::
    linkChildren none kids

/-! ## For -/

/-- The inner loop node of `for-body`, `for.xsl:64-115`: skipped when the condition is false, repeats for ever; the action, then the update of
the loop variable. -/
def forLoop (loop : NodeId) (anc : List NodeId) (cond : Obs Val Env → Option Bool) (a : NodeId × NodeDef Val Env) (upd : NodeId) (var : Nat)
    (next : Obs Val Env → Val) : Block Val Env :=
  [(loop, { type := .list, anc := anc, children := [a.1, upd], skip := some fun o => not3 (cond o), rep := some fun _ => some true, rhs := next }),
   a,
   (upd, { type := .assignment, anc := loop :: anc, start := some (nodeFinished a.1), dest := var, rhs := next })]

/-! ## Do -/

/-- `do-body`, `do.xsl:79-124`, the simple case: the action with the condition as RepeatCondition. (An action that has a RepeatCondition gets a wrapper, `do.xsl:126-138`, that is not a
valid node: its type is `ListNode` and its body has no NodeList.) -/
def doLoop (cond : Obs Val Env → Option Bool) (a : NodeId × NodeDef Val Env) : Block Val Env := [(a.1, { a.2 with rep := some cond })]

end Verif.Epx
