{"id": "C01", "title": "Node transitions follow the PLEXIL state diagram", "statement": "Whatever its conditions evaluate to (true, false, unknown, absent), a node of any type only ever moves along the documented state diagram: INACTIVE->WAITING|FINISHED, WAITING->EXECUTING|FINISHED|ITERATION_ENDED, EXECUTING->FINISHING|FAILING|ITERATION_ENDED|FINISHED as its type allows, FINISHING->ITERATION_ENDED|FAILING, FAILING->ITERATION_ENDED|FINISHED, ITERATION_ENDED->WAITING|FINISHED, FINISHED->INACTIVE. In particular an Empty node is never FINISHING or FAILING, Update and Assignment nodes are never FINISHING, and no 'invalid state' error branch of the transition code can be reached.", "quantifier": "every node type, every current state, every valuation of the 13 conditions and parent state; every execution history of a plan", "why_tests_cant": "the condition space is 3^13 per state and type and the reachable histories are unbounded; unit tests check selected rows", "anchors": ["src/exec/NodeImpl.cc:getDestState*/transition*", "src/exec/ListNode.cc", "src/exec/CommandNode.cc", "src/exec/AssignmentNode.cc", "src/exec/UpdateNode.cc"]}
{"id": "C02", "title": "Condition precedence and the outcome it produces", "statement": "When several conditions hold at once the reason recorded for leaving a state is decided by the fixed precedence AncestorExit > Exit > AncestorInvariant > Invariant > End (for Assignment nodes, after the assignment has completed), with outcome/failure (INTERRUPTED,PARENT_EXITED), (INTERRUPTED,EXITED), (FAILURE,PARENT_FAILED), (FAILURE,INVARIANT_CONDITION_FAILED), then SUCCESS or (FAILURE,POST_CONDITION_FAILED); from WAITING: AncestorExit, Exit, AncestorInvariant false, AncestorEnd, Skip all give SKIPPED, and a node starts only if Start is true (absent counts as true) and Pre is true. From INACTIVE an EXECUTING parent lets the node wait unless AncestorExit or AncestorEnd is true or AncestorInvariant false (then SKIPPED); a FAILING node leaves FAILING exactly when its abort (Assignment, Command) or action (Update, List) is complete, to FINISHED if an ancestor was the cause and to ITERATION_ENDED otherwise; a FINISHED node resets exactly when its parent is WAITING.", "quantifier": "every node type and every valuation of its conditions, including unknown", "why_tests_cant": "exhaustive over the joint valuation of all conditions; tests flip one condition at a time", "anchors": ["src/exec/NodeImpl.cc:getDestStateFromWaiting", "src/exec/NodeImpl.cc:getDestStateFromExecuting", "src/exec/CommandNode.cc:getDestStateFromFinishing"]}
{"id": "C03", "title": "Outcome and failure type are always consistent", "statement": "In every reachable state of a plan: a node that is INACTIVE, WAITING, EXECUTING or FINISHING has no outcome and no failure type; a node in ITERATION_ENDED or FINISHED has an outcome; the failure type is set exactly when the outcome is FAILURE or INTERRUPTED; and a node in FAILING already carries the failure that caused it.", "quantifier": "every plan, every sequence of external events and steps", "why_tests_cant": "invariant over unbounded histories with repeats and resets", "anchors": ["src/exec/NodeImpl.cc:transition", "src/exec/NodeImpl.cc:reset"]}
{"id": "C04", "title": "Repeating a node starts from a clean slate", "statement": "Whenever a node re-enters WAITING (repeat) or INACTIVE (parent repeats) its outcome and failure type have been cleared, so results of an earlier iteration are never visible as results of the next.", "quantifier": "every history, any number of iterations", "why_tests_cant": "needs an unbounded number of iterations of arbitrary plans", "anchors": ["src/exec/NodeImpl.cc:reset", "src/exec/NodeImpl.cc:transitionFromIterationEnded", "src/exec/NodeImpl.cc:transitionFromFinished"]}
{"id": "C05", "title": "Children run only while their parent allows it", "statement": "A child leaves INACTIVE for WAITING only while its parent is EXECUTING; when the parent is FINISHED an INACTIVE child becomes FINISHED with outcome SKIPPED; a FINISHED child becomes INACTIVE again only while its parent is WAITING; a list node leaves FINISHING or FAILING for ITERATION_ENDED or FINISHED only when every child is WAITING or FINISHED.", "quantifier": "every plan tree, every valuation, every history", "why_tests_cant": "quantifies over arbitrary trees and interleavings", "anchors": ["src/exec/NodeImpl.cc:getDestStateFromInactive", "src/exec/NodeImpl.cc:getDestStateFromFinished", "src/exec/ListNode.cc:AllWaitingOrFinished"]}
{"id": "C06", "title": "A list node that has ended its iteration has no active descendants", "statement": "When a list node reaches ITERATION_ENDED or FINISHED, none of its children is EXECUTING, FINISHING, FAILING or ITERATION_ENDED, i.e. nothing below it is still running.", "quantifier": "every plan, every history", "why_tests_cant": "races between a parent's and a child's transition in one micro step need adversarial plans", "anchors": ["src/exec/ListNode.cc:getDestStateFromFinishing", "src/exec/NodeImpl.cc:getDestStateFromWaiting", "src/exec/PlexilExec.cc:step"]}
{"id": "C07", "title": "A micro step is synchronous and order independent", "statement": "All nodes that transition in one micro step do so on the basis of the conditions as they were at the start of the micro step; the resulting node states, outcomes and failure types do not depend on the order in which nodes were queued.", "quantifier": "every plan without resource contention, every order of the check queue", "why_tests_cant": "all permutations of all queues over all plans", "anchors": ["src/exec/PlexilExec.cc:step"]}
{"id": "C08", "title": "No enabled transition is forgotten (quiescence)", "statement": "When a macro step ends with nothing left to check, no node has an enabled transition, other than nodes that need a mutex or variable and have to wait for it, provided every change of a condition notifies the node.", "quantifier": "every plan, every history, every notification order", "why_tests_cant": "absence of lost wake-ups is a property of all schedules", "anchors": ["src/exec/PlexilExec.cc:step", "src/exec/NodeImpl.cc:notify", "src/exec/PlexilExec.cc:resourceCheckEligible"]}
{"id": "C09", "title": "A node waiting for a resource is eventually reconsidered", "statement": "A node that was ready to execute but had to wait for a mutex or variable, and whose start condition then becomes false and true again, is reconsidered (it is in the check queue or the pending queue whenever its status says so).", "quantifier": "every history of notifications, releases and steps", "why_tests_cant": "needs a specific three-party interleaving over several macro steps", "anchors": ["src/exec/PlexilExec.cc:resourceCheckEligible", "src/exec/PlexilExec.cc:resolveResourceConflicts", "src/exec/NodeImpl.cc:notify"]}
{"id": "C10", "title": "Mutual exclusion on mutexes and assignment variables", "statement": "At any time a mutex or variable is held by at most one node; a node transitions to EXECUTING only if it holds every mutex it names (and, for an Assignment, its variable); no acquisition takes a resource away from its holder.", "quantifier": "every set of nodes and resources, every sequence of acquire/release requests", "why_tests_cant": "safety over all interleavings", "anchors": ["src/expr/Reservable.cc", "src/exec/NodeImpl.cc:tryResourceAcquisition", "src/exec/PlexilExec.cc:resolveResourceConflicts"]}
{"id": "C11", "title": "Acquisition is all or nothing", "statement": "If a node cannot get all of its resources, after the attempt it holds none of them and it is on the wait list of every mutex it needs, so that a later release will wake it.", "quantifier": "every node, every assignment of holders", "why_tests_cant": "all subsets of busy resources", "anchors": ["src/exec/NodeImpl.cc:tryResourceAcquisition"]}
{"id": "C12", "title": "Mutexes are released when their node stops", "statement": "When a node reaches ITERATION_ENDED or FINISHED it no longer holds any mutex.", "quantifier": "every node type, every way of leaving EXECUTING/FAILING/FINISHING", "why_tests_cant": "depends on the path (parent exit, parent failure, own end)", "anchors": ["src/exec/NodeImpl.cc:transitionToFinished", "src/exec/NodeImpl.cc:transitionToIterationEnded", "src/exec/AssignmentNode.cc:transitionToFinished"]}
{"id": "C13", "title": "Better priority wins, ties are first come first served", "statement": "The pending queue is always ordered by priority (numerically lowest first) and, within one priority, by time of insertion; among nodes competing for a free resource in one step the one first in that order gets it.", "quantifier": "every sequence of insertions and removals", "why_tests_cant": "all sequences", "anchors": ["src/utils/LinkedQueue.hh:PriorityQueue::insert", "src/exec/PlexilExec.cc:resolveResourceConflicts"]}
{"id": "C14", "title": "Assignment commits the value computed when the node started", "statement": "After the macro step in which an Assignment node starts executing, the variable holds the value its right-hand side had at the moment the node started, regardless of what other assignments were performed in the same step.", "quantifier": "every plan, every batch of assignments", "why_tests_cant": "all batches and orders", "anchors": ["src/exec/Assignment.cc", "src/exec/PlexilExec.cc:performAssignments"]}
{"id": "C15", "title": "Interrupting an assignment restores the previous value", "statement": "If an Assignment node is interrupted (exit or invariant failure, own or ancestor's), the retraction gives the variable back exactly the value (known or unknown) it had before the node started.", "quantifier": "every variable type, every prior value", "why_tests_cant": "all values incl. unknown, all types", "anchors": ["src/exec/Assignment.cc:retract", "src/expr/UserVariable.cc:restoreSavedValue"]}
{"id": "C16", "title": "Side effects of a macro step happen in a fixed order and exactly once", "statement": "Each macro step performs every scheduled assignment once, then retractions, then hands each scheduled command to the interface exactly once (executed or denied), then aborts, then updates; nothing scheduled is lost or repeated.", "quantifier": "every content of the output queues", "why_tests_cant": "arbitrary queue contents", "anchors": ["src/exec/PlexilExec.cc:performAssignments", "src/exec/PlexilExec.cc:executeOutboundQueue"]}
{"id": "C17", "title": "Resource arbitration never over-allocates", "statement": "For every resource the total amount allocated to running commands stays between 0 and the declared maximum (1.0 if undeclared), over every history of arbitration rounds and command terminations.", "quantifier": "every resource hierarchy, every history of command batches and releases", "why_tests_cant": "unbounded histories, arbitrary weights", "anchors": ["src/intfc/ResourceArbiterInterface.cc:optimalResourceArbitration", "src/intfc/ResourceArbiterInterface.cc:releaseResourcesForCommand"]}
{"id": "C18", "title": "Arbitration decides every command exactly once", "statement": "Each command submitted to a round ends in exactly one of the accepted and rejected queues, the input queue is emptied, and a command that requests no resources is always accepted.", "quantifier": "every batch", "why_tests_cant": "arbitrary batches", "anchors": ["src/intfc/ResourceArbiterInterface.cc:arbitrateCommands", "src/intfc/ResourceArbiterInterface.cc:partitionCommands"]}
{"id": "C19", "title": "Arbitration is greedy in priority order", "statement": "Commands are considered in order of priority (ties in submission order) and a command is rejected only if adding its requests to what has been accepted before it would push some resource outside its limits; a rejected command does not affect later decisions.", "quantifier": "every batch and every allocation state", "why_tests_cant": "arbitrary batches", "anchors": ["src/intfc/ResourceArbiterInterface.cc:optimalResourceArbitration"]}
{"id": "C20", "title": "Releasing a command returns exactly what it took", "statement": "When a command with releasable resources terminates, the allocation of every resource returns to what it would have been had the command never been accepted; resources marked not releasable stay allocated.", "quantifier": "every allocation state, every command", "why_tests_cant": "arbitrary states", "anchors": ["src/intfc/ResourceArbiterInterface.cc:releaseResourcesForCommand", "src/intfc/CommandImpl.cc:deactivate"]}
{"id": "C21", "title": "The intrusive queue behaves like a FIFO list", "statement": "Any sequence of push, pop, remove, remove_if, clear and priority insert on a linked queue has the effect of the same operations on a plain sequence: contents, order, front, emptiness and size agree, every removed element's link is cleared so that it can be queued again, and no element of another queue is touched.", "quantifier": "every operation sequence, every item", "why_tests_cant": "unbounded operation sequences over pointer structures", "anchors": ["src/utils/LinkedQueue.hh"]}
{"id": "C22", "title": "insert_after keeps the queue well formed", "statement": "Inserting an item after a given position leaves a well-formed queue in which the item directly follows that position and later pushes go to the end.", "quantifier": "every queue, every position", "why_tests_cant": "all positions incl. the last", "anchors": ["src/utils/LinkedQueue.hh:insert_after"]}
{"id": "C23", "title": "Scalar values survive serialization", "statement": "Serializing any Boolean, Integer, Real (every bit pattern, NaN included), String shorter than 2^24 bytes or command handle and deserializing the bytes yields the same value and consumes exactly the bytes written; the number of bytes written equals serialSize.", "quantifier": "every value", "why_tests_cant": "2^64 reals, unbounded strings", "anchors": ["src/value/ValueType.cc:serialize", "src/value/ValueType.cc:deserialize", "src/value/Value.cc:serialize"]}
{"id": "C24", "title": "Arrays survive serialization", "statement": "Serializing any array (of any element type, with any pattern of unknown elements, fewer than 2^24 elements) and deserializing yields the same array and consumes exactly the bytes written, which number serialSize.", "quantifier": "every array of every size", "why_tests_cant": "sizes up to 2^24", "anchors": ["src/value/ArrayImpl.cc:serialize", "src/value/ArrayImpl.cc:deserialize"]}
{"id": "C25", "title": "Oversized data is refused, not truncated", "statement": "Serializing a string or array with 2^24 or more elements reports failure instead of producing a truncated encoding.", "quantifier": "every size", "why_tests_cant": "needs sizes beyond 16 million", "anchors": ["src/value/ValueType.cc:serialize<String>", "src/value/ArrayImpl.cc:serialize"]}
{"id": "C26", "title": "Value ordering is a strict weak order consistent with equality", "statement": "Comparison of values used as keys (states with parameters) is irreflexive, transitive, and two values neither of which precedes the other are equal.", "quantifier": "every pair and triple of values of mixed types, known and unknown", "why_tests_cant": "triples of arbitrary values", "anchors": ["src/value/Value.cc:lessThan", "src/value/Value.cc:equals"]}
{"id": "C27", "title": "Boolean operators implement three-valued logic", "statement": "AND, OR, XOR and NOT over any number of operands compute Kleene's strong three-valued logic; the result is independent of the order of operands.", "quantifier": "any number of operands, each true, false or unknown", "why_tests_cant": "unbounded arity", "anchors": ["src/expr/BooleanOperators.cc"]}
{"id": "C28", "title": "Arrays behave like partial maps from index to element", "statement": "Reading an array element returns what was last written there and unknown if it was never written or was made unknown; writes out of range change nothing; resizing keeps the elements that fit and adds unknown ones; other elements are never disturbed.", "quantifier": "every element type, size, index and sequence of operations", "why_tests_cant": "indices and sizes are unbounded and the known flags and contents are two separate vectors that must stay in step", "anchors": ["src/value/Array.cc", "src/value/ArrayImpl.cc:setElement", "src/value/ArrayImpl.cc:getElement", "src/value/ArrayImpl.cc:resize"]}
{"id": "C29", "title": "Resources charged for a command", "statement": "A command is charged for exactly the resources it requests and all their hierarchy descendants, each once; an explicitly requested amount takes precedence over an amount inherited from the hierarchy.", "quantifier": "every hierarchy and every list of requests", "why_tests_cant": "requests and hierarchies of unbounded size and shape; precedence depends on the order of requests", "anchors": ["src/intfc/ResourceArbiterInterface.cc: determineAllChildResources", "src/intfc/ResourceArbiterInterface.cc: ResourceSet"]}
{"id": "C30", "title": "Hierarchy expansion terminates iff acyclic", "statement": "Expanding the requests of a command through the hierarchy ends for every acyclic hierarchy, with recursion depth at most the height, and never ends for a resource that is its own descendant.", "quantifier": "every hierarchy and resource", "why_tests_cant": "unbounded depth; non-termination is not testable", "anchors": ["src/intfc/ResourceArbiterInterface.cc: determineChildResources"]}
{"id": "C31", "title": "Conditions are active exactly while they are read; activations balance", "statement": "At every point of a node's life, every condition consulted for the next decision is active (so its changes wake the node and its value is current), and everything activated on the way into a state is deactivated on the way out: an INACTIVE or FINISHED node keeps nothing active, and no deactivation ever exceeds the activations.", "quantifier": "all node types and all histories of states along the state diagram, including any number of repetitions", "why_tests_cant": "Counts drift slowly and per path; a leak only shows after a particular sequence of transitions, possibly long after.", "anchors": ["src/exec/NodeImpl.cc: transitionFrom*/transitionTo*", "src/exec/CommandNode.cc: transitionToExecuting", "src/exec/ListNode.cc", "src/exec/AssignmentNode.cc", "src/exec/UpdateNode.cc", "src/expr/Notifier.cc: activate, deactivate"]}
{"id": "C32", "title": "The queue protocol never trips its own assertions", "statement": "No sequence of transitions, notifications and resource releases makes the executive stop with one of the \"cannot happen\" errors of its queue handling (node already queued, unexpected queue status, no transition to make).", "quantifier": "all plans, all schedules of external events, all macro steps", "why_tests_cant": "The failing schedules need a release and two condition changes in one micro step; tests only sample schedules.", "anchors": ["src/exec/NodeImpl.cc:NodeImpl::notify", "src/exec/PlexilExec.cc:addStateChangeNode", "src/exec/PlexilExec.cc:resourceCheckEligible", "src/exec/PlexilExec.cc:addFinishedRootNode"]}
{"id": "C33", "title": "A finished plan can be deleted safely", "statement": "When a plan has finished and is deleted, no queue or wait list of the executive still refers to one of its nodes, and a finished root never becomes active again.", "quantifier": "all plans, all executions, every point at which finished plans are deleted", "why_tests_cant": "Dangling references only show in rare interleavings of several plans.", "anchors": ["src/exec/PlexilExec.cc:deleteFinishedPlans", "src/exec/PlexilExec.cc:addFinishedRootNode", "src/app-framework/ExecApplication.cc:runExec"]}
{"id": "C35", "title": "Variables change only as reported", "statement": "Between macro steps the value of every plan variable is exactly what follows from its initialisation and the assignments and retractions reported, in order; nothing else changes a variable.", "quantifier": "all plans, all executions, all variables", "why_tests_cant": "A test looks at the variables it names; the claim is about every variable in every history.", "anchors": ["src/exec/Assignment.cc", "src/expr/UserVariable.cc", "src/exec/PlexilExec.cc:performAssignments"]}
{"id": "C36", "title": "An Assignment node waits for its assignment and its retraction", "statement": "An Assignment node leaves EXECUTING, whether normally or because a condition stops it, only after its assignment has been performed since it last started; and it leaves FAILING only after the assignment has been retracted since it began to fail. So an Assignment never ends with its write still outstanding.", "quantifier": "all plans, all executions, all reported transitions of Assignment nodes", "why_tests_cant": "The write happens at the end of the macro step while conditions change in micro steps; only some interleavings of external events and exit conditions would expose an early exit.", "anchors": ["src/exec/AssignmentNode.cc:145-254 getDestStateFromExecuting", "src/exec/AssignmentNode.cc:307-343 getDestStateFromFailing", "src/exec/Assignment.cc:142-160 execute, retract", "src/exec/PlexilExec.cc:594-606 performAssignments"]}
{"id": "C37", "title": "Arithmetic is exact or unknown", "statement": "ADD, SUB, MUL, DIV, MOD, MIN, MAX and ABS on Integers give the exact mathematical result, are unknown when an operand is unknown (or a divisor is zero), and only misbehave (C++ undefined behaviour) when the exact result of a partial computation does not fit in 32 bits; a known Integer result always fits. On Reals the operands are combined from left to right, unknown exactly when an operand is unknown (or a divisor is zero, or a root is taken of a negative number); MIN and MAX return a least / greatest operand.", "quantifier": "all operators, any number of operands, all operand values, expressions of any depth", "why_tests_cant": "Operand values and operand counts are unbounded; the boundary cases are single points of a 2^64 space.", "anchors": ["src/expr/ArithmeticOperators.cc", "src/expr/OperatorImpl.cc", "src/expr/Function.cc"]}
{"id": "C38", "title": "Rounding conversions give the right integer or unknown", "statement": "CEIL, FLOOR, ROUND (halves away from zero) and TRUNC of a finite number give the integer with that meaning; used as an Integer the result is unknown if that integer does not fit. REAL_TO_INT gives the number itself if it is an Integer and is unknown otherwise. Unknown and infinite operands give unknown; a NaN is undefined behaviour.", "quantifier": "all finite, infinite and NaN doubles, all five operations", "why_tests_cant": "All doubles cannot be enumerated.", "anchors": ["src/expr/ConversionOperators.cc"]}
{"id": "C39", "title": "Comparisons are consistent", "statement": "A comparison is unknown exactly when an operand is; on numbers it agrees with the mathematical order whichever operands are Integers or Reals; exactly one of LT, EQ, GT holds of two numbers (NaN: none); NE is always the negation of EQ; strings compare lexicographically.", "quantifier": "all values, all mixes of operand types, all four orders and EQ/NE", "why_tests_cant": "Pairs of values are unbounded.", "anchors": ["src/expr/Comparisons.cc", "src/xml-parser/Operations.cc:comparisonType"]}
{"id": "C40", "title": "Concatenation and sizes", "statement": "Concat of any number of strings is their concatenation in order, unknown exactly if an operand is; STRLEN of it is the sum of the lengths (below 2^31); ArraySize, ALL_KNOWN and ANY_KNOWN count and test the elements of an array.", "quantifier": "any number of operands, any lengths", "why_tests_cant": "Operand counts and lengths are unbounded.", "anchors": ["src/expr/StringOperators.cc", "src/expr/ArrayOperators.cc"]}
{"id": "C41", "title": "An accepted expression can be evaluated", "statement": "If the parser accepts an expression, evaluating it never ends in a plan error, whatever values its variables have: every getter of its type answers with a value or unknown.", "quantifier": "all expressions of any depth the parser accepts, all values of the variables", "why_tests_cant": "The expressions are an infinite family.", "anchors": ["src/xml-parser/OperationFactory.cc:allocate", "src/xml-parser/Operations.cc", "src/xml-parser/ExpressionMap.gperf", "src/expr/OperatorImpl.cc"]}
{"id": "C42", "title": "A lookup reports its state within its tolerance", "statement": "At any time an active lookup reports the value of the state it names: without a tolerance, exactly the value last received from the interface; with a tolerance t, a known value less than |t| from it (or equal to it), and unknown exactly if the state is unknown. An inactive lookup, or one whose state name or parameters are unknown, reports unknown.", "quantifier": "all histories of activations, deactivations, changes of state names and tolerances, value updates and cycles; any number of lookups and states", "why_tests_cant": "Histories of activations, name changes, tolerance changes and updates are unbounded, and so are the numbers of lookups and states.", "anchors": ["src/intfc/Lookup.cc:LookupImpl, LookupOnChange", "src/intfc/StateCacheEntry.cc"]}
{"id": "C43", "title": "Listeners hear of every change of a lookup, and of none within its tolerance", "statement": "Whenever an event changes the value an active lookup reports, the lookup's listeners are called during that event; a new state value within the tolerance of the reported one neither changes what is reported nor calls them.", "quantifier": "all histories, all events", "why_tests_cant": "Histories of activations, name changes, tolerance changes and updates are unbounded, and so are the numbers of lookups and states.", "anchors": ["src/intfc/Lookup.cc:valueChanged, updateInternal, handleChange", "src/intfc/StateCacheEntry.cc:notify"]}
{"id": "C44", "title": "The thresholds given to the interface hide nothing that matters", "statement": "If the interface holds back a value lying strictly between the thresholds it was last given for a state, no active lookup would have reported anything else, nor called its listeners, had it been delivered.", "quantifier": "all histories, all values between the thresholds, any number of lookups on the state", "why_tests_cant": "Histories of activations, name changes, tolerance changes and updates are unbounded, and so are the numbers of lookups and states.", "anchors": ["src/intfc/StateCacheEntry.cc:updateThresholds, unregisterLookup", "src/intfc/Lookup.cc:getThresholds, updateInternal"]}
{"id": "C45", "title": "Exactly the active lookups of a state are told of its updates", "statement": "The lookups a new value of a state is passed to are exactly the active lookups that currently name this state, each once; nothing is published for any other lookup; no null pointer is dereferenced on the way.", "quantifier": "all histories, all states", "why_tests_cant": "Histories of activations, name changes, tolerance changes and updates are unbounded, and so are the numbers of lookups and states.", "anchors": ["src/intfc/StateCacheEntry.cc:registerLookup, unregisterLookup", "src/intfc/Lookup.cc:ensureRegistered, unregister, invalidateOldState"]}
{"id": "C46", "title": "The state cache holds what the interface last said, and asks when it is old", "statement": "A state's value is what the interface last delivered for it, and nothing else changes it. Activating a lookup asks the interface for the state's value, and stores the answer, unless a value was stored in this cycle; once a state's value has changed in a cycle the interface is not asked for it again in that cycle.", "quantifier": "all histories, all states", "why_tests_cant": "Histories of activations, name changes, tolerance changes and updates are unbounded, and so are the numbers of lookups and states.", "anchors": ["src/intfc/StateCacheEntry.cc:updateValue, registerLookup", "src/intfc/CachedValueImpl.cc:update", "src/intfc/StateCache.cc:incrementCycleCount"]}
{"id": "C47", "title": "A change is told to exactly the listeners it can affect", "statement": "After any history of addListener, removeListener, activate and deactivate calls on any graph of expressions, when a variable, node, lookup, command handle or time point publishes a change, the node conditions notified are exactly those listening to an active expression whose value that change can affect; none if the source is inactive.", "quantifier": "every acyclic graph of expressions with sharing, every history of calls, every source and listener", "why_tests_cant": "A test fixes one expression tree and one sequence of calls; lost or stray notifications depend on sharing and on the order of earlier additions and removals.", "anchors": ["src/expr/Propagator.cc Propagator::addListener, notifyChanged", "src/expr/Notifier.cc Notifier::publishChange, addListener, removeListener", "src/expr/Lookup.cc", "src/expr/NodeVariables.cc", "src/expr/ExprVec.cc"]}
{"id": "C48", "title": "When nobody listens any more nothing is left registered", "statement": "Whenever every listener added from outside has been removed, no expression has a listener left, so destroying the expressions in any order passes the destructor's check and leaves no dangling listener.", "quantifier": "every graph, every history of calls", "why_tests_cant": "Leaks depend on the order of additions and removals through shared operands and on the number of lookup parameters.", "anchors": ["src/expr/Notifier.cc Notifier::~Notifier, removeListener", "src/expr/Propagator.cc Propagator::removeListener", "src/expr/ExprVec.cc GeneralExprVec::removeListener"]}
{"id": "C49", "title": "Activation counts balance", "statement": "If nothing is deactivated from outside more often than it was activated, the assertion in deactivate() never fails; an expression is active exactly if something activated from outside and not yet released keeps it active; and when all is released nothing stays active.", "quantifier": "every graph with sharing, every balanced history", "why_tests_cant": "Shared operands are activated several times over; miscounts show only for particular interleavings of activations and deactivations.", "anchors": ["src/expr/Notifier.cc Notifier::activate, deactivate", "src/expr/Function.cc handleActivate", "src/expr/ArrayReference.cc handleActivate", "src/expr/Lookup.cc handleActivate"]}
{"id": "C50", "title": "A condition hears of every operand", "statement": "Whoever activates an expression and listens to it is told of every change of every variable, node, lookup, command handle and time point occurring in it, at any depth.", "quantifier": "every graph, every balanced history, every operand at any depth", "why_tests_cant": "Holds only if activation and listening both reach every operand through every class of expression; tests cover a few classes.", "anchors": ["src/expr/Propagator.cc", "src/expr/Function.cc", "src/expr/Alias.cc", "src/expr/Lookup.cc"]}
{"id": "C34", "title": "The saved value reported is the one saved", "statement": "The previous value of a variable that is reported to listeners when an assignment is retracted is the value the variable had when it was saved: unknown if it was unknown then.", "quantifier": "every scalar variable, every history of operations, every initial memory content", "why_tests_cant": "The value reported for an unknown variable is whatever is in memory, which a test sees as some particular value.", "anchors": ["src/expr/UserVariable.cc getSavedValue, saveCurrentValue", "src/exec/Assignment.cc"]}
{"id": "C51", "title": "A scalar variable is a cell", "statement": "After any history of activations, deactivations, assignments, saves and restores a scalar variable reads as the value last given to it (unknown while inactive), restoring gives back what it read as when saved, whatever was in its memory; and its listeners are told if and only if what it reads as has changed.", "quantifier": "every history of operations, every initial memory content", "why_tests_cant": "Depends on the order of assignments, saves, restores and activations; tests fix a few sequences.", "anchors": ["src/expr/UserVariable.cc", "src/expr/Notifier.cc publishChange"]}
{"id": "C52", "title": "An array variable keeps its size and its elements", "statement": "An array variable with a declared size always has that many elements when known and refuses longer arrays; assigning an array or an element changes what was assigned and nothing else; listeners are told of every change; saving and restoring brings the value back.", "quantifier": "every size, array contents and history of operations", "why_tests_cant": "Depends on the order of assignments, saves, restores and activations; tests fix a few sequences.", "anchors": ["src/expr/ArrayVariable.cc"]}
{"id": "C53", "title": "Assigning to an array element", "statement": "Assigning to an element of an array changes that element and no other, a negative index is refused, and retracting the assignment puts the element back.", "quantifier": "every array, index, value and state", "why_tests_cant": "Depends on the order of assignments, saves, restores and activations; tests fix a few sequences.", "anchors": ["src/expr/ArrayReference.cc MutableArrayReference", "src/expr/ArrayVariable.cc setElement"]}
{"id": "C54", "title": "The element assigned is the one designated when the node started", "statement": "When several assignments are performed in one step, an assignment to an array element writes the element that its index designated when the assigning node started.", "quantifier": "every store, every sequence of assignments of a step", "why_tests_cant": "Depends on which other assignments share the step and in which order they are performed.", "anchors": ["src/exec/Assignment.cc fixValue, execute", "src/exec/PlexilExec.cc performAssignments", "src/expr/ArrayReference.cc"]}
{"id": "C56", "title": "No lost wake-up", "statement": "Whatever the schedule, the executive's thread does not block while something queued by an adapter or client that has since called notifyExec is unprocessed, a step is still needed or a stop is requested, unless the application is suspended; entries are processed in the order queued, once each; and if the executive's steps come to rest everything queued is processed after finitely many steps of that thread.", "quantifier": "every interleaving of the worker thread and any number of client threads, every outcome of the executive's steps", "why_tests_cant": "Depends on the interleaving of the worker with any number of client threads; a test sees the schedules it happens to get.", "anchors": ["src/app-framework/ExecApplication.cc", "src/app-framework/InterfaceManager.cc processQueue, markQueue", "runExec, worker, waitForExternalEvent, notifyExec"]}
{"id": "C57", "title": "notifyAndWaitForCompletion", "statement": "When a call of notifyAndWaitForCompletion returns, everything queued before the call has been processed and the executive has been stepped with it; and the call returns once the executive has nothing left to do.", "quantifier": "every interleaving, any number of concurrent calls", "why_tests_cant": "Depends on the interleaving of the worker with any number of client threads; a test sees the schedules it happens to get.", "anchors": ["src/app-framework/ExecApplication.cc", "src/app-framework/InterfaceManager.cc processQueue, markQueue", "notifyAndWaitForCompletion"]}
{"id": "C58", "title": "waitForPlanFinished", "statement": "waitForPlanFinished returns only when all plans added before have been run and are finished, and does return once they are.", "quantifier": "every interleaving, any number of plans", "why_tests_cant": "Depends on the interleaving of the worker with any number of client threads; a test sees the schedules it happens to get.", "anchors": ["src/app-framework/ExecApplication.cc", "src/app-framework/InterfaceManager.cc processQueue, markQueue", "waitForPlanFinished, addPlan", "src/exec/PlexilExec.cc allPlansFinished, deleteFinishedPlans"]}
{"id": "C59", "title": "notifyExec never blocks", "statement": "notifyExec returns without waiting for the executive, whatever the executive and the other threads are doing, and the executive is woken.", "quantifier": "every state of the application, every schedule after the call", "why_tests_cant": "Depends on the interleaving of the worker with any number of client threads; a test sees the schedules it happens to get.", "anchors": ["src/app-framework/ExecApplication.cc", "src/app-framework/InterfaceManager.cc processQueue, markQueue", "notifyExec, runExec"]}
{"id": "C55", "title": "What adapters report reaches the executive intact", "statement": "Everything handed to the executive through the interface (lookup values, acknowledgements, return values, plans, messages, marks) reaches it exactly once, in the order queued, with the contents given; null commands and empty handles are refused, illegal command handles become COMMAND_INTERFACE_ERROR; no assertion in the queue fails and no entry is ever used for two things at once, and none is lost; flushing empties the queue.", "quantifier": "every interleaving of any number of producers, the consumer and flushes, every content", "why_tests_cant": "Entries are recycled through a free list shared by all threads; a mix-up needs a particular interleaving.", "anchors": ["src/app-framework/SimpleInputQueue.cc", "src/app-framework/SerializedInputQueue.cc", "src/intfc/QueueEntry.cc", "src/app-framework/InterfaceManager.cc handleValueChange .. markQueue, processQueue"]}
{"id": "C60", "title": "Time arithmetic is exact", "statement": "Adding and subtracting times (seconds and fractions) is exact and yields a time in normal form; the comparison operators on times in normal form are the comparisons of the instants they stand for.", "quantifier": "every two times in normal form, every fraction size", "why_tests_cant": "There are sign and carry cases in all combinations of magnitudes.", "anchors": ["src/utils/timeval-utils.cc", "src/utils/timespec-utils.cc"]}
{"id": "C61", "title": "A requested wake-up time converts faithfully", "statement": "A number of seconds converts to a time in normal form less than one fraction (plus the rounding error) away; later numbers never convert to earlier times; what was converted from a time converts back to that time.", "quantifier": "every double, every behaviour of rounding that is monotone and exact on integers", "why_tests_cant": "The errors occur at particular doubles out of 2^64.", "anchors": ["src/utils/timeval-utils.cc doubleToTimeval", "src/utils/timespec-utils.cc doubleToTimespec"]}
{"id": "C62", "title": "A requested wake-up happens", "statement": "Once the executive has asked to be woken at a time, and until it asks for another, it either has been notified at or after that time or the system timer is set for that time, whatever early or stray wake-ups occur.", "quantifier": "every history of requests, passing time, timer signals and stray signals", "why_tests_cant": "Depends on when signals arrive relative to clock readings.", "anchors": ["src/app-framework/ItimerTimebase.cc", "src/app-framework/PosixTimebase.cc", "src/app-framework/TimeAdapter.cc timeout"]}
{"id": "C63", "title": "Tick mode ticks at the interval asked for", "statement": "In tick mode the timer's period is the interval configured; a stopped timebase can be started again.", "quantifier": "every interval", "why_tests_cant": "Wrong only for particular magnitudes.", "anchors": ["src/app-framework/ItimerTimebase.cc start, stop", "src/app-framework/PosixTimebase.cc start, stop"]}
{"id": "C64", "title": "Variables are lexically scoped", "statement": "A variable name in a node designates the variable of the innermost enclosing declaration; across a library call, only the names the call passes are visible, each designating what was passed; and the parser accepts the declarations exactly when names are distinct, types agree and interface variables are supplied or have defaults.", "quantifier": "every plan: every path of nodes from the root, any depth, any chain of library calls and declarations", "why_tests_cant": "Depends on arbitrary nesting of declarations, interfaces and library calls.", "anchors": ["src/exec/NodeImpl.cc findVariable, allocateVariables, addLocalVariable", "src/exec/ListNode.cc getChildVariableMap", "src/exec/LibraryCallNode.cc", "src/exec/NodeVariableMap.cc", "src/xml-parser/parseNode.cc linkInVar, linkInOutVar, checkVariableNameConflicts", "src/xml-parser/parseLibraryCall.cc"]}
{"id": "C65", "title": "In parameters are read-only, InOut parameters write through", "statement": "A node cannot change a variable it receives as an In parameter, neither itself nor through its descendants; assigning to an InOut parameter changes the variable that was passed.", "quantifier": "every plan: every path of nodes, any depth, any chain of library calls", "why_tests_cant": "Depends on arbitrary nesting of declarations, interfaces and library calls.", "anchors": ["src/xml-parser/parseNode.cc linkInVar, linkInOutVar", "src/xml-parser/createExpression.cc createAssignable", "src/xml-parser/ArrayReferenceFactory.cc createMutableArrayReference", "src/expr/Alias.cc", "src/expr/ArrayReference.cc"]}
{"id": "C66", "title": "Mutex names are lexically scoped", "statement": "A mutex name used by a node designates the mutex of the innermost enclosing node of the same plan file that declares it, otherwise the global mutex its plan file declares; an accepted name always designates a mutex.", "quantifier": "every plan: every path of nodes, any depth, any chain of library calls, any set of global mutexes", "why_tests_cant": "Depends on arbitrary nesting of declarations and library calls.", "anchors": ["src/exec/NodeImpl.cc findMutex", "src/exec/Mutex.cc", "src/xml-parser/parseNode.cc isMutexInScope"]}
{"id": "C67", "title": "Node references resolve to the nearest node", "statement": "A node reference the parser accepts always designates a node: itself, its parent, the child or sibling of that id, or, by id, the nearest enclosing node having that id or a child of that id, always within the same plan file; and an id designates at most one child of a node.", "quantifier": "every plan: every path of nodes, any depth, every reference", "why_tests_cant": "Acceptance and resolution are separate passes over different representations; they must agree on every plan.", "anchors": ["src/xml-parser/parseNodeReference.cc", "src/exec/ListNode.cc findChild", "src/xml-parser/parseNode.cc checkChildNodes"]}
{"id": "C68", "title": "Expanding library calls ends exactly when no library calls itself", "statement": "Loading a plan ends (with success, or with an error for a missing library) whenever no chain of library calls is infinite; success means every library called, directly or indirectly, was found.", "quantifier": "every set of libraries and every call graph", "why_tests_cant": "Recursion depth is unbounded.", "anchors": ["src/xml-parser/parseLibraryCall.cc constructLibraryCall", "src/xml-parser/planLibrary.cc", "src/xml-parser/parsePlan.cc"]}
{"id": "C69", "title": "A UDP message arrives as it was sent", "statement": "A command that sends a UDP message succeeds exactly when its arguments fit the declared message (number, types, ranges, sizes), and a receiver with the same declaration then gets, parameter by parameter, the same values (reals in single precision, strings up to a zero byte); no message, sent or received, makes the adapter touch memory outside its buffers.", "quantifier": "every message declaration, all argument values, every datagram received of any length and content, whatever was received before", "why_tests_cant": "Any combination of parameter types, lengths, array sizes and values must be laid out and read back at the same offsets.", "anchors": ["src/interfaces/UdpAdapter/UdpAdapter.cc buildUdpBuffer, handleUdpMessage, executeDefaultCommand, parseMessageDefinition", "src/interfaces/UdpAdapter/udp-utils.cc", "src/interfaces/UdpAdapter/UdpEventLoop.cc Listener"]}
{"id": "C70", "title": "Received messages and waiting commands are paired in order", "statement": "The n-th message received under a name is delivered to the n-th command that waits for that name; no message is lost, delivered twice or delivered to a command that no longer waits.", "quantifier": "every history of messages and waiting commands, any names, any interleaving", "why_tests_cant": "Any interleaving of arrivals, requests and aborts.", "anchors": ["src/interfaces/UdpAdapter/MessageQueueMap.cc", "src/interfaces/UdpAdapter/UdpAdapter.cc executeReceiveCommandCommand, abortReceiveCommandCommand"]}
{"id": "C71", "title": "Parameters belong to the message they came with", "statement": "A command that asks for a parameter of a received message, under the label the plan got for it, gets the value of that parameter in that message and never one of another message, parameter or message name.", "quantifier": "every history of datagrams and commands; every choice of message names", "why_tests_cant": "Depends on names being unambiguous for all names, counters and indices, under any interleaving.", "anchors": ["src/interfaces/UdpAdapter/UdpAdapter.cc handleUdpMessage, formatMessageName, executeGetParameterCommand", "src/interfaces/UdpAdapter/MessageQueueMap.cc"]}
{"id": "C72", "title": "Literals mean what they say", "statement": "The text of an Integer or Boolean value in a plan or script is read as the value it denotes (decimal, octal and hexadecimal constants with sign, in 32 bits; 0, 1, true, false in any case), as unknown for UNKNOWN, and refused otherwise; every value printed by the executive is read back as itself.", "quantifier": "all texts; all 32-bit integers", "why_tests_cant": "Parsing must be right for every string, including every boundary, sign, base and garbage suffix.", "anchors": ["src/value/ValueType.cc parseValue, printValue, serialisation of text", "src/utils/stricmp.c"]}
{"id": "C73", "title": "Names of types, states, outcomes, failures and command handles are unambiguous", "statement": "A text is read as a node state, outcome, failure type, command handle or value type exactly if it is the name that is printed for it, and plans can write each of them as a constant.", "quantifier": "all texts and all values of the enumerations", "why_tests_cant": "Must hold for every string: no other text may be taken for a name, and no name may denote two things.", "anchors": ["src/value/NodeConstants.cc parseNodeState, parseNodeOutcome, parseFailureType", "src/value/CommandHandle.cc parseCommandHandleValue", "src/value/ValueType.cc parseValueType, valueTypeName", "src/xml-parser/ConstantFactory.cc"]}
{"id": "C74", "title": "Array literals and declared array sizes", "statement": "An accepted array literal gives an array with exactly its elements, in order, each with the value its text denotes or unknown; an array declared with a size has this capacity, and an initial value is accepted exactly if it fits.", "quantifier": "literals of any length and element texts; all sizes", "why_tests_cant": "Any number and kinds of elements, any way to write the size.", "anchors": ["src/xml-parser/ArrayLiteralFactory.cc", "src/xml-parser/ArrayVariableFactory.cc"]}
{"id": "C75", "title": "Timepoints of nodes are the times of their transitions", "statement": "A reference to the START (END) of a state of a node has the time of the last transition into (out of) that state since the node was last reset, and is unknown if there was none; all references to one timepoint share one value, their subscribers hear of every change, and START and END of the states passed since a reset are in the order of the states.", "quantifier": "all nodes, references, and histories of transitions with their times", "why_tests_cant": "The value must be right after every history of transitions, repeats and resets, not just the first.", "anchors": ["src/exec/NodeTimepointValue.cc", "src/exec/NodeImpl.cc logTransition, ensureTimepoint, getStateStartTime", "src/xml-parser/InternalExpressionFactories.cc"]}
{"id": "C76", "title": "One cache entry per state", "statement": "The order on states is a strict weak order that only confuses equal states, so for every history of lookups and updates two requests are served by the same cache entry exactly if they name the same state with the same parameters.", "quantifier": "all states (any parameters), all histories of requests", "why_tests_cant": "Any mixture of types in parameters and any order of insertion; a confusion would silently deliver the value of one state to lookups of another.", "anchors": ["src/intfc/State.cc operator<, operator==", "src/intfc/StateCache.cc ensureStateCacheEntry", "src/value/Value.cc lessThan"]}
{"id": "C77", "title": "A state survives its transport as bytes", "statement": "A state written by serialize is read by deserialize as the same name and parameters, the reader stops right behind it, and serialSize is the number of bytes written; a state that cannot be written is refused.", "quantifier": "all states, all bytes that follow", "why_tests_cant": "Any names, parameters and lengths.", "anchors": ["src/intfc/State.cc serialize, deserialize, serialSize", "src/value/Serializable"]}
{"id": "C78", "title": "Sorted vectors are maps and sets; variables are found by nearest declaration", "statement": "SimpleMap and SimpleSet answer every history of operations like a map and a set; in a node and its ancestors a variable name finds the first declaration in the nearest node that has one.", "quantifier": "all comparators that are strict total orders, all histories of operations, all declarations", "why_tests_cant": "Bisection must be right for every size and content.", "anchors": ["src/utils/SimpleMap.hh", "src/utils/SimpleSet.hh", "src/exec/NodeVariableMap.cc"]}
{"id": "C79", "title": "No object is ever in two intrusive queues", "statement": "At every moment of every execution a node is at most once in at most one of the queues of nodes (candidates, transitions to do, waiting for resources, finished roots), and an assignment, command or update at most once in at most one of the queues of its kind; so the single next pointer the queues share is never overwritten while in use.", "quantifier": "all plans, all schedules of inputs, every intermediate state of a step", "why_tests_cant": "Queues are linked through one pointer in the object; a second insertion would silently drop or duplicate the rest of a queue, and depends on the interleaving of checks, transitions and resource conflicts.", "anchors": ["src/utils/LinkedQueue.hh", "src/exec/PlexilExec.cc step, enqueueAssignment, enqueueCommand, enqueueAbortCommand, addCandidateNode, addStateChangeNode, addPendingNode, addFinishedRootNode"]}
{"id": "C80", "title": "A command sends what its expressions were when its node started", "statement": "While a command node executes, the name and arguments an adapter gets from its command, and the resources the arbiter sees, are the values of the plan's expressions at the moment the node started, in every iteration; an unknown name is an error when asked for, never a leftover; unknown resource parts are an error at the start.", "quantifier": "all commands (any mixture of constant and varying expressions), all histories of starts, responses and ends, all environments", "why_tests_cant": "Constant parts are evaluated once and kept, others re-evaluated per execution; a stale part would only show in some later iteration.", "anchors": ["src/intfc/CommandImpl.cc activate, fixValues, checkConstant, deactivate, getCommand, getResourceValues", "src/exec/CommandNode.cc specializedHandleExecution"]}
{"id": "C81", "title": "The command handle is the last acknowledgement of this execution", "statement": "While a command executes, references to its handle read the last handle acknowledged since its start and are unknown before; its action is complete from the first acknowledgement; its abort is complete exactly if the last abort acknowledgement since the start says so; returned values reach the destination exactly while it executes, in order; responses take effect in the order posted; references elsewhere are told of every change.", "quantifier": "all histories of starts, ends, responses at any time and references becoming active or inactive; all interleavings of posting and queue processing", "why_tests_cant": "Responses come from other threads at any time, also early, late, twice or invalid.", "anchors": ["src/intfc/CommandImpl.cc setCommandHandle, returnValue, acknowledgeAbort", "src/intfc/CommandHandleVariable.cc", "src/exec/CommandNode.cc", "src/app-framework/InterfaceManager.cc handleCommandAck, processQueue", "src/app-framework/AdapterConfiguration.cc executeCommand, invokeAbort"]}
{"id": "C82", "title": "Commands and lookups go to the handler last registered for their name", "statement": "After any sequence of registrations a command is executed and aborted by the handler last registered under its name, else by the default set last, else by the built-in one; lookups likewise and independently.", "quantifier": "all sequences of registrations, all names", "why_tests_cant": "Any order and repetition of registrations by several adapters.", "anchors": ["src/app-framework/AdapterConfiguration.cc registerCommandHandler, setDefaultCommandHandler, registerLookupHandler, setDefaultLookupHandler, getCommandHandler, getLookupHandler"]}
{"id": "C83", "title": "Resources are in use exactly while their command executes", "statement": "At every moment the amount of a resource in use is what the commands let through by the arbiter whose nodes have not left are charged, plus what earlier commands asked to keep; so when nothing executes and nothing is kept everything is free.", "quantifier": "all sets of commands and hierarchies, all histories of starts, batches, responses (early, late, repeated), interface errors and ends", "why_tests_cant": "A leak needs a particular history, and shows only later, as a denied command.", "anchors": ["src/intfc/CommandImpl.cc deactivate", "src/exec/PlexilExec.cc executeOutboundQueue", "src/intfc/ResourceArbiterInterface.cc arbitrateCommands, releaseResourcesForCommand", "src/app-framework/AdapterConfiguration.cc executeCommand, reportCommandArbitrationFailure"]}
{"id": "C84", "title": "An update sends the values at its start and waits for its acknowledgement", "statement": "While an update node executes, the value sent under each name is what its expression was at the start, and the update counts as acknowledged exactly if the last acknowledgement since the start says so.", "quantifier": "all lists of pairs, all histories of starts, failures, ends and acknowledgements at any time, all environments", "why_tests_cant": "The acknowledgement flag is reset by reference counting; a missed reset would complete the next iteration at once.", "anchors": ["src/exec/UpdateNode.cc UpdateImpl activate, deactivate, fixValues, acknowledge"]}
{"id": "C85", "title": "A lookup reads the last answer the interface gave for its state", "statement": "After any history of values reported for any states and lookups coming and going, what every lookup of a state reads is the last value reported for that state (unknown if none, or if the report says unknown); the lookups registered on a state are told once per report that changes what they read, and by nothing else; no report is an error.", "quantifier": "all histories of reports of values of any type for any states and of registrations and unregistrations", "why_tests_cant": "A report of another type is handled by a table of conversions; a dropped report leaves an old value that looks valid.", "anchors": ["src/intfc/StateCacheEntry.cc update, setUnknown, ensureCachedValue, registerLookup, unregisterLookup", "src/intfc/StateCache.cc ensureStateCacheEntry, lookupReturn", "src/intfc/CachedValueImpl.cc", "src/intfc/CachedValue.cc"]}
{"id": "C86", "title": "Message lookups follow the head of the queue of messages", "statement": "Once a message has arrived, whenever the exec has processed its input, HaveMessage tells whether messages wait, and PeekAtMessage and PeekAtMessageSender are text and sender of the first one that waits, unknown if none does.", "quantifier": "all histories of arrivals, message commands, input processing, lookups coming and going, reports of other states", "why_tests_cant": "The queue of messages and the state cache are updated at different times, through the input queue; a missing update shows only in one order of arrivals and commands.", "anchors": ["src/app-framework/MessageAdapter.cc acceptMessage, enqueueMessage", "src/app-framework/InterfaceManager.cc notifyMessageReceived, notifyMessageQueueEmpty, processQueue", "src/intfc/StateCache.cc messageReceived, messageQueueEmpty"]}
{"id": "C87", "title": "Message data are readable under a handle from acceptance to release", "statement": "From the acceptance of a message to the release of its handle the lookups of the handle (MessageText, MessageSender, MessageTime, MessageParameter, MessageParameterCount) read the data of that message; lookups of any other handle are unknown; releasing a handle never crashes the exec.", "quantifier": "all histories of acceptances and releases, all messages with any number of parameters, all lookups", "why_tests_cant": "Cells of a handle are created, counted and deleted by generated keys; a wrong bound leaves data of an old message.", "anchors": ["src/intfc/StateCache.cc assignMessageHandle, releaseMessageHandle", "src/app-framework/MessageAdapter.cc acceptMessage, releaseMessageHandle", "src/intfc/QueueEntry.cc initForAcceptMessage"]}
{"id": "C88", "title": "A message command is answered exactly once", "statement": "Each of the commands GetMessageHandle, ReleaseMessageHandle, PublishMessage and SendMessage is acknowledged exactly once: with COMMAND_SUCCESS if its arguments are in order, else with COMMAND_FAILED.", "quantifier": "all commands, arguments and queues of messages", "why_tests_cant": "Needs all shapes of argument lists.", "anchors": ["src/app-framework/MessageAdapter.cc command handlers"]}
{"id": "C89", "title": "A listener is told everything that happens, once, in order", "statement": "After any history every listener has been told exactly the node transitions, assignments (and retractions) and plan additions since it was added that pass its filter, each once, in the order in which they happened, by the end of the cycle in which they happened.", "quantifier": "all histories of cycles of the executive (any number of rounds, transitions, assignments), plan additions, listeners with any filters added at any time", "why_tests_cant": "Reports are held back in two buffers and handed out at the end of a cycle; a report dropped, doubled or out of order depends on the mixture.", "anchors": ["src/app-framework/ExecListenerHub.cc", "src/app-framework/ExecListener.cc", "src/exec/PlexilExec.cc step, performAssignments", "src/exec/Assignment.cc execute, retract"]}
{"id": "C90", "title": "A node state filter passes exactly what its lists say", "statement": "A filter configured with a list of state names separated by commas and blanks passes exactly the transitions from or to one of the states named (States), or from or to a state not named (IgnoredStates); with neither it passes all; with both, or with a name that is no state, it is refused.", "quantifier": "all texts of the configuration elements, all transitions", "why_tests_cant": "All texts.", "anchors": ["src/app-framework/ListenerFilters.cc NodeStateFilter", "src/app-framework/InterfaceSchema.cc parseCommaSeparatedArgs", "src/value/NodeConstants.cc parseNodeState"]}
{"id": "C91", "title": "The simulator sends what its script says, once, in order, not early", "statement": "After any history of a simulator, what it has sent and what it has still to send are exactly what the script and the commands received have scheduled; nothing is sent before it is due; responses are sent in the order of their times, those due at the same time in the order in which they were scheduled; a lookup is answered with the last telemetry value sent.", "quantifier": "all scripts, all sequences of commands, all times at which the clock is read, the timer goes off and commands arrive; all interleavings of the two threads", "why_tests_cant": "Depends on when the clock is read and on which thread gets first to the agenda.", "anchors": ["src/apps/StandAloneSimulator/Agenda.cc", "src/apps/StandAloneSimulator/Simulator.cc handleWakeUp, scheduleNextResponse", "src/apps/StandAloneSimulator/TimingService.cc"]}
{"id": "C92", "title": "The simulator forgets nothing", "statement": "As soon as the time of a scheduled response has come, the simulator's wait ends and the response is sent.", "quantifier": "all scripts, all sequences of commands, all times at which the clock is read", "why_tests_cant": "The timer is set again after each response; whether it is depends on the microsecond in which the clock is read and on the due time.", "anchors": ["src/apps/StandAloneSimulator/Simulator.cc handleWakeUp, scheduleNextResponse, simulatorTopLevel", "src/apps/StandAloneSimulator/TimingService.cc setTimer"]}
{"id": "C93", "title": "The k-th command gets the k-th response", "statement": "The k-th arrival of a command schedules the response which the script gives for the number k, else the default one, with the delay the script gives, under the identifier of the command; a command of which the script knows nothing schedules none.", "quantifier": "all scripts, all sequences of commands", "why_tests_cant": "All scripts and histories; the count is kept per command name across everything else that happens.", "anchors": ["src/apps/StandAloneSimulator/CommandResponseManager.cc", "src/apps/StandAloneSimulator/Simulator.cc scheduleResponseForCommand, constructNextResponse"]}
{"id": "C94", "title": "A node is told of every change that matters to it", "statement": "Whenever a transition, an assignment, a retraction, an acknowledgement or the outside world changes a variable, node, lookup or flag that occurs (at any depth of expressions) in a condition which a node looks at in its present state, and this makes a difference to what the node does next, the node is notified; hence an executive at rest leaves no node that could move.", "quantifier": "all plans, all networks of expressions without aliases (with sharing), all situations and all changes", "why_tests_cant": "Which conditions are active depends on the state of every node; whether the chain from a change to a node is unbroken depends on the whole network.", "anchors": ["src/expr/Notifier.cc", "src/expr/Propagator.cc", "src/exec/NodeImpl.cc notifyChanged, transition, getDestState*", "src/expr/Listenable.hh"]}
{"id": "C95", "title": "Adapters and listeners are initialized, started and stopped in order", "statement": "Whatever calls the program makes: no component is started that is not initialized, none is stopped that is not running, none is initialized or started twice without being stopped between, and none is left running once the interfaces are stopped; adapters come before listeners, in the order of their creation, up to the first that fails; a positive answer of initialize or startInterfaces means that all of them are.", "quantifier": "all sequences of calls of the application, all configurations, all answers of the components", "why_tests_cant": "Depends on the order of calls and on which component fails when.", "anchors": ["src/app-framework/ExecApplication.cc initialize, startInterfaces, stop, terminate", "src/app-framework/AdapterConfiguration.cc constructInterfaces, initialize, start, stop, addInterfaceAdapter", "src/app-framework/ExecListenerHub.cc"]}
{"id": "C96", "title": "Commands, lookups and updates reach the handler registered last", "statement": "A command, abort, lookup, threshold or update is given to exactly one handler, once: the one registered last for its name, else the last default, else the built-in one; a command is aborted by the handler that executed it unless another was registered meanwhile.", "quantifier": "all histories of registrations and requests", "why_tests_cant": "Depends on the whole history of registrations.", "anchors": ["src/app-framework/AdapterConfiguration.cc registerCommandHandler, getCommandHandler, executeCommand, invokeAbort, lookupNow, executeUpdate", "src/app-framework/CommandHandler.cc", "src/app-framework/LookupHandler.cc"]}
{"id": "C97", "title": "Errors of handlers reach the plan and nothing else", "statement": "If a handler throws an InterfaceError, the command gets COMMAND_INTERFACE_ERROR, the abort is refused, the lookup is unknown; without a handler a command succeeds, an abort and an update are acknowledged; and every command, denial, abort and update of a macro step is handed over, in that order, once, whatever handlers fail.", "quantifier": "all histories of registrations, all requests, all ways in which handlers fail", "why_tests_cant": "Depends on which handlers fail in which combination.", "anchors": ["src/app-framework/AdapterConfiguration.cc executeCommand, invokeAbort, lookupNow, executeUpdate, setThresholds, clearThresholds", "src/exec/PlexilExec.cc executeOutboundQueue"]}
{"id": "C98", "title": "Messages through IPC arrive whole", "statement": "A command, lookup, telemetry or update sent through IPC with any number of parameters is delivered to the listeners of every receiver once, with all its parameters in order, however its packets are interleaved with those of others; a message of which packets are missing is never delivered; return values reach only who asked for them.", "quantifier": "all sets of messages of any number of senders, all interleavings of their packets, all points at which the receiver begins to listen", "why_tests_cant": "Depends on how packets of many senders interleave.", "anchors": ["src/interfaces/IpcUtils/IpcFacade.cc sendCommand, publishTelemetry, sendParameters, handleMessage, cacheMessageLeader, cacheMessageTrailer, deliverMessages"]}
{"id": "C99", "title": "Listeners hear exactly the messages they subscribed to", "statement": "Every message delivered is passed to those who subscribed to everything and to those who subscribed to its type, once per subscription, in order; to nobody who did not subscribe or has been removed.", "quantifier": "all histories of subscriptions, removals and deliveries", "why_tests_cant": "Depends on the whole history.", "anchors": ["src/interfaces/IpcUtils/IpcFacade.cc subscribeAll, subscribe, unsubscribe, unsubscribeAllListeners, deliverMessages"]}
{"id": "C100", "title": "A lookup through IPC returns the answer to its question", "statement": "The executive, looking up a state through IPC, gets the value of the reply to its own question, never that of another lookup, and goes on once the reply has arrived.", "quantifier": "all schedules of the executive and the dispatch thread, all sequences of lookups, replies and telemetry", "why_tests_cant": "Depends on the schedule of two threads.", "anchors": ["src/interfaces/IpcAdapter/IpcAdapter.cc lookupNow, handleTelemetryValuesSequence, handleReturnValuesSequence"]}
{"id": "C101", "title": "Values sent through IPC arrive as they were", "statement": "Every value sent as a parameter, telemetry or return value arrives as the same value.", "quantifier": "all values", "why_tests_cant": "Unbounded strings and arrays.", "anchors": ["src/interfaces/IpcUtils/IpcFacade.cc constructPlexilValueMsg, getPlexilMsgValue, msgFormatForType, sendParameters"]}
{"id": "C102", "title": "Received commands, parameters and messages are not confused", "statement": "A return value sent under the label of a received command goes to its sender, for that command; a plan that waits for a message, a command or the i-th parameter of a command gets only these.", "quantifier": "all serial numbers, senders, names, parameters", "why_tests_cant": "Unbounded strings; serial numbers over the whole 32 bit range.", "anchors": ["src/interfaces/IpcAdapter/IpcAdapter.cc handleCommandSequence, executeSendReturnValueCommand, executeReceiveCommandCommand, executeGetParameterCommand, formatMessageName"]}
{"id": "C103", "title": "Calls agree with declarations", "statement": "A plan that calls a declared command or looks up a declared state with arguments of the wrong number or types, or puts a result in a variable of another type, is refused; one that agrees is accepted, and the lookup has the declared type; undeclared names may be used freely.", "quantifier": "all declarations, all calls with any number of arguments of any types", "why_tests_cant": "All numbers of parameters and all combinations of types.", "anchors": ["src/xml-parser/LookupFactory.cc factoryCheck<Lookup>, factoryAllocate<Lookup>", "src/xml-parser/commandXmlParser.cc checkCommandBody, finalizeCommand", "src/value/ValueType.cc areTypesCompatible"]}
{"id": "C104", "title": "Declarations mean what they say", "statement": "Global declarations are accepted exactly if their types are proper and no command, state or mutex is declared twice; the names are then known with exactly the types declared; the order does not matter.", "quantifier": "all lists of declarations", "why_tests_cant": "Unbounded lists.", "anchors": ["src/xml-parser/parseGlobalDeclarations.cc checkGlobalDeclarations, parseGlobalDeclarations", "src/xml-parser/SymbolTable.cc addCommand, addLookup, addMutex, getCommand, getLookup"]}
{"id": "C105", "title": "The declarations in force are those of the file", "statement": "While a plan and the libraries it calls are read, names are looked up in the declarations of the file they are written in, also after a file has failed to load.", "quantifier": "all nestings of files, all places where reading fails", "why_tests_cant": "Unbounded nesting; every exception path.", "anchors": ["src/xml-parser/SymbolTable.cc pushSymbolTable, popSymbolTable", "src/xml-parser/parsePlan.cc checkPlan, constructPlan, parsePlan", "src/xml-parser/parseLibraryCall.cc finalizeLibraryCall"]}
{"id": "C106", "title": "Resource lists of commands are well formed", "statement": "Each resource of an accepted command has one name, a string, one priority, an integer, at most one bound; no resource is named twice.", "quantifier": "all resource lists", "why_tests_cant": "Unbounded lists.", "anchors": ["src/xml-parser/commandXmlParser.cc checkResource, checkResourceList, finalizeResourceList"]}
{"id": "C107", "title": "StartPlan starts the plan asked for", "statement": "The command StartPlan with the name of a library and pairs of parameter names and known values adds exactly one plan, which calls that library with exactly these arguments, under an identifier no other started plan has; then returns that identifier, then succeeds. In all other cases it fails and nothing else happens. Every call is answered exactly once.", "quantifier": "all argument lists, libraries, histories", "why_tests_cant": "All numbers, types and values of arguments; all numbers of plans started before.", "anchors": ["src/app-framework/Launcher.cc executeStartPlanCommand, makeWrapperPlanXml, valueToExprXml, nextSerialNumber", "src/xml-parser/parseLibraryCall.cc checkAlias, finalizeAliases"]}
{"id": "C108", "title": "ExitPlan exits the plan named", "statement": "ExitPlan succeeds exactly if one root plan has the identifier given; then the exit condition of the plan started under that identifier, and of no other one, becomes and remains true, before the success is seen. A plan whose StartPlan was seen to succeed is known to ExitPlan until it has finished.", "quantifier": "all histories of commands, queue processing and deletion of plans", "why_tests_cant": "All interleavings of commands and processing of the queue.", "anchors": ["src/app-framework/Launcher.cc executeExitPlanCommand, findNode, makeWrapperPlanXml", "src/app-framework/InterfaceManager.cc handleAddPlan, processQueue"]}
{"id": "C109", "title": "PlanState and PlanOutcome tell the truth", "statement": "For every root plan the state PlanState is its last state; PlanOutcome and PlanFailureType are those of its last execution.", "quantifier": "all histories of transitions", "why_tests_cant": "All histories.", "anchors": ["src/app-framework/Launcher.cc LauncherListener", "src/app-framework/ExecListenerHub.cc stepComplete"]}
{"id": "C110", "title": "Tables of names behave as maps", "statement": "For every history of insertions, assignments and clears of a SimpleMap, a look-up of every key gives exactly what a function from keys to values would: insert keeps what is there and tells so, assignment replaces it, other keys are not touched.", "quantifier": "all key types with a total order, all histories, all keys", "why_tests_cant": "All numbers of entries and orders of insertion; a binary search is wrong only at particular positions.", "anchors": ["src/utils/SimpleMap.hh SimpleMap::find, insert, operator[]", "src/utils/map-utils.hh CStringComparator"]}
{"id": "C111", "title": "A library is found where it should be", "statement": "A library call finds the library in the table, if it is there, whatever files there are; otherwise the first file of that name, as named and then in the directories of the search path in order. It is used exactly if it is a proper plan whose root has the name asked for; what is in the table before stays.", "quantifier": "all tables, file systems, search paths, names", "why_tests_cant": "All directory lists, all contents of files.", "anchors": ["src/xml-parser/planLibrary.cc getLibraryNode, loadLibraryNode, loadLibraryFile", "src/xml-parser/parsePlan.cc loadXmlFile"]}
{"id": "C112", "title": "The library table holds the latest versions and owns them", "statement": "After every history of calls the library under a name is the one accepted last under that name; failed calls change nothing; the documents not deleted are exactly those in the table; none is deleted twice.", "quantifier": "all histories of calls, all files at each call, all names", "why_tests_cant": "All histories.", "anchors": ["src/xml-parser/planLibrary.cc loadLibraryDocument, cleanLibraryMap, getLibraryNode", "src/app-framework/InterfaceManager.cc handleAddLibrary, handleLoadLibrary"]}
{"id": "C113", "title": "Every datagram reaches its listener once, in order", "statement": "For every run of proper use of the UDP event loop, the calls of the function given to an openListener are those for the datagrams that came to its port since, each once, in order of arrival, cut to the size asked for; what is not delivered yet waits in the socket, and the event thread, left alone, delivers all of it. After the port is closed its function is not called. Every open port has one socket.", "quantifier": "all interleavings of opening, closing, arriving datagrams and steps of the event thread; all numbers of ports", "why_tests_cant": "The interleavings of the event thread, the kernel and the callers are unbounded and cannot be forced by tests.", "anchors": ["src/interfaces/UdpAdapter/UdpEventLoop.cc eventLoop, addListener, removeListener, handleFDReady, openListener, closeListener", "src/interfaces/UdpAdapter/UdpAdapter.cc startUdpMessageReceiver"]}
{"id": "C114", "title": "Calls of the UDP event loop come back", "statement": "Whatever datagrams come, a call of openListener, closeListener or stop that has begun comes back after finitely many steps of the event thread, with the port open, or closed, or everything closed; the loop can be started again after it was stopped.", "quantifier": "all interleavings, all states of the event thread when the call is made", "why_tests_cant": "Deadlock shows only in particular interleavings.", "anchors": ["src/interfaces/UdpAdapter/UdpEventLoop.cc openListener, closeListener, start, stop, eventLoop"]}
{"id": "C115", "title": "A plan told to exit comes to an end", "statement": "From the moment the exit condition of a plan's root (or of any node) is true, no node at or below it starts executing; while it stays true each of these nodes makes only a bounded number of transitions, depending on its depth alone; and when the executive is at rest and aborts and updates have been confirmed, the whole plan is FINISHED.", "quantifier": "all plans (trees of any size and depth), all executions, all moments at which the condition becomes true, all orders of the queues", "why_tests_cant": "Termination and absence of deadlock of all trees of nodes under all schedules; tests sample a few plans.", "anchors": ["src/exec/NodeImpl.cc getDestState*", "src/exec/ListNode.cc getDestStateFromExecuting, getDestStateFromFailing, setState", "src/exec/PlexilExec.cc step", "src/exec/AssignmentNode.cc, CommandNode.cc, UpdateNode.cc getDestStateFromFailing"]}
{"id": "C116", "title": "Node predicates", "statement": "The node predicates (Succeeded, Failed, Skipped, Finished, PostConditionFailed, NoChildFailed, ...) are never unknown; of a FINISHED node exactly one of Succeeded, Failed, Skipped, interrupted holds, of any other none; an expression using a predicate is told of every transition that can change it; Succeeded means the last iteration ended in a situation in which the PostCondition was true.", "quantifier": "every plan, node, reachable state and transition", "why_tests_cant": "Holds for every plan containing the construct, every schedule of external events and every history; tests run a few plans with a few scripts.", "anchors": ["src/exec/NodeOperators.cc NodeSucceeded, NodeFailed, NodeSkipped, NodePostconditionFailed, AllFinished, NoChildFailed", "src/exec/NodeImpl.cc NodeImpl::getDestState", "src/exec/PlexilExec.cc PlexilExec::step"]}
{"id": "C117", "title": "A Sequence runs its children one at a time, in order", "statement": "In an execution of an UncheckedSequence or CheckedSequence, a child starts only when every child before it is FINISHED, and at any time all children before an active child are FINISHED; when nothing is left to check and the sequence is EXECUTING, its first unfinished child is active, or waits for its own StartCondition or for a mutex or variable.", "quantifier": "every sequence with any number of children inside any plan, every history", "why_tests_cant": "Holds for every plan containing the construct, every schedule of external events and every history; tests run a few plans with a few scripts.", "anchors": ["schema/epx-translator/sequences.xsl", "src/exec/NodeImpl.cc NodeImpl::getDestState", "src/exec/PlexilExec.cc PlexilExec::step"]}
{"id": "C118", "title": "A CheckedSequence stops at the first failure", "statement": "When a child of a CheckedSequence (or Sequence) has Failed no child starts, the sequence leaves EXECUTING for FAILING, and cannot remain EXECUTING or FINISHING; if the sequence Succeeded, all children are FINISHED and none Failed.", "quantifier": "every checked sequence inside any plan, every history", "why_tests_cant": "Holds for every plan containing the construct, every schedule of external events and every history; tests run a few plans with a few scripts.", "anchors": ["schema/epx-translator/sequences.xsl", "src/exec/NodeImpl.cc NodeImpl::getDestState", "src/exec/PlexilExec.cc PlexilExec::step"]}
{"id": "C119", "title": "If runs the part its condition selects", "statement": "The Then part of an If starts only when the condition is true, the Else part only when it is false; in one execution not both start, and exactly one has run once both are FINISHED; a part waits at rest only while the condition is unknown.", "quantifier": "every If with Then and optional Else inside any plan, every history, conditions that change at any time", "why_tests_cant": "Holds for every plan containing the construct, every schedule of external events and every history; tests run a few plans with a few scripts.", "anchors": ["schema/epx-translator/if-then-else.xsl", "src/exec/NodeImpl.cc NodeImpl::getDestState", "src/exec/PlexilExec.cc PlexilExec::step"]}
{"id": "C120", "title": "If with ElseIf runs the first clause whose condition is true", "statement": "A clause starts only if its condition was evaluated and true and the conditions before it were evaluated and not true, the Else clause only if all were not true; at most one clause runs; once all parts are FINISHED some clause has run, or there is no Else and no condition was true.", "quantifier": "every If with any number of ElseIf inside any plan, every history", "why_tests_cant": "Holds for every plan containing the construct, every schedule of external events and every history; tests run a few plans with a few scripts.", "anchors": ["schema/epx-translator/if-then-else.xsl", "src/exec/NodeImpl.cc NodeImpl::getDestState", "src/exec/PlexilExec.cc PlexilExec::step"]}
{"id": "C121", "title": "While repeats its action as long as its condition is true", "statement": "In an iteration of a While the action starts only if the condition was evaluated in this iteration and true; the loop repeats only if so; a loop that was not told to stop ends only after an iteration in which the condition was not true and the action did not start. A loop whose InvariantCondition fails ends with a failure.", "quantifier": "every While inside any plan, every number of iterations, every history", "why_tests_cant": "Holds for every plan containing the construct, every schedule of external events and every history; tests run a few plans with a few scripts.", "anchors": ["schema/epx-translator/while.xsl", "src/exec/NodeImpl.cc NodeImpl::getDestState", "src/exec/PlexilExec.cc PlexilExec::step"]}
{"id": "C122", "title": "Try tries its alternatives in order until one succeeds", "statement": "An alternative of a Try starts only when the one before it is FINISHED and no alternative before the last has Succeeded; if the Try Succeeded some alternative did; it does not get stuck between alternatives.", "quantifier": "every Try with any number of alternatives inside any plan, every history", "why_tests_cant": "Holds for every plan containing the construct, every schedule of external events and every history; tests run a few plans with a few scripts.", "anchors": ["schema/epx-translator/try.xsl", "src/exec/NodeImpl.cc NodeImpl::getDestState", "src/exec/PlexilExec.cc PlexilExec::step"]}
{"id": "C123", "title": "For and Do loops", "statement": "An iteration of a For starts only when the condition is true, the loop variable is updated only after the action is FINISHED, the loop ends only when the condition is false or it is told to stop; a Do repeats only when the condition is true, ends after an iteration only when it is false or it is told to stop.", "quantifier": "every For and Do inside any plan, every number of iterations, every history", "why_tests_cant": "Holds for every plan containing the construct, every schedule of external events and every history; tests run a few plans with a few scripts.", "anchors": ["schema/epx-translator/for.xsl", "schema/epx-translator/do.xsl", "src/exec/NodeImpl.cc NodeImpl::getDestState", "src/exec/PlexilExec.cc PlexilExec::step"]}
{"id": "C124", "title": "SynchronousCommand waits for the answer", "statement": "A SynchronousCommand ends normally only when the interface has answered or its own EndCondition is true, is aborted only when told to stop, when its own conditions say so or when its Timeout is over, and does not keep waiting once the interface has answered or the time is over; its result is assigned only once there is one; a checked one Succeeds only if the interface reported success (with a result: only if there is one and it was assigned).", "quantifier": "every SynchronousCommand, with or without result, Checked and Timeout, inside any plan, every order of answers, every history", "why_tests_cant": "Holds for every plan containing the construct, every order of answers from the interface and every history; tests run a few plans with a few scripts.", "anchors": ["schema/epx-translator/synchronous-command.xsl", "src/exec/CommandNode.cc CommandNode", "src/exec/NodeImpl.cc NodeImpl::getDestState"]}
{"id": "C125", "title": "OnCommand serves a command once, in order", "statement": "An OnCommand fetches parameters only once the command has come, starts its action only when all parameters were fetched successfully, sends the reply only after the action is FINISHED, starts nothing after a failure; waiting for the command and fetching a parameter end only when the value is there or the interface reports failure, and Succeed only if the interface reported success; it does not get stuck; it does not Fail because of the order in which value and success are reported.", "quantifier": "every OnCommand with any number of parameters inside any plan, every order of answers, every history", "why_tests_cant": "Holds for every plan containing the construct, every order of answers from the interface and every history; tests run a few plans with a few scripts.", "anchors": ["schema/epx-translator/on-command.xsl", "src/exec/CommandNode.cc CommandNode", "src/exec/NodeImpl.cc NodeImpl::getDestState"]}
{"id": "C126", "title": "TestExec answers the request the script names", "statement": "Whatever the plan does, each CommandAck, Command result, CommandAbort and UpdateAck of a script is told to exactly the request it names (the command sent last with that name and parameters; the update waiting), or the run ends with an error; lookups get the last value the script gave; denied commands are told so at once; nothing is told without a reason; every command sent can be answered.", "quantifier": "every script, every executive behaviour, every reachable point of a run", "why_tests_cant": "Every script, every executive and every order of requests; the regression tests are themselves scripts, each with one plan.", "anchors": ["src/apps/TestExec/TestExternalInterface.cc TestExternalInterface::run, executeCommand, invokeAbort, executeUpdate, handleCommand, handleCommandAck, handleCommandAbort, handleUpdateAck, handleState, handleSendPlan, handleSimultaneous, parseResult, parseParam, parseStateValue, parseOneValue"]}
{"id": "C127", "title": "TestExec plays the script in order, to the end", "statement": "A run reads the script in order, nothing twice and nothing left out, one executive step per element; it returns only when all is read and the executive needs no step; a failed run stopped at an element it does not know or that answers nothing; SendPlan adds the plan; each element meets a settled executive.", "quantifier": "every script, every executive behaviour, every reachable point of a run", "why_tests_cant": "Every script, every executive and every order of requests; the regression tests are themselves scripts, each with one plan.", "anchors": ["src/apps/TestExec/TestExternalInterface.cc TestExternalInterface::run, executeCommand, invokeAbort, executeUpdate, handleCommand, handleCommandAck, handleCommandAbort, handleUpdateAck, handleState, handleSendPlan, handleSimultaneous, parseResult, parseParam, parseStateValue, parseOneValue"]}
{"id": "C128", "title": "Values in scripts mean what they say", "statement": "In a script, an integer text gives that integer and a text that is no integer is an error; printed integers are read back; true and false are read in any case; strings are taken literally; Plexil_Unknown is unknown; an array has the elements written.", "quantifier": "every text, every list of child elements", "why_tests_cant": "All texts and all lists of elements.", "anchors": ["src/apps/TestExec/TestExternalInterface.cc TestExternalInterface::run, executeCommand, invokeAbort, executeUpdate, handleCommand, handleCommandAck, handleCommandAbort, handleUpdateAck, handleState, handleSendPlan, handleSimultaneous, parseResult, parseParam, parseStateValue, parseOneValue"]}
{"id": "C129", "title": "Exit functions run once, last registered first", "statement": "Calling plexilRunFinalizers calls every function registered with plexilAddFinalizer since the last run exactly once, the one registered last first, and nothing else; a second run calls nothing; a function registered by a function being run is called too.", "quantifier": "every number and order of registrations and runs, every behaviour of the functions", "why_tests_cant": "Any number of registrations (the table grows by reallocation), interleaved with runs.", "anchors": ["src/utils/lifecycle-utils.c plexilAddFinalizer, plexilRunFinalizers"]}
{"id": "C130", "title": "Debug messages are printed exactly when selected", "statement": "A debug statement prints if and only if a pattern given so far (by function or configuration file, before or after the statement was first executed) occurs in its marker; a line of the configuration gives the pattern in it without blanks, leading colon and comment, and a line without a pattern gives none.", "quantifier": "every sequence of first executions, enabling calls and configuration files; every line", "why_tests_cant": "The order of static message objects and patterns varies with the program; all texts of lines.", "anchors": ["src/utils/DebugMessage.cc DebugMessage::DebugMessage, enableMatchingDebugMessages, readDebugConfigStream, matches", "src/utils/Debug.hh debugMsg, condDebugMsg"]}
{"id": "C131", "title": "The viewer can tell what happened", "statement": "From the characters the viewer listener writes to the socket, the notifications can be recovered, all and in order, with the new state, outcome, failure type, values of conditions, path, variable names and values; each message says what the node was like after that transition.", "quantifier": "every sequence of notifications and every text in them; every order of events in a step", "why_tests_cant": "All strings a plan can assign, all numbers of conditions and path elements.", "anchors": ["src/interfaces/LuvListener/LuvFormat.cc formatTransition, formatAssignment, formatPlanInfo, formatPlan, formatLibrary", "src/interfaces/LuvListener/LuvListener.cc LuvListener::start, openSocket, sendMessage, waitForAck, implementNotify*", "src/interfaces/Sockets/Socket.cpp Socket::send, recv", "src/app-framework/ExecListenerHub.cc notifyOfTransitions, stepComplete"]}
{"id": "C132", "title": "The viewer cannot disturb the executive", "statement": "If the viewer cannot be reached and that is to be ignored, starting succeeds and notifications have no effect; if it is not to be ignored, starting fails; a blocking viewer is waited for until it answers each message, and no longer; a viewer that goes away does not disturb the executive.", "quantifier": "every notification, every behaviour of the viewer's side of the socket", "why_tests_cant": "Depends on when the peer closes and how its answers are chunked.", "anchors": ["src/interfaces/LuvListener/LuvFormat.cc formatTransition, formatAssignment, formatPlanInfo, formatPlan, formatLibrary", "src/interfaces/LuvListener/LuvListener.cc LuvListener::start, openSocket, sendMessage, waitForAck, implementNotify*", "src/interfaces/Sockets/Socket.cpp Socket::send, recv", "src/app-framework/ExecListenerHub.cc notifyOfTransitions, stepComplete"]}
{"id": "C133", "title": "A Wait takes as long as it says", "statement": "An Extended Plexil Wait of so many units ends, if nothing else ends it, not before that many units after it started EXECUTING, and as soon as the executive is told of a time that is not before that.", "quantifier": "every plan with a Wait, every history of reports of the time (never going back), every units, tolerance and margin of rounding", "why_tests_cant": "The end depends on which reports of the time come, and on the thresholds kept by the lookup.", "anchors": ["schema/epx-translator/wait.xsl Wait, wait-end-condition, wait-timed-out", "src/intfc/Lookup.cc LookupOnChange, ThresholdCache"]}
{"id": "C134", "title": "References to variables mean what they say", "statement": "A reference to a variable, to an element of a named array or to a whole array in a plan document is accepted if and only if a containing node of the same document (not only of the caller of a library) declares the name and it means a variable of that type there, and the reference then is to that variable.", "quantifier": "every position in every well-shaped plan, every name and type", "why_tests_cant": "Accepting depends on all declarations of all containing nodes and on the passing of parameters to libraries.", "anchors": ["src/xml-parser/findDeclarations.cc", "src/xml-parser/VariableReferenceFactory.cc", "src/xml-parser/ArrayReferenceFactory.cc", "src/xml-parser/ArrayVariableReferenceFactory.cc", "src/xml-parser/ExpressionMap.gperf"]}
{"id": "C135", "title": "First one and first zero of a set of bits", "statement": "The search for the first one (zero) bit of a word or of a bit set of any size answers the least index of such a bit, and says there is none exactly if there is none.", "quantifier": "every word of 64 bits, every bit set of every size", "why_tests_cant": "There are too many words, and bit sets have any size.", "anchors": ["src/utils/bitsetUtils.cc findFirstOne, findFirstZero", "src/utils/bitsetUtils.hh"]}
{"id": "C136", "title": "Plan statistics are right", "statement": "Every number analyzePlan reports of a plan (nodes of a type, children, variables, conditions, calls of a library, depth) is the number it says.", "quantifier": "every plan of any depth and size", "why_tests_cant": "Plans are trees of any size, and the statistics grow their vectors on demand.", "anchors": ["src/xml-parser/analyzePlan.cc"]}
{"id": "C137", "title": "An OnMessage runs its body once the message has come", "statement": "An Extended Plexil OnMessage waits for the message, runs its body only after that succeeded, Fails if either Fails, stops when the node around it is no longer EXECUTING, does not get stuck, and obeys the conditions its author gives it.", "quantifier": "every plan with an OnMessage, every history of messages and reports of the interface", "why_tests_cant": "When messages come, and in which order with the reports of the interface, is open.", "anchors": ["schema/epx-translator/on-message.xsl OnMessage, run-wait-command", "schema/epx-translator/translate-plexil.xsl handle-common-clauses, parent-id-value", "schema/epx-translator/sequences.xsl CheckedSequence"]}
{"id": "C138", "title": "Storing a value of any type in a variable is harmless", "statement": "Whatever value a lookup, a command or an expression delivers for an assignment of an accepted plan, the executive carries on; the variable gets the value (Integers become Reals where the variable is Real, arrays keep their elements), elements of arrays likewise, and other variables stay as they are.", "quantifier": "every variable of every type, every value of every type, every list of assignments of a cycle", "why_tests_cant": "Which type and size a value has that comes from outside is open until it is there.", "anchors": ["src/value/Value.cc getValue", "src/expr/UserVariable.cc setValue", "src/expr/ArrayVariable.cc setValueImpl, setElement", "src/expr/ArrayReference.cc setValue", "src/exec/Assignment.cc execute", "src/exec/PlexilExec.cc performAssignments", "src/intfc/CommandImpl.cc returnValue", "src/xml-parser/parseAssignment.cc", "src/utils/PlanError.cc"]}
{"id": "C139", "title": "The command line of universalExec means what its options say", "statement": "The options of universalExec can be given in any order and number that makes sense; the last one of a kind counts, libraries and directories add up in their order; anything else is rejected with exit code 2, and only a request for help ends the program with code 0.", "quantifier": "every list of arguments", "why_tests_cant": "Command lines are arbitrary lists of words, of any length.", "anchors": ["src/universal-exec/UniversalExec.cc main_internal, main"]}
{"id": "C140", "title": "universalExec does its steps in order, stops at the first failure, and says so in its exit code", "statement": "The exit code is 0 exactly if help was asked for, or the configuration, the interfaces, all libraries and the plan could be loaded and started; nothing is done after a step that failed except to stop what was started; finalizers are run in every case; the interface configuration used is that of the file.", "quantifier": "every command line, every outcome of every step", "why_tests_cant": "Which steps fail, in which combination, is open.", "anchors": ["src/universal-exec/UniversalExec.cc main_internal, main"]}
{"id": "C141", "title": "The simulator does what its script says", "statement": "A script of the stand-alone simulator is a list of declarations and of entries of two lines; comments and blank lines can be put anywhere; everything the script says is scheduled, with the types declared, in its order; a script that cannot be understood is rejected.", "quantifier": "every script file", "why_tests_cant": "Scripts are texts of any length with any lines.", "anchors": ["src/apps/StandAloneSimulator/LineInStream.cc getLine", "src/apps/StandAloneSimulator/SimulatorScriptReader.cc readScript", "src/apps/StandAloneSimulator/ResponseFactory.cc", "src/apps/StandAloneSimulator/PlexilSimResponseFactory.cc", "src/apps/StandAloneSimulator/PlexilSimulator.cc"]}
{"id": "C142", "title": "An interface named by its type is found, its library being loaded if needed", "statement": "If a type of adapter, listener or listener filter is registered, it is used without loading anything; otherwise the module of that name is initialised, from the process if it is there and else from its library, looked for under the three names, in order; the type can be used exactly if its module registers it; and what was found stays found.", "quantifier": "every set of libraries, process state, type and library path", "why_tests_cant": "Depends on what libraries exist and what was loaded before.", "anchors": ["src/utils/DynamicLoader.cc dynamicLoadModule", "src/utils/DynamicLoader.cc loadLibrary", "src/app-framework/AdapterFactory.cc createInstance", "src/app-framework/ExecListenerFactory.cc createInstance", "src/app-framework/ExecListenerFilterFactory.cc createInstance"]}
{"id": "C143", "title": "Factories are registered once and destroyed once", "statement": "However factories are made, each type has at most one factory at any time (for adapters the last made, for listeners and filters the first); a factory in a table is alive; when the tables are emptied each factory made has been destroyed exactly once; and no factory is used after it has been destroyed.", "quantifier": "every sequence of registrations", "why_tests_cant": "Sequences of registrations are unbounded and depend on the libraries loaded.", "anchors": ["src/app-framework/AdapterFactory.cc registerFactory", "src/app-framework/ExecListenerFactory.cc registerFactory", "src/app-framework/ExecListenerFilterFactory.cc registerFactory", "src/app-framework/AdapterFactory.hh AdapterFactory::AdapterFactory"]}
{"id": "C144", "title": "The timebase used is the one asked for, or the best", "statement": "Timebases are kept by name, the last registered with a name counting; if the configuration names a type, that one is used and it is an error if there is none; if not, one with the highest priority is used, the first by name among those; if there is any timebase, one is used.", "quantifier": "every sequence of registrations, every priority", "why_tests_cant": "All priorities and orders of registration.", "anchors": ["src/app-framework/TimebaseFactory.cc getBest", "src/app-framework/TimebaseFactory.cc makeTimebase", "src/app-framework/TimebaseFactory.cc get"]}
{"id": "C145", "title": "The command line of TestExec means what its manual says", "statement": "TestExec goes on if and only if its command line is a sequence of its options, each with its argument, in which a debug configuration is named at most once and not together with +d, a resource file at most once and not together with +r, and a plan and a script are given; then the settings are those given, the last counting, libraries and directories adding up in order; otherwise it ends with code 2, or with 0 for a request for help.", "quantifier": "every command line", "why_tests_cant": "Command lines are unbounded sequences of words.", "anchors": ["src/apps/TestExec/exec-test-runner.cc run"]}
{"id": "C146", "title": "TestExec runs the script only when everything is loaded, and its code says so", "statement": "The libraries named are loaded in order, under their name with .plx added if it lacks it, then the plan is loaded and given to the executive, then the script is run; the first failure ends the program, which ends with code 0 if the script was run and 1 otherwise; the executive is deleted and the finalizers run, in this order, whenever it ends.", "quantifier": "every set of files and every command line", "why_tests_cant": "The outcome depends on which of arbitrarily many files are there and well formed.", "anchors": ["src/apps/TestExec/exec-test-runner.cc run", "src/apps/TestExec/exec-test-runner.cc main", "src/xml-parser/parsePlan.cc loadXmlFile"]}
{"id": "C147", "title": "Answers to commands sent through IPC reach these commands", "statement": "The executive announces each command it sends through IPC once, in order; every answer that arrives under the number of a command is passed on to that command, once, in order of arrival and after the announcement; an answer is passed on to no other execution, and none to a command that is no more.", "quantifier": "every schedule of the executive and the dispatch thread, every sequence of commands, other messages and answers", "why_tests_cant": "Depends on the schedule of two threads and on answers coming at any time, also late or twice.", "anchors": ["src/interfaces/IpcAdapter/IpcAdapter.cc executeDefaultCommand", "src/interfaces/IpcAdapter/IpcAdapter.cc handleReturnValuesSequence", "src/interfaces/IpcUtils/IpcFacade.cc getSerialNumber"]}
{"id": "C148", "title": "An executive answers for its own states", "statement": "A state is answered for exactly if its name is declared in the configuration; others who ask are told the value last set by UpdateLookup for the state with these parameters, else for the state without, else the declared one (the first declaration counting); the plan's own lookups get the same; UpdateLookup tells the plan and the others the new value, and fails for names that are not declared.", "quantifier": "every configuration, every sequence of UpdateLookup commands, every name and list of parameters", "why_tests_cant": "Histories and parameter lists are unbounded.", "anchors": ["src/interfaces/IpcAdapter/IpcAdapter.cc executeUpdateLookupCommand", "src/interfaces/IpcAdapter/IpcAdapter.cc lookupNow", "src/interfaces/IpcAdapter/IpcAdapter.cc handleLookupNowMessages", "src/interfaces/IpcAdapter/IpcAdapter.cc parseExternalLookup", "src/interfaces/IpcAdapter/IpcAdapter.cc handleTelemetryValuesSequence"]}
{"id": "C149", "title": "An update says what the plan says and completes", "statement": "An Update element is accepted exactly if it consists of pairs, each with a name that is not empty and an expression, all names different; when the node is executed the value of each expression at its start is sent under its name, once, and nothing else; and through IPC the update is then acknowledged, so that the node can end.", "quantifier": "every document, every history of the node", "why_tests_cant": "Documents and histories are unbounded.", "anchors": ["src/xml-parser/updateXmlParser.cc checkUpdateBody", "src/xml-parser/updateXmlParser.cc finalizeUpdate", "src/exec/UpdateNode.cc fixValues", "src/interfaces/IpcAdapter/IpcAdapter.cc sendPlannerUpdate"]}
{"id": "C150", "title": "The configuration says who gets commands, lookups and updates", "statement": "With an accepted interface configuration a command goes to the last adapter whose element lists its name (or that has a command of this name of its own), otherwise to the last adapter marked as the default, otherwise it is acknowledged without effect; the same for lookups (listed or declared as external) and updates; it goes there once and nowhere else. A configuration is accepted exactly if its elements are complete and of types that exist.", "quantifier": "every configuration document: any number of adapters, lists and names; every command, lookup and update", "why_tests_cant": "All documents; depends on the order of many registrations.", "anchors": ["src/app-framework/Configuration.cc parseAdapterConfiguration", "src/app-framework/AdapterFactory.cc createInstance", "src/app-framework/AdapterConfiguration.cc constructInterfaces", "src/interfaces/IpcAdapter/IpcAdapter.cc initialize", "src/app-framework/UtilityAdapter.cc initialize"]}
{"id": "C151", "title": "The printing commands print what they are given", "statement": "print writes the texts of its arguments one behind the other, pprint writes each followed by a blank and then ends the line; printToString and pprintToString give the same texts as results and print nothing; each is acknowledged once, after its result; the output of a sequence of commands is all their contributions in order, and a line of pprint can be read back if no text has blanks.", "quantifier": "every sequence of commands, every list of arguments", "why_tests_cant": "All lists of arguments, all sequences.", "anchors": ["src/exec/plan-utils.cc print_aux", "src/app-framework/UtilityAdapter.cc executePrintToStringCommand"]}
{"id": "C152", "title": "A listener can follow the plan", "statement": "Whenever the executive is idle, the last transition a listener was told of for a node leads to the state the node is in (if it was told of none, the node is in the state it had when the listener was added); a listener that has asked for certain states only still knows exactly which nodes are in which of those states; the last value it was told of a variable, since the node declaring it last began to execute, is the value of the variable.", "quantifier": "every set of plans, every execution (external events, schedules, notification orders), every time at which a listener is added, every filter by states, every other listeners", "why_tests_cant": "Follows from the order of reports over a whole execution together with the executive's own transitions; tests look at single reports.", "anchors": ["src/exec/PlexilExec.cc step", "src/exec/Assignment.cc execute, retract", "src/app-framework/ExecListenerHub.cc stepComplete", "src/app-framework/ListenerFilters.cc reportNodeTransition"]}
{"id": "C153", "title": "Plans and libraries sent over IPC are loaded", "statement": "After any sequence of IPC messages that bring plans and libraries, as texts or as names of files: exactly the plans that can be read are queued for execution, in order, listeners are told of each and the executive is notified once for each; for every name the library is the last accepted one; what is refused changes nothing and is reported; a text and a file with the same contents have the same effect.", "quantifier": "every sequence of messages of the four kinds, every content, every state of the file system at each message", "why_tests_cant": "All sequences; depends on what other messages left in the table of libraries, and on two ways of reading XML.", "anchors": ["src/interfaces/IpcAdapter/IpcAdapter.cc receiveMessages, handlePlanFileMessage, handlePlanTextMessage", "src/app-framework/InterfaceManager.cc handleAddPlan, handleAddLibrary", "src/xml-parser/planLibrary.cc loadLibraryDocument", "src/xml-parser/parsePlan.cc loadXmlFile"]}
{"id": "C154", "title": "A semaphore wakes one waiter per post", "statement": "For any number of threads calling wait and post, with signals and errors at any time: what has been posted and not yet taken remains; no more calls of wait return 0 than calls of post; a signal neither makes wait return nor takes anything; when nothing more can happen and enough has been posted nobody is left waiting; wait returns an error only if the operating system reports one other than interruption; post fails only at the largest value.", "quantifier": "every number of threads, every schedule of calls, signals and errors, every largest value", "why_tests_cant": "All interleavings with signals.", "anchors": ["src/utils/ThreadSemaphore.cc wait, post"]}
{"id": "C155", "title": "What is reported is printed, logged, and decided by the user", "statement": "Every message reported is printed on the error stream, once, in order; with a log, the file in force (the last one named, or the default) gets one line for it with the time, after an introduction before the first line of the process; no other file is touched; every name of a file, of any length and in any order, is used as given. When asked, the user decides: the program goes on if the first line that is P or E is P, and exits otherwise; S shows the stack.", "quantifier": "every sequence of messages and names of files, every text the user types, every set of files that can be opened", "why_tests_cant": "All sequences; every length of names against the size of the buffer; every split of the input.", "anchors": ["src/utils/Logging.cc handle_message, print_to_log, set_log_file_name, prompt_user, print_stack"]}
{"id": "C156", "title": "Variables start with their declared values", "statement": "Whenever a node starts, each variable it declares has the value its declaration means: the literal's, the current value of an outer variable, the initial value of another variable declared with it, in whatever order they are declared; outer variables are not disturbed; when the node ends every variable is in use as much as before, so that the next iteration starts with the same values, whatever was assigned in the last one.", "quantifier": "every set of declarations, every order, every history of nodes starting and ending and values changing", "why_tests_cant": "All graphs of initializers, all histories; counts of uses shared between nodes and initializers.", "anchors": ["src/expr/UserVariable.cc handleActivate, handleDeactivate", "src/expr/Notifier.cc activate, deactivate", "src/exec/NodeImpl.cc activateLocalVariables, deactivateLocalVariables", "src/xml-parser/parseNode.cc constructVariableInitializers"]}
{"id": "C157", "title": "A node is of the type its element says", "statement": "A text names a type of nodes exactly if it is one of the six names, which read and print as each other; whatever nodes have been made before, an element with one of these names makes a node whose type has this name, and an element with any other name is refused.", "quantifier": "every text, every sequence of nodes made before", "why_tests_cant": "All texts; depends on a table filled at first use.", "anchors": ["src/exec/PlexilNodeType.cc parseNodeType, nodeTypeString", "src/exec/NodeFactory.cc createNode", "src/xml-parser/parseNode.cc checkNodeTypeAttr"]}
