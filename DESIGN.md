# Formal model of the PLEXIL executive in Lean 4

## Trusted base
* Lean 4.33.0's kernel, and the statements of the theorems. No axioms of our own, no compiled code in proofs. Axioms used by the theorems named in
  `MANIFEST.json` are listed one by one at the end of this file; they are at most Lean's `propext`, `Classical.choice`, `Quot.sound`.
* The reading of `/repo` recorded in the comment of every model definition (file and lines). The code was not built or run: the model was made by reading.
* C++ itself: undefined behaviour is an outcome of the model where the code can reach it, but compilers, the C++ library
  (`std::stable_sort`, `std::set`, `std::map`, iostreams) and the operating system's promises (a semaphore counts, a mutex excludes, a timer
  does not go off early) are taken to be what their documentation says.

## Layout
* `lean/Verif/<Module>/Model.lean` - executable model, function by function, citing `/repo` lines.
* `lean/Verif/<Module>/Spec.lean` - small independent specification vocabulary (where needed).
* other files of `lean/Verif/<Module>/` - helper lemmas, invariants.
* `lean/Verif/Props/<Module>.lean` - property theorems, each with a concrete, non-trivial example meeting its hypotheses.
* `seeded/LOG.jsonl` - wrong programs tried (edits of the model), and which theorems noticed.

## Modelling conventions
* Undefined behaviour / C++ assertion failures are a distinct outcome (`none` / an error), never totalised away.
* A mutating method is a function from the old to the new value.
* `char` signedness is a parameter where the code's behaviour depends on it.
* Expression values are `Option`-al: `none` = unknown. Null condition pointers are distinguished from unknown.
* Whatever a module does not model about its surroundings is a parameter or an arbitrary event, so theorems hold whatever it does.
* Where the code violates a property, the violation is itself a theorem about the model (a concrete run ending in the bad state), the proved remainder
  carries the suffix `_partial`, and the property keeps its full English statement with status `partial`.

## What is modelled, module by module
| module | code | not modelled / simplified |
|--------|------|---------------------------|
| Value | `value/ValueType.cc`, `Value.cc`, `Array.cc`, `ArrayImpl.cc`: equality, order, serialization to bytes, array elements | printing and parsing of values; `Value` constructors from vectors |
| Queue | `utils/LinkedQueue.hh` at the level of next pointers in a shared heap | - |
| Arbiter | `intfc/ResourceArbiterInterface.cc` | parsing of the hierarchy file; rounding of double sums (amounts are exact) |
| Node | `exec/NodeImpl.cc`, `ListNode.cc`, `AssignmentNode.cc`, `CommandNode.cc`, `UpdateNode.cc`: choice of the next state, bookkeeping of a transition, activation of conditions | node construction and destruction; time points |
| Exec | `exec/PlexilExec.cc`, the same node files, `Assignment.cc`, `expr/Reservable.cc`: notify, queues, resources, micro and macro steps, output, plan deletion | expressions are arbitrary functions of the observable state, and which nodes a change notifies is an arbitrary function (`Plan.wake`) - see the hypotheses below; the interface's side of commands is the environment |
| Expr | `expr/*Operators.cc`, `Comparisons.cc`, `Function.cc`, `OperatorImpl.cc`, the type checks of `xml-parser/*Factory.cc` | rounding of double operations is a parameter; dates and durations |
| Lookup | `intfc/Lookup.cc`, `StateCacheEntry.cc`, `StateCache.cc`, `CachedValueImpl.cc` | non-numeric values; rounding; messages |
| Notify | `expr/Listenable.hh`, `Notifier.cc`, `Propagator.cc`, the listener and activation members of all expression classes | values; overflow of the activation count |
| Var | `expr/UserVariable.cc`, `ArrayVariable.cc`, `ArrayReference.cc`, `exec/Assignment.cc` | IEEE comparison of a new with an old real |
| App | `app-framework/ExecApplication.cc`, `InterfaceManager.cc` (threads, semaphores, queue, marks) | signals, exceptions, forced kill |
| Input | `app-framework/SimpleInputQueue.cc`, `SerializedInputQueue.cc`, `intfc/QueueEntry.cc`, `InterfaceManager.cc` (both ends of the queue) | destruction of the queue |
| Time | `utils/timeval-utils.cc`, `timespec-utils.cc`, `app-framework/ItimerTimebase.cc`, `PosixTimebase.cc`, `TimeAdapter.cc` (`timeout`) | overflow of `time_t`; failing system calls; `DispatchTimebase.cc` |
| Scope | NodeImpl.cc findVariable/findMutex/variable maps, ListNode.cc 218-232, 380-394, LibraryCallNode.cc, NodeVariableMap.cc, parseNode.cc 204-403, 816-857, 1095-1236, parseLibraryCall.cc, parseNodeReference.cc, planLibrary.cc lookup | XML syntax, several In/InOut elements, the types of default values, loading files |
| Udp | UdpAdapter.cc 86-98, 241-293, 532-575, 660-757, 825-1312, udp-utils.cc, MessageQueueMap.cc/.hh, UdpEventLoop.cc 58-82, 546-566 | XML of declarations, sockets, the event loop and threads, debug output |
| Text | ValueType.cc 47-120, 205-328, 420-520, NodeConstants.cc, CommandHandle.cc, stricmp.c, ConstantFactory.cc, ArrayLiteralFactory.cc, ArrayVariableFactory.cc | reals as text (strtod), XML reading, line numbers in errors |
| Timepoint | NodeTimepointValue.cc, NodeImpl.cc 1478-1581, InternalExpressionFactories.cc 155-210 | who is notified (Notify) |
| Keys | State.cc 140-310, StateCache.cc 68-127, SimpleMap.hh, SimpleSet.hh, NodeVariableMap.cc | `std::map` (a sorted sequence, as specified), `SimpleMap` initialiser lists and erase by iterator |
| Command | CommandImpl.cc, CommandHandleVariable.cc, CommandNode.cc 40-71, 167-187, 458-536, UpdateNode.cc 86-293, 391-493, AdapterConfiguration.cc 351-450, 506-611, InterfaceManager.cc 160-240, 455-589 (command entries), PlexilExec.cc 610-634 | expressions (a value per environment), who listens (Notify), deletion, C++ memory of queue entries |
| Cache | StateCacheEntry.cc, StateCache.cc 60-140, CachedValueImpl.cc, CachedValue.cc | time stamps (C41-C44), thresholds (Lookup), who listens (Notify) |
| Message | StateCache.cc messageReceived .. releaseMessageHandle, InterfaceManager.cc 282-341, 455-589, QueueEntry.cc, MessageAdapter.cc 111-303 | transport; the unsynchronised `std::queue` (a data race) |
| Listen | ExecListenerHub.cc, ExecListener.cc, ExecListenerFilter.cc, ListenerFilters.cc, InterfaceSchema.cc, the reporting calls of PlexilExec.cc and Assignment.cc | construction and life cycle of listeners; what they do with reports |
| Sim | Agenda.cc, CommandResponseManager.cc, Simulator.cc, TimingService.cc of the stand-alone simulator | script reader, message encoding; the clock read by gettimeofday is arbitrary but does not go back |
| Exec/Wiring, Props/Wiring | the composition of the models Exec, Node and Notify | aliases (C50 is false for them) |
| Life | initialize, startInterfaces, stop, terminate of the application; construction, initialize, start, stop of adapters and listeners | what components do meanwhile; the waits in stop |
| Route | registration of handlers, the dispatcher, the built-in handlers, executeOutboundQueue | what handlers do; threads |
| Ipc | IpcFacade.cc: packets, assembly, subscriptions, encoding of values; IpcAdapter.cc: lookupNow and its answers, labels and names of messages | the IPC library, pairs of planner updates, plans sent through IPC, external lookups, pending commands |
| Decl | parseGlobalDeclarations.cc, SymbolTable.cc, LookupFactory.cc, commandXmlParser.cc; push and pop of symbol tables in parsePlan.cc, parseLibraryCall.cc | expressions are their types; library node declarations (never used by the code); pugixml |
| Launcher | app-framework/Launcher.cc; the part of parseLibraryCall.cc, ConstantFactory.cc, ArrayLiteralFactory.cc that reads its wrapper plan; FIFO input queue | libraries are a function telling which arguments they take; reals are any type with any writing and reading; strings are lists of characters |
| Library | utils/SimpleMap.hh, map-utils.hh; xml-parser/planLibrary.cc, loadXmlFile; library members of InterfaceManager.cc | documents are addresses with a name, a verdict of checkPlan and a number for the contents; files are any function, another at every call |
| Sockets | interfaces/UdpAdapter/UdpEventLoop.cc | descriptors, ports, functions are numbers; one caller at a time; poll, read, write, close do not fail; what listener functions do is not modelled |
| Exec/ExitSpec, Exec/Exit | NodeImpl.cc, ListNode.cc, PlexilExec.cc (the Exec model) | nothing new is modelled |
| Exec/SyncSpec, Exec/SyncRun | PlexilExec.cc step (the Exec model) | nothing new is modelled: synchronous executions and the refinement |
| Exec/Pend, Exec/Span | PlexilExec.cc step (the Exec model) | nothing new is modelled: PENDING nodes, executions of one node within a history |
| Epx (Model, Spec, Lemmas, Span, Sequence, If, Tests, Chain, Example) | schema/epx-translator sequences.xsl, if-then-else.xsl, while.xsl, try.xsl, for.xsl, do.xsl; src/exec/NodeOperators.cc | the translation is modelled as the Core PLEXIL nodes it writes, run by the Exec model; conditions are functions of what can be observed; renaming, declarations, priorities, wrappers for declarations are not modelled |
| Epx/CommandModel | schema/epx-translator synchronous-command.xsl, on-command.xsl | as Epx; a handle, and whether a result variable has a value, are functions of what can be observed; results in array elements are not modelled |
| Script | src/apps/TestExec/TestExternalInterface.cc | the executive is any machine with step, needsStep and requests in its step; XML is parsed; reals in scripts are texts; C++ library number reading as in libstdc++ |
| Finalize | src/utils/lifecycle-utils.c | allocation does not fail |
| Debug | src/utils/DebugMessage.cc, src/utils/Debug.hh | the stream is a list of lines; markers are fixed texts |
| Luv | src/interfaces/LuvListener/LuvFormat.cc, src/interfaces/LuvListener/LuvListener.cc, src/interfaces/Sockets/Socket.cpp, src/app-framework/ExecListenerHub.cc:60-114 | plan XML is a text; a send writes all or fails |
| Epx/WaitModel | schema/epx-translator/wait.xsl | times are exact integers; the lookup is that of Lookup/Model; start time and units are functions of what can be observed |
| Scope/RefModel | findDeclarations.cc, VariableReferenceFactory.cc, ArrayReferenceFactory.cc, ArrayVariableReferenceFactory.cc, ExpressionMap.gperf | over the frames of Scope/Model; indices of elements are not looked at |
| Bits/Model | src/utils/bitsetUtils.cc, .hh | words and bit sets are natural numbers below 2^size |
| Analyze/Model | src/xml-parser/analyzePlan.cc | the document is a tree of nodes with type, name of library, number of declarations and conditions; an increment outside a vector is "no result"; printing left out |
| Epx/CommandModel (onMessage) | schema/epx-translator/on-message.xsl | names and declarations of the handle variable left out |
| Assign/Model | src/value/Value.cc:742-894, src/expr/UserVariable.cc:286-303, src/expr/ArrayVariable.cc:232-239, 593-692, 744-807, src/expr/ArrayReference.cc:250-256, src/exec/Assignment.cc:142-149, src/exec/PlexilExec.cc:594-606, src/xml-parser/parseAssignment.cc:85-128 | variables of the eight types; a plan error is `none`; Integer to Real is an abstract function |
| Main/Model | src/universal-exec/UniversalExec.cc:48-364 | built with the viewer; what is printed left out; files and the results of the calls are a `World`; the number after -n is a function |
| SimScript/Model | src/apps/StandAloneSimulator/LineInStream.cc:62-115, SimulatorScriptReader.cc:101-302, ResponseFactory.cc:36-144, PlexilSimResponseFactory.cc:45-113 | numbers and values read by functions given; managers without responses and line numbers left out |
| Factory/Model | src/utils/DynamicLoader.cc:41-247, src/app-framework/AdapterFactory.cc:52-127, ExecListenerFactory.cc:81-152, ExecListenerFilterFactory.cc:78-157, TimebaseFactory.cc:42-121 | libraries by the functions in them; making of components left out |
| Runner/Model | src/apps/TestExec/exec-test-runner.cc:65-457 | what files contain, and the outcome of the script, are parameters; printing left out |
| Ipc/Adapter | src/interfaces/IpcAdapter/IpcAdapter.cc:570-720, 899-1061, 1087-1133; IpcFacade.cc:1015-1017 | IPC accepts every message; return values are well formed and belong to no lookup; atomic numbers |
| UpdateXml/Model | src/xml-parser/updateXmlParser.cc:41-98; IpcAdapter.cc:770-788 | checking and creating expressions are parameters |
| Config/Model | src/app-framework/Configuration.cc:42-113; AdapterFactory.cc:48-90; AdapterConfiguration.cc:186-333, 677-690; IpcAdapter.cc:140-192, 1087-1131; UtilityAdapter.cc:89-100 | adapter types, libraries, listeners and reading of values are parameters; paths left out |
| Print/Model | src/exec/plan-utils.cc:38-80; UtilityAdapter.cc:52-76 | writing one value is a parameter; output never fails |
| Follow/Model | PlexilExec.cc:353-369, 387-388; Assignment.cc:142-160 | which calls of the hub belong to an event of the executive; transitions of a round one by one |
| Ipc/Plans/Model | IpcAdapter.cc:253-280, 795-849; InterfaceManager.cc:345-386; parsePlan.cc:45-65 | well-formedness, parsePlan, checkPlan, files are parameters; white space as documented by pugixml; the race between the dispatch thread and the executive on the table of libraries is not modelled |
| Sema/Model | utils/ThreadSemaphore.cc:104-153 | OS semaphore by its POSIX description; Mach variant, construction, order of service not modelled; myDebugMsg assumed to leave errno alone |
| Logging/Model | utils/Logging.cc:53-291 | clock, process number, stack, terminal, files that can be opened are parameters; the error stream is one stream |
| Init/Model | UserVariable.cc:213-260; Notifier.cc:99-124; NodeImpl.cc:1824-1838 | one type of values, no arrays; recursion bounded by a number that the theorems show to be enough |
| NodeType/Model | PlexilNodeType.cc:32-99; NodeFactory.cc:88-156; parseNode.cc:89-104 | a node is its class; the constructors are modelled elsewhere or not at all |
Not modelled at all: the XML parser apart from type checks and the parts named above, the plan compilers (`compilers/`, `viewers/`, Java code), interface adapters
other than those named, Luv, test executives, simulators other than those named.

### Hypotheses of the theorems about the executive
* `Reach p s`: `s` is reachable by any interleaving of environment changes and executive steps in the plan `p`. `ReachN`: additionally every change of something a
  condition reads notifies the nodes reading it (`Notifies`); that the expression network does this is C47/C50. `TreeOK`: parents form a tree.
* `Notifies`, `TreeOK` are met by the examples beside the theorems.

## Plan per property
| id | what is modelled | how it is proved |
|----|------------------|------------------|
| C01, C02 | `getDestState*` of all five node classes, as a function of node type, state, parent state, failure type and a valuation of the conditions | case analysis; lifted to all histories by an invariant of the Exec model, with a separate rule in terms of plan conditions (`Exec/Rule.lean`) |
| C03, C04, C05 | node record + `transition`, plan tree, `PlexilExecImpl::step` | inductive invariants over all reachable exec states |
| C06 | exec model | false of the code (race in one micro step): concrete counterexample, plus `_partial` theorem under the hypothesis that the ancestor-end condition still holds |
| C07 | check phase and transition phase of `step` | permutation independence; comparison with the synchronous step of the specification |
| C08 | notify / queue-status protocol | invariant "whatever is enabled is queued" |
| C09 | `resourceCheckEligible`, `resolveResourceConflicts` | code violates it: concrete counterexamples; partial theorems for the paths that are right |
| C10, C11 | `Reservable`, `tryResourceAcquisition` | invariants over executions |
| C12 | `transitionToFinished`, `transitionToIterationEnded` | code violates it for FINISHED: counterexample; partial for ITERATION_ENDED; full for variables |
| C13 | `PriorityQueue::insert` on a heap of next-pointers; the pending queue | refinement to stable sorted insertion; invariant of executions |
| C14, C15, C35, C36 | `Assignment`, variables, output queues | history invariants of executions |
| C16 | output queues of `step` | history invariant: log of effects against what was scheduled |
| C17-C20, C29, C30 | the arbiter, over exact rationals; hierarchy expansion | invariants over histories; counterexample for negative (producer) requests and for explicit amounts; well-founded / divergent recursion |
| C21, C22 | linked queue over a pointer heap | refinement to `List`; counterexample for `insert_after` at the tail |
| C23-C25 | byte-level serializers | round-trip theorems; counterexample for arrays whose size has a byte >= 128 on signed-char platforms |
| C26 | `Value::lessThan`, `Value::equals`, doubles as nan / -inf / rational / +inf | order laws; counterexamples for NaN, unknown Integer vs unknown Real, stale contents |
| C27 | `BooleanOperators.cc` loops | equality with Kleene fold, permutation invariance; counterexamples for OR and XOR of three operands |
| C28 | `Array`, `ArrayImpl` | laws of partial maps, invariant |
| C31 | activations in `NodeImpl.cc` 1683-1840 and the transition functions | counting invariant over all lives of a node; counterexample: exit condition of commands |
| C32, C33 | queue assertions; `deleteFinishedPlans` | invariants; counterexamples |
| C34, C51-C54 | variables, array variables, element references, batches of assignments | refinement to cells / arrays for all histories; counterexamples |
| C37-C41 | operators, type checks of the parser | equality with mathematical operations; induction over expressions for C41 |
| C42-C46 | lookups, thresholds, cache | invariants over histories of updates, activations and tolerance changes; counterexamples |
| C47-C50 | listener graph | exact characterisation of who is told (inductive relation `Affects`), counting invariants; counterexamples |
| C55 | entries with a free list, linked lists, producers and consumer | refinement to a FIFO queue; counterexamples |
| C56-C59 | threads of `ExecApplication` | invariants over all interleavings; deadlock-freedom; counterexample schedules |
| C60-C63 | time arithmetic, conversions, timers | exact arithmetic; invariant over histories of signals; counterexamples |
| C64-C68 | the path from a node to the root as a list of elements; frames with variable maps and alias maps; acceptance and resolution as functions | independent environment-passing semantics (Scope/Spec.lean), induction over the path; expansion with a nesting limit, accessibility of the call relation |
| C69-C71 | buffers as lists of bytes with out-of-bounds as an outcome; writing, reading, queues of pairs, names of queues | induction over parameters and elements with a write/read invariant at every offset; invariant of the queues over histories; injectivity of the names |
| C72-C74 | `strtol` as the C standard defines it, the two readers, the name tables, array literals with the list of unknown elements | a grammar of integer constants (Spec) equal to the reader, by induction over digits; injectivity of name tables; induction over elements |
| C75 | the list of timepoints of a node, `setState`, any type of time | "last such transition with no reset after it" over the list of transitions (Spec), by induction from the end of the history |
| C76-C78 | bisection, sorted lists, `State`, the map of the cache, serialisation of C23 | a key that identifies states up to equality, lexicographic order on keys; invariant "sorted, one number per entry" over all requests; maps as functions (Spec) |
| C79 | the queues of the Exec model | the invariants of reachable states (C05-C16) plus one for finished roots |
| C80-C82, C84 | the members of CommandImpl and UpdateImpl, the registry | specification as functions of the history (Spec); one invariant per object by induction from the end of the history |
| C83 | many commands with the arbiter of C17-C20 | the ledger of C20 refined by histories of commands |
| C85 | a cell per state, the histories of answers | the last heard answer as a function of the history (Spec), invariant by induction from the end |
| C86-C88 | adapter, input queue and cache together | one invariant relating what the cache shows after the pending entries to the queue; an inductive predicate for intended use of handles; counterexamples |
| C89, C90 | the hub as a function on histories of calls, filters as predicates; texts as lists of characters | induction over the history; a grammar of lists of names (Spec), induction over it |
| C91–C93 | the simulator with its agenda, interval timer and managers as a transition system over an arbitrary clock; the loop of two threads separately (Race) | an invariant over histories (permutation of what was scheduled, sortedness), induction over the depth of handleWakeUp |
| C94 | a plan whose conditions are expressions of a network (Wiring) | composition: reads_only (C31), c47/c49 (network), C08 |
| C95 | application with flags, components, log of calls; answers of components an arbitrary function of the log | invariants over all histories; log lemmas |
| C96 | tables as functions, histories of registrations and requests | invariant: table entry = last registration |
| C97 | user code as an arbitrary function of the log to returns/InterfaceError/other | case analysis; induction over the outgoing requests |
| C98 | receiver as a map of incomplete messages; arrivals as prefixes interleaved arbitrarily | invariant over the interleaving: entry = what has arrived |
| C99 | lists of listeners, std::remove as it works | induction over histories |
| C100 | two threads as a transition system, mutex sections as steps | inductive invariant over schedules; explicit schedules for what is false |
| C101 | values to packets and back, C strings cut | iff with a separate list of values |
| C102 | labels as characters, atoi as strtol of the Text module | digits lemmas; last underscore |
| C103 | checks as functions on types of arguments | iff with place-wise agreement, induction over parameters |
| C104 | XML trees of declarations, as the author writes them | round trip; invariant: table = declarations read |
| C105 | stack and current table against an environment | mutual induction over nested files |
| C106 | double loop over names | iff, induction |
| C107 | write and read of the wrapper plan | round trip per value, iff with the form of a good call; arithmetic on serial numbers |
| C108 | transition system: commands, FIFO queue, plans in the exec | invariant: entries processed are a prefix of those put |
| C109 | listener as a function of cycles | fold over publications, induction over cycles |
| C110 | binary search over a sorted list | loop invariant of lower_bound, refinement to functions |
| C111 | search path as a list of places | exact case distinction |
| C112 | ownership of documents by address | invariant: live documents are a permutation of those in the table |
| C113 | kernel sockets, event thread with a program counter, one caller | invariant of all interleavings (tables fit, history of every session, phases of a call) |
| C114 | the same | progress: every round of the event thread comes to an end and answers the request |
| C115 | the Exec model, trees of nodes with finite height | potential: every transition under a true exit condition lowers a rank of (state, state of the parent), paid for by the parent; invariants for INACTIVE children and unfinished assignments; induction over the height |
| C116 | node predicates as functions of state, outcome, failure | case analysis over the consistency invariant; history of the last iteration |
| C117 | nodes written by sequences.xsl inside any plan of the Exec model | refinement to synchronous steps (SyncRun), invariant along one execution of the parent; progress from the quiescence theorem |
| C118 | the same | the same |
| C119 | nodes written for If | invariants along one execution: exclusive parts, opposite parts |
| C120 | nodes written for If with ElseIf, any number of branches | induction over the chain of tests; verdicts of tests |
| C121 | nodes written for While | verdict of the test in each iteration |
| C122 | nodes written for Try | as C117 |
| C123 | nodes written for For and Do | every transition is the one decided in the situation logged |
| C124 | nodes written by synchronous-command.xsl inside any plan of the Exec model; handle and result change at any time | every transition is the one decided in the situation logged; at rest nothing is decided |
| C125 | nodes written by on-command.xsl | as C118 and C124 |
| C126 | the tables of TestExec (waiting acks, executing, aborting, updates, states) and its run over a script against any executive | invariants over runs: each table is the fold of the trace so far |
| C127 | `run`: InitialState, one step per element, steps until none is needed | invariant relating the trace to the position in the script |
| C128 | parseResult, parseStateValue, parseParam, parseOneValue with the C++ stream rules | case analysis on the text; number reading by the strtol model of C72 |
| C129 | the table of finalizers with its capacity, and the run over it | invariant: the table is the registrations since the last run |
| C130 | the list of message objects and patterns; reading a configuration | invariant: enabled = a pattern occurs in the marker; lines by induction on blanks |
| C131 | the texts of messages; the batch of transitions of a step | unique readability of the element grammar; invariant over events of a step |
| C132 | the socket as a peer that accepts sends and returns chunks | induction on chunks and messages |
| C133 | the translation of Wait, over Exec/Model and Lookup/Model | invariant that a lookup of a state that never goes back never reports more than the state; the EndCondition is the only way out |
| C134 | the check and the construction of references | both searched names against the specification of C64 |
| C135 | the searches in words and bit sets | induction over halvings and over words |
| C136 | the traversal and its counters | induction over the tree: every counter grows by the number of nodes visited |
| C137 | the translation of OnMessage, a CheckedSequence with a waiting command | C117 and C118 applied to it; the invariant with the parent |
| C138 | the variables of a plan, values of every type stored in them | cases on types; induction on the list of assignments |
| C139 | the loop over the arguments | specification by options and how they are written; unique reading; strong induction on the arguments |
| C140 | the steps of main_internal as a list of events | cases on the results of the steps |
| C141 | the file as lines, the loop over them | a grammar with its meaning as specification; induction on it; simulation for comments |
| C142 | files, symbols, tables of factories | case analysis of the loader; what is found specified by the first file that opens |
| C143 | the tables and the factories destroyed | induction on registrations; permutation of all factories made |
| C144 | sorted table, the loop over it | sortedness; first maximum |
| C145 | the loop over the words | the settings read so far are the meaning of the options read so far, by induction; options are rendered injectively |
| C146 | the program as a list of steps and an end | case analysis; induction on libraries |
| C147 | two threads between mutexes, numbers, the table of pending commands | invariant by induction on histories: the table is the list of recorded commands; the queue is what was heard |
| C148 | table of states, declarations, UpdateLookup | induction on declarations and updates |
| C149 | checks and loops over the element, composed with the model of UpdateImpl (C84) | induction on children; c84_update |
| C150 | document → parsed configuration → registrations → tables of C96 | "latest registration" of a concatenation; induction over adapters, lists and external lookups; composed with C90 (lists) and C96 (routing) |
| C151 | loop over arguments, four handlers | induction on arguments and commands |
| C152 | execution of Exec → calls → Hub of Listen | log of an idle executive is whole steps (C16), hence cycles of C89; chain of transitions (C01) for filters; per-step invariant for variables |
| C153 | messages → queue, notifications, table of libraries of C112 | induction on messages; composed with C112; mutual induction on XML trees for white space |
| C154 | threads in wait, OS semaphore → returns | invariant over all schedules; removing signals from a schedule |
| C155 | calls → error stream, log files, buffer of the name, dialogue | induction on calls from the end; induction on lines typed |
| C156 | declarations, counts, values → values at start, counts at end | induction on the depth of initializers; an invariant of counts over histories that determines them |
| C157 | texts → types → classes, through the array of factories | case analysis on the first character; invariant of the array |
## Findings (violations of the properties in the code, each a theorem)
* C06: False of the code: proved counterexample C06_child_left_running (list FINISHED, child EXECUTING, all notifications delivered). Proved when the children are told to stop by an ancestor condition that still holds at the start of the micro step.
* C09: False of the code, two proved counterexamples (lost forever; skipped). Proved: release wakes every waiter; waiters are served when no condition of a waiting node has changed.
* C100: Proved if each question is answered at most once, by a reply handled after the executive has noted the number of its question, and there is no telemetry about the state. Without: a fast reply is dropped and the executive blocks for ever; a second answer makes the next lookup return unknown, or the value of the other state; without an answer the executive blocks for ever.
* C101: The theorem says exactly which values do: Booleans, numbers, strings without zero bytes, arrays of such without unknown elements, untyped unknown. Others are lost (command handles, states, outcomes, failures, arrays with unknown elements) or changed (strings cut at a zero byte; unknown values lose their type).
* C102: Labels are proved; names except that a plain message whose text is the internal name of a queue is taken for the command.
* C103: Lookups: exactly as stated. Commands: if the call has an Arguments element; without one the call is accepted whatever is declared (commandXmlParser.cc:385-400), and a result variable of any type is accepted for a command declared without a return value. Declarations of library nodes are never compared with anything.
* C104: Proved for declarations in the form of the schema. Others may be accepted: what follows AnyParameters in a command declaration is used but not checked.
* C106: Proved but for the bound: two upper bounds (or releases) in one resource are accepted. Names that are computed may of course coincide. A real priority passes the check and is refused later.
* C107: Exact characterisation for strings without zero bytes. Arrays are always refused, since the launcher writes an element type the parser does not know; three command handles cannot be passed; reals arrive as written and read again (15 digits). Identifiers differ for 2^32 starts. Proved about a wrapper plan that is written and read by the model of the parser.
* C108: For plans started by the launcher. For other root plans the command succeeds too, without any effect; another root plan of the same name makes it fail.
* C109: PlanState: always. PlanOutcome and PlanFailureType: for plans that do not repeat and whose identifier is unique (as those of the launcher); for a repeating plan they can be left over from an earlier iteration, or never be published.
* C111: Exact characterisation. Missing from what a user expects: a file of the right name with a wrong root hides the right one further on the path (c111_hidden); a library called with its directory is read again at every call (c111_by_path).
* C112: As long as no document is handed over twice: then it is deleted but stays in the table (c112_again). handleLoadLibrary reports success for an invalid new version if an old one is there (c112_stale_success).
* C113: For proper use: no port opened twice, no error on a socket. Missing: a port opened twice (which UdpAdapter does at every second ReceiveCommand) loses datagrams (c113_reopen) and hangs (c113_reopen_hangs); an error on a socket stops all (c114_error); empty datagrams are dropped and the sender of the first one is lost (c113_example).
* C114: For proper use. Missing, as the code does not: restart (c114_no_restart reports success without a thread), stop twice (c114_stop_twice), closing a port not open (c114_close_unknown), errors on a socket (c114_error).
* C115: No start and termination are proved in full. At rest, missing because the code does not: the root stays in ITERATION_ENDED if its Repeat condition is unknown (C115_repeat_unknown_refuted), and nodes that wait for a mutex or variable can be forgotten (C09).
* C117: Proved when no transition is made while a child's ExitCondition is true. False otherwise (C117_exit_refuted): a child still WAITING is skipped by its ExitCondition, and the child after it starts although the child before it is EXECUTING.
* C119: Exactly one: proved for parts without Start, Skip, Exit condition of their own that wait for no resource. With a StartCondition of its own a part may be skipped after the other was: neither runs (C119_own_start_refuted).
* C12: False of the code for mutexes when a node goes directly from a running state to FINISHED (proved counterexample C12_mutex_leaks; NodeImpl.cc:1377-1384 releases only when coming from WAITING). Proved for nodes never cut off that way, and without exception for the variables of Assignment nodes.
* C121: False for the invariant (C121_invariant_refuted): the RepeatCondition looks only at the test, so after a failed InvariantCondition the loop starts another iteration and may end with SUCCESS.
* C123: An iteration of a For starts also when the condition is unknown (C123_unknown_refuted); proved is: not when it is false.
* C124: With a result and not Checked, it waits for ever when the command fails (C124_failed_stuck) or the time is over (C124_timeout_stuck): only the Command node ends, nothing starts or ends the assignment. Checked with a result, a denied command is aborted although it was never sent (C124_denied_aborted).
* C125: The last clause is false (C125_early_refuted): if the executive looks at the plan after the value came and before success was reported, the OnCommand Fails. The rest is proved; C125_progress leaves open a parameter node that was called off (its ancestor ends).
* C126: The last clause is false: when two commands with the same name and parameters are active the first can no longer be answered (c126_shadowed). The rest is proved.
* C127: Two clauses are false: SendPlan never adds a plan (c127_sendPlan_refuted); the next element may be read while the executive still needs a step (c127_unsettled_refuted). The rest is proved. Termination of the final loop is not claimed (a plan may need steps for ever).
* C128: False and shown so: a text that is no number is 0, an empty one indeterminate, too large a number is clamped and what follows a number is ignored (c128_int, c128_no_number_refuted); a Boolean parameter `true` is false (c128_param_bool_refuted); parameters after an array result become elements (c128_array_refuted); the result cannot be the empty string (c128_empty_result_refuted). Reals are not modelled.
* C129: Proved if no function registers another one while being run. The last clause is false: what such a function registers is never called (c129_late_refuted), or takes the place of another one which is then never called (c129_displaced_refuted).
* C130: The last clause is false of a line with only a colon: it gives the empty pattern and enables all messages (c130_colon_refuted). The rest is proved.
* C131: Proved for texts without `<` and the end-of-message character (c131_readable), for the sequence of transitions with node and new state (c131_once), and, of outcome and conditions, for nodes that change no more in the step (c131_says). False otherwise: nothing is escaped, so one assignment can look like two (c131_markup_refuted); messages are written at the end of the step with the outcome and conditions of that moment (c131_late_refuted). XML of plans is an opaque text.
* C132: The last clause is false: when the viewer has gone, the next notification throws SocketException, which is no std::exception and which nobody catches (c132_gone_refuted); and an answer with anything before the end-of-message character is never recognised (c132_blocking_refuted). The rest is proved.
* C133: Not early is proved. The second half is false: a report of the time within the margin of rounding (Lookup.cc:691-695) before the end makes the lookup change without ending the Wait, and it then changes again only after another tolerance, which by default is the units (C133_doubled_refuted). Proved: it ends before start + units + tolerance has passed (C133_ends), since the lookup lags behind by less than the tolerance (C133_report).
* C134: Proved for variables and elements of arrays. For whole arrays the check that the document declares the name is missing: a library can use an array passed under a name it does not declare (c134_undeclared_refuted). Variables of type Date or Duration can be declared but no reference to them is accepted (c134_date_refuted).
* C136: Proved for plans whose root has children. False for a single node without children: the vector of numbers of children is incremented out of bounds (analyzePlan.cc:79-84,108; c136_leaf_refuted). The printing is not modelled.
* C137: Order, waiting, failure, the parent and progress are proved. False: the translator drops the author's conditions and variables (on-message.xsl:69-82; C137_conditions_refuted: starts although its StartCondition is never true), and a message that is seen before the report of success makes it Fail (C137_early_refuted).
* C138: Exactly when storing fails is proved, what is stored, and that a cycle of assignments is performed if all right-hand sides have types known when the plan is read and deliver values of that type, not larger than declared. False otherwise: an undeclared lookup is accepted for a variable of any type, and a value of another type is a plan error, which ends the process (Value.cc:742-894, PlanError.cc:70-77; c138_untyped_refuted); so does an array larger than declared (c138_size_refuted).
* C139: For every list of arguments exactly when the program goes on and with which settings, when it prints its usage and when it is rejected. False: the order matters, since a host given before -v is taken as a request for help: the plan is not run and the exit code is 0 (UniversalExec.cc:140-145; c139_order_refuted). The number after -n is a function of its text (a text that is no number silently gives 0).
* C140: Proved: the exit code, the steps and their order, that they are a first part of all steps, that the application is stopped if there is a plan. False: if the executive cannot be started the interfaces already started are not stopped (317-320; c140_stop_refuted); of a configuration file that is not well-formed the part read before the error is used although the message says it is not (226-238; c140_config_refuted, given that the XML library keeps that part); of two viewers in the file only one is replaced (259-264; c140_viewer_refuted). The exit code says nothing about the plan's outcome.
* C141: Proved for all files ending with a newline whose lines that begin with a letter or digit are a script (with declarations, or in the old way); that other lines never matter; and that a wrong line (declared twice, a name not declared, a type without Lookup or Command) after a part of a script rejects it, after exactly what the part says was scheduled. False: a value beginning with a minus sign (or point, or quote) is taken as a comment, so the next entry is taken for the value (LineInStream.cc:74-77; c141_negative_refuted); an entry whose numbers cannot be read silently ends the script, which is accepted (SimulatorScriptReader.cc:147-152; c141_error_refuted); a comment without newline at the end is taken as a line (c141_comment_refuted); the last response without a newline is dropped (c141_last_refuted); the simulator ignores whether the script was accepted (PlexilSimulator.cc:135). Reading of numbers and values is abstract.
* C142: Proved for every world of libraries. False in two cases: if the first file that can be opened has no function for the module the others are not tried (DynamicLoader.cc:98-121; c142_other_refuted); and any function of the process with the name init<type>, e.g. initstate of the C library for type "state", is called as if it were the module's (DynamicLoader.cc:162, 210; c142_collision_refuted). What a library runs when it is opened, and making the component itself, are left out.
* C143: Proved for all sequences. False: a listener or filter factory made for a type that has one is deleted inside the constructor of its base class, and the constructor of the class goes on with the destroyed object (ExecListenerFactory.cc:142-147, ExecListenerFactory.hh:108-112); exactly when this happens is c143_constructors_partial; a configuration with an InterfaceLibrary element naming LuvListener does it (c143_twice_refuted).
* C144: Proved for all tables over any linearly ordered names. False only if all priorities are the least int: then there is said to be no timebase (TimebaseFactory.cc:83-86; c144_least_refuted). Destruction of a replaced timebase factory is not modelled.
* C145: Proved for all command lines. False for files named `error`: the word marks a plan or script that was not given, so such a file is refused (exec-test-runner.cc:76-77, 249-257; c145_error_refuted). How the number after -n is read is left out.
* C146: Proved for all files and settings when the files of plan and script are well-formed XML or absent and the script throws nothing. False otherwise: after the error message for a malformed file the pointer to the document, which was never set, is used (exec-test-runner.cc:358-369, 411-421; c146_malformed_refuted), and an exception of the script is caught by nobody (c146_throws_refuted).
* C147: The queue of the executive is characterised for every schedule with fewer than 2^32 messages. False in four ways: an answer heard before the number is recorded is lost, since it is recorded after sending (IpcAdapter.cc:644-660; c147_early_refuted); one heard before the announcement is followed by COMMAND_SENT_TO_SYSTEM, which is then the last handle (662; c147_sent_last_refuted); commands are never forgotten, so a late answer counts for the next execution (c147_again_refuted) or uses a command deleted with its plan (c147_destroyed_refuted). The counter of numbers is atomic in the model.
* C148: Proved but for the plan's own lookups of a declared state with parameters that were never set: others get the default, but the plan's own lookup is sent to the others (IpcAdapter.cc:708-718 has no such case; c148_default_refuted), who need not answer (C100). Commands and questions are one after the other: UpdateLookup holds another mutex than the readers (602 against 709, 1021), a data race in the code. States are compared without NaN.
* C149: Proved for updates with a pair. An update without pairs is accepted, but IPC neither sends nor acknowledges it, so its node waits for ever (IpcAdapter.cc:776-779; c149_empty_refuted). Anything after the expression in a Pair is ignored. How values are put into packets is not modelled for updates.
* C150: Proved for lists that are names separated by commas, for the IPC and printing adapters, with any other adapters registering what they like. False in two ways: the lists of an adapter that is also the default are ignored, so the command goes to another adapter that lists it, even one before (Configuration.cc:75-79; c150_default_refuted); a blank in front of a comma becomes part of the name, and the command is acknowledged as successful by nobody (InterfaceSchema.cc:58-61; c150_blank_refuted).
* C153: Proved for plans sent as texts and libraries sent either way. False of plans sent as names of files: the handler compares the type with the wrong constant (IpcAdapter.cc:813), so the plan becomes a library, may replace one, and is never run (c153_file_refuted). A text and a file with the same contents differ if an element contains only white space: as a text the string of a blank becomes the empty string (c153_blank_refuted; IpcAdapter.cc:831 against parsePlan.cc:52).
* C155: Printing, logging and names are proved in full. The user's decision is proved for lines of at most 6 characters; false of longer ones: the rest of a long line is taken for another answer (c155_decides_refuted; buffer of 8 in Logging.cc:213). Without a terminal a message that asks ends the process (c155_no_terminal), with exit code 0.
* C156: Proved when no variable is initialized from itself, directly or through others. False otherwise, though the parser accepts it: the variable is never released and keeps the value of the last iteration (c156_cycle_refuted). One type of values; conversion of integers to reals and arrays are not in this model.
* C157: Proved until the finalizers run. Afterwards a node would be made with a deleted factory: the array is not cleared (c157_finalized_refuted; NodeFactory.cc:91-97). A node is modelled by its class.
* C17: One batch: full. Histories: when no amount is negative; false with producers (counterexample). Exact arithmetic instead of double rounding.
* C22: Missing: insertion behind the last item, proved to break the queue (finding).
* C24: Full on unsigned-char platforms. On signed-char platforms proved exactly for sizes whose three bytes are all below 128, and proved false for every other size (finding).
* C26: Strict weak order and equivalence for all NaN-free values; consistency between the two except for the three cases proved to be counterexamples.
* C27: AND (any arity) and NOT are Kleene. OR and XOR only for one or two operands: OR of three or more operands is false when it should be unknown (exact characterisation proved), XOR of three or more never gives a truth value. Both are bugs of the code, shown by counterexamples.
* C29: Set of charged resources: full. Precedence of explicit amounts is false of the code (std::set::insert does not overwrite): counterexample, and the case that holds.
* C31: Proved for all node types but the Exit condition of Command nodes, for which the property is false in the code (CommandNode.cc:205 activates it a second time): proved as C31_command_exit_leaks.
* C32: False of the code for one assertion (counterexample); all others proved unreachable.
* C33: False of the code for descendants of the root (counterexample); proved for the root itself.
* C34: Proved for values known when saved. c34_unknown_reported_known: for an unknown one getSavedValue reports as known whatever was in memory (UserVariable.cc:393-402).
* C41: The code violates it in three ways, each shown by a counterexample; proved for all expressions free of these three.
* C42: Proved for lookups without tolerance and for Real states. False of Integer states: after known, unknown, known-near-the-old-value a lookup keeps reporting unknown (c42_integer_false); the rest of the claim is proved for Integers too. Reals are exact numbers in the model.
* C43: Proved for all events but one: when the tolerance of the lookup itself becomes unknown the reported value may change and nobody is told (c43_tolerance_unknown_false).
* C44: Proved for every lookup with a tolerance that reports a known value, in histories where no tolerance shrinks. The code violates the rest in four ways, each shown by a counterexample: lookups without tolerance are ignored, a shrunk tolerance does not update the thresholds, an unknown value leaves them in place, and removing the last lookup does not tell the interface.
* C48: Proved for graphs whose lookups have at most four parameters. c48_five_parameters: with more, GeneralExprVec::removeListener adds instead of removing (ExprVec.cc:260-266), and the lookup stays registered with every parameter.
* C50: Proved where no aliases occur. c50_alias: an Alias passes changes on but does not activate its target (no handleActivate), so a lookup passed to a library node by alias is not active and its changes are not heard.
* C52: The parts that fail in the code are stated: c52_size_shrinks (reactivation with a smaller size), c52_element_unknown_silent (setElementUnknown tells no one), c52_restore_wrong (a write followed by setUnknown is not undone).
* C53: Retraction proved if the index has not changed. c53_index_moved: the index is evaluated again at the retraction, so if it has changed another element is overwritten and the assigned one stays.
* C54: Proved if no other assignment of the step writes the index variable or the array. c54_index_assigned_first: otherwise the index is read when the assignment is executed.
* C55: Refinement of a FIFO queue for every history, at the level of the linked lists. It fails for accepted messages (QueueEntry.cc:127-131 drops the handle, so the assertion at InterfaceManager.cc:557 fails: c55_accept_crashes), and SerializedInputQueue::flush deadlocks unless empty (c55_flush_deadlock).
* C57: c57_processed holds for every schedule. That the executive has been stepped is proved for the first call only: c57_later_call shows later calls may return before the step, since the semaphore stays up. Return is proved if marks are numbered and queued one call after the other; c57_overlapping_calls shows a call that hangs otherwise.
* C58: Not too early: proved if plans are added while the worker is blocked and no earlier report is outstanding; c58_race and c58_second_plan show it returns too early otherwise. That completion is announced is proved for every schedule.
* C59: Background mode: never blocks (the queue's own short mutex is not modelled). Opportunistic mode: the calling thread locks the non-recursive exec mutex twice (ExecApplication.cc:662, 490) and blocks for ever, with everyone else.
* C61: Fails out of range (the result is not set) and for going back and forth (the fraction is cut off: 1.000001 becomes 1 s 0 us).
* C62: Fails for the interval timer when the request is for the present microsecond: setitimer gets zero, which switches it off. DispatchTimebase is not modelled.
* C63: Fails for the Posix timer above 2^32 ns (32-bit product) and for restarting (m_started is never cleared).
* C64: Proved for every path, under the hypothesis that the root of a called library, if a list, declares a variable. Without it the property is false of the code (c64_bare_root): ListNode.cc:224-231 looks for the nearest ancestor with its own variable map and so passes over the call's alias map; names in the library then designate the caller's variables.
* C65: Proved for assignments to whole variables. False for elements of arrays (c65_element_written): the error for a read-only array is caught and dropped (ArrayReferenceFactory.cc:184-189) and the element assignment writes the caller's array.
* C66: Proved when the mutex is declared in the document or no node above the library call declares a mutex of that name. False otherwise (c66_captured): the search continues in the caller's nodes, so a library's global mutex is captured by a local mutex of the caller (NodeImpl.cc:1647-1679).
* C69: The layout and the round trip are proved for every declaration and all values. The full property is false: a message whose first parameter is not a string, or that has none, can never be sent (c69_first_string, UdpAdapter.cc:244-256); 2-byte reals are accepted in declarations but never sent or read (c69_float2); a datagram that is too short delivers bytes of an earlier one (c69_short_datagram). The status of sendto is ignored by the code and the network is not modelled.
* C70: Proved for every history, except that an aborted command keeps its place and takes a message (c70_aborted, UdpAdapter.cc:532-575), so the last part of the property is false of the code. Also setAllowDuplicateMessages(false) does not remove older messages as its documentation says (c70_not_removed).
* C73: Names are proved unambiguous for all texts. The last part is false: a plan cannot write COMMAND_ABORTED, COMMAND_ABORT_FAILED and COMMAND_INTERFACE_ERROR (ConstantFactory.cc:391-404).
* C74: Literals are proved; sizes are proved when written in decimal without a leading zero. Otherwise the property is false: the size is checked in base 0 but allocated in base 10 (ArrayVariableFactory.cc:77, 189), so 0x10 allocates 0 elements.
* C76: Proved for states without NaN parameters; false with them (c76_nan: a NaN parameter is served by the entry of another state).
* C77: Proved below 2^24 parameters (with the condition on signed char of C24). False beyond: the count is truncated, and a name of 2^24 bytes crashes the writer instead of being refused (State.cc:221-224). The functions are not used outside tests in this tree.
* C81: Values proved in full. Announcements are false at a restart (c81_restart_silent: the handle becomes unknown without notice, CommandImpl.cc:436). A response to an earlier execution that is processed during a later one counts for the later (c81_late_response), and abort acknowledgements count even before the abort (c81_abort_order).
* C83: Proved if adapters do not respond COMMAND_DENIED themselves; false otherwise (c83_denied_leaks, CommandImpl.cc:498): the resources of the command are never released.
* C85: Proved with 'last answer that was heard'; equal to the last answer if all answers for a state have the type of the first (or are Integers for a Real, or untyped unknowns). False otherwise (c85_not_heard): an answer of another type is dropped and the old value stays.
* C87: Proved of the state cache when its interface is used as intended. False of the whole program: the adapter's handles are always empty and the queue entry drops the handle, so no message data are ever readable (c87_never_readable), and a ReleaseMessageHandle command can crash the exec (c87_crash_example).
* C88: Proved for commands with arguments in order. False for all others (c88_always_success, c88_handle): the error paths do not return, so the command is answered again, and ends with COMMAND_SUCCESS.
* C90: Proved for lists with blanks only in front of names or at the end. False for a blank in front of a comma: the name is not recognised and silently ignored (c90_blank_before_comma, InterfaceSchema.cc:57-61); names that are no states are not refused (c90_no_such_state).
* C91: Proved: nothing lost, doubled, invented or early; order of times (no negative delays). False: responses due at the same time are sent in reverse (c91_tie, Agenda.cc:119); if a command is handled while the simulator's own thread wakes up, a response may be sent early or the program stops (c91_race, c91_race_crash).
* C92: Proved for histories in which no response is due at a full second or in the very microsecond in which the clock is read. False otherwise: c92_forgotten (`tv_sec != 0 && tv_usec != 0`, Simulator.cc:344), c92_forgotten_now (a timer set to zero is off, TimingService.cc:190).
* C95: False in general; each part is proved under the weakest assumption found, with a counterexample without it: components added after initialize are started uninitialized; after a failed start those started before are left running, stop does nothing, and a retry starts them twice; initializing again after stop creates every component a second time.
* C97: An InterfaceError of an update handler or of setThresholds/clearThresholds is not caught: the exception leaves the executive in the middle of a step. The second part is proved without these, and without other exceptions and empty functions.
* C98: Proved for messages of at most 65535 parameters with different identifiers (sender, serial). Both limits are needed: 65536 parameters are announced as none and lost; a sender that starts counting again while one of its messages is incomplete makes an assertion fail in the receiver.
* C99: Proved as long as no single listener is removed. unsubscribe is wrong (std::remove without erase, on copies for the listeners by type): it never reduces the number of calls, has no effect on listeners by type or on the last listener to all, and otherwise makes the last listener hear everything twice.

Seen while reading, outside the model: `OperationFactory.cc:100-105` frees the wrong arguments after an error; queue entries hold raw `Command*`/`Update*` pointers that
`deleteFinishedPlans` may have freed before a late acknowledgement is processed; `MessageAdapter.cc:194-289` sends COMMAND_SUCCESS after COMMAND_FAILED;
`DispatchTimebase` restarted after `stop` does not activate its timer.
`UdpEventLoop::openListener` on a port that is already open drops the new listener, leaks its socket and polls the first one twice; `UdpAdapter.cc:277-292` ignores the status of the send and reports success.
* `NodeVariableMap::clear` (NodeVariableMap.cc:47-56) sets keys to null but does not clear the map, so a later search would `strcmp` a null pointer.
* `State::serialize` (State.cc:221-224) uses the null pointer returned for a name of 2^24 bytes or more; a NaN parameter is served by the cache entry of another state.
* `CommandImpl::deactivate` (CommandImpl.cc:498) does not release the resources of a command whose handle is COMMAND_DENIED, also if it was the adapter that said so after the arbiter had let the command through: the resources stay in use for ever.
* `CommandImpl::activate` (CommandImpl.cc:436) resets the handle without publishing, so a condition elsewhere that waits for the handle to become unknown is not woken.
* Responses carry no execution: an acknowledgement of an earlier execution still in the queue completes the next one.
* A command node whose abort handler throws stays FAILING until some later positive acknowledgement (AdapterConfiguration.cc:538-543).
* With the debug flag on, `processQueue` and `handleCommandAck` call `getCommand()` on a command that may have been deactivated, which fails an assertion (InterfaceManager.cc:172, 490).
* `StateCacheEntry::update` drops an answer whose type is not that of the cell (StateCacheEntry.cc, CachedValueImpl.cc): lookups keep reading the old value. An interface that answers an Integer first and Reals later shows the first Integer for ever.
* MessageAdapter.cc: message handles are always empty, so message data are never readable; the message commands answer COMMAND_SUCCESS after COMMAND_FAILED; ReleaseMessageHandle of a handle whose parameter count was looked up dereferences a null pointer (StateCache.cc:187); `QueueEntry::initForAcceptMessage` drops the handle; the queue of messages is used by two threads without a lock.
* `parseCommaSeparatedArgs` (InterfaceSchema.cc:57-61) keeps blanks in front of a comma as part of the argument; `NodeStateFilter` ignores names it does not know.
* Simulator: responses due at the same time are sent in reverse (Agenda.cc:119); a response due at a full second or at the moment the timer is set is forgotten (Simulator.cc:344, TimingService.cc:190); handleWakeUp is run by two threads without a lock; numberOfResponses above 1 sends one response.
* A component that fails to start leaves those before it running; `stop` then does nothing (ExecApplication.cc:589) and a retry starts them again; `initialize` after `stop` creates all components a second time (C95).
* An InterfaceError thrown by an update handler or by setThresholds/clearThresholds is not caught (AdapterConfiguration.cc:501-520, 577) (C97).
* IPC messages with 65536 parameters lose them (IpcFacade.cc:717, 16 bit count); a restarted sender can make the receiver assert (IpcFacade.cc:1261) (C98).
* `IpcFacade::unsubscribe` does not unsubscribe (IpcFacade.cc:646-648) (C99).
* `IpcAdapter::lookupNow` can block for ever, return unknown, or the value of another lookup (IpcAdapter.cc:739, 744, 940, 955-962) (C100).
* Not in theorems: `handlePlanFileMessage` compares with AddPlan instead of AddPlanFile (IpcAdapter.cc:813), so plan files are always added as libraries; `sendPlannerUpdate` without pairs never acknowledges (776-779); `m_pendingCommands` is filled after sending and never cleaned (655-661); `m_externalLookups` is written under another mutex than it is read (602, 709); pairs with unknown or array values dereference null (IpcFacade.cc:982).
* A call of a declared command without `<Arguments>` is not checked (commandXmlParser.cc:385) (C103); duplicate bounds in a resource are not noticed (commandXmlParser.cc:59) (C106); what follows `<AnyParameters>` is used unchecked (parseGlobalDeclarations.cc:98) (C104).
* Not in theorems: `Symbol::parameterType` reads past the end for n = size (SymbolTable.cc:76; no caller does); library node declarations are stored and never used; a library called by path is loaded again at every call and replaces (deletes) the document and symbol table in use (planLibrary.cc:179-186).
* StartPlan never accepts an array: `valueToExprXml` writes `Type="IntegerValue"` (Launcher.cc:136) (C107). ExitPlan reports success for root plans it has no effect on (C108). PlanOutcome/PlanFailureType are never reset and can belong to an earlier iteration (C109).
* A library document added twice is deleted but stays in the table (planLibrary.cc:157-161) (C112); handleLoadLibrary reports success for an invalid file if an older version is loaded (InterfaceManager.cc:395-397) (C112). Not in theorems: `NodeVariableMap::clear` frees its keys but keeps the entries (NodeVariableMap.cc:47-56).
* Every second ReceiveCommand for the same message opens its port again (UdpAdapter.cc:328, 807): the new socket leaks and its datagrams are never read, the old one is polled twice, so recvfrom blocks and closeListener hangs (C113). The sender of the first datagram is lost (addrSizeBuf is 0, UdpEventLoop.cc:77, 554) (C113). After stop, start reports success without a thread; stop twice closes a descriptor twice; closing a port not open follows a null pointer (266); an error on one socket ends the event thread, and the next call gets SIGPIPE (C114). Not in theorems: a listener function that calls closeListener would deadlock; m_sem is shared by all callers.
* The exit condition is not looked at in ITERATION_ENDED (NodeImpl.cc:1269-1341): a plan told to exit stays there as long as its Repeat condition is unknown, and repeats once (to WAITING, then FINISHED with outcome SKIPPED) if it is true (C115).
* Extended PLEXIL translation: an ExitCondition of a waiting child breaks the order of a sequence (C117); an interrupted child does not make a CheckedSequence fail; a plain If waits while its condition is unknown, an If with ElseIf and While treat unknown as false, For as true, Do waits in ITERATION_ENDED; a plain If may run neither part (C119); a While restarts after its invariant failed (C121).
* Not in theorems: `* except StartCondition|SkipCondition` (if-then-else.xsl:95, 172; try.xsl:55) means `(* except StartCondition) | SkipCondition`, so a SkipCondition is duplicated and the parser rejects the plan (parseNode.cc:651-656); a Try with End or Post condition of its own gets a malformed one, without actions an empty one (try.xsl:70-145); do.xsl:126-138 writes NodeType="ListNode" and no NodeList; generated ids such as Then may clash among siblings; a generic Lookup in an If condition becomes LookupNow; the branch of else-clause for no ElseIf is dead code.
* SynchronousCommand and OnCommand: C124, C125. Not in theorems: `$userConditions/* except InvariantCondition` duplicates the author's InvariantCondition (synchronous-command.xsl); sync-cmd-with-array-elt-var uses $arrayDecl/Type instead of $arrayDecl/DeclareArray/Type, so a result for an array element gives an invalid plan (synchronous-command.xsl:177-200); `tr:conditions($action) except StartCondition` duplicates the StartCondition (on-command.xsl:311); an action that is itself SendReturnValue loses name and arguments (on-command.xsl:371-408); a parameter with InitialValue ends GetParameter at once; on-message.xsl drops the author's conditions and declarations; the default Tolerance of Wait is its Units.
* TestExec: C126-C128. Not in theorems: m_commandAcks entries are never erased, so an ack for a finished command is still delivered; a second update of a node of the same name is lost by `insert`; a CommandAck whose value is no handle name sets NO_COMMAND_HANDLE; InitialState is ignored silently if its first child is no element; exec-test-runner.cc:358-376 uses an uninitialised document pointer when loading throws.
* LUV viewer, exit functions, debug configuration: C129-C132. Not in theorems: `Socket::send` ignores short writes (Socket.cpp:206); `purgeNodeFactories` leaves dangling pointers with s_inited true (NodeFactory.cc:90-125); registering an adapter factory twice replaces it, a listener filter factory is ignored the second time.
* A Wait can last nearly twice as long as asked (C133_doubled_refuted).
* A library can use a whole array passed under a name it does not declare (c134_undeclared_refuted); Date and Duration variables can not be referred to (c134_date_refuted).
* analyzePlan writes outside a vector for a plan of one node (c136_leaf_refuted).
* OnMessage drops the conditions and variables its author gives it (C137_conditions_refuted).
* A value of a type that does not fit, delivered by an undeclared lookup, ends the executive (c138_untyped_refuted).
* universalExec: `-h host` before `-v` prints the usage and ends with code 0 (c139_order_refuted); interfaces are not stopped if the executive cannot be started (c140_stop_refuted); part of a malformed configuration is used (c140_config_refuted).
* The simulator takes negative values in its script for comments (c141_negative_refuted), and runs with what it read before an error (c141_error_refuted).
* Making a listener factory twice goes on constructing a deleted object (c143_twice_refuted); a module whose name makes init<name> a function of the C library calls that (c142_collision_refuted).
* TestExec uses an uninitialised pointer after reporting that a plan or script is not well-formed XML (c146_malformed_refuted); a plan or script called `error` is taken for none (c145_error_refuted).
* IPC commands: fast answers are lost or overtaken by COMMAND_SENT_TO_SYSTEM (c147_early_refuted, c147_sent_last_refuted); late ones reach the next execution or a deleted command (c147_again_refuted, c147_destroyed_refuted). An Update without pairs waits for ever with IPC (c149_empty_refuted).
* Configuration: names listed by an adapter that is also the default are ignored (c150_default_refuted); a blank in front of a comma becomes part of the name, and commands of nobody are reported successful (c150_blank_refuted).
* IpcAdapter: a plan sent as the name of a file is loaded as a library and never run (c153_file_refuted); in a plan sent as text, strings of white space become empty (c153_blank_refuted).
* Logging: the rest of a line longer than 6 characters is taken for an answer (c155_decides_refuted); with -eprompt and no terminal the first error ends the process with code 0 (Logging.cc:215-222).
* Variables: one initialized from itself is accepted, is never released, and keeps its value from iteration to iteration (c156_cycle_refuted).
* NodeFactory: after the finalizers nodes are made with deleted factories (c157_finalized_refuted).
## Axioms of each theorem
`p` = propext, `c` = Classical.choice, `q` = Quot.sound.

* C01: `Props.Node.C01_destination_in_diagram` p, `Props.Node.C01_every_edge_possible` p, `Props.Exec.C01_history` pcq, `Props.Exec.C01_states` pcq
* C02: `Props.Node.C02_stop_precedence` p, `Props.Node.C02_executing_normal_end` pcq, `Props.Node.C02_finishing_normal_end` pcq, `Props.Node.C02_waiting` pcq, `Props.Node.C02_iteration_ended` p, `Props.Node.C02_inactive_finished` p, `Props.Node.C02_failing` p, `Props.Node.C02_unknown` pq, `Props.Conditions.C02_decision_is_rule` pcq, `Props.Conditions.C02_history` pcq
* C03: `Props.Exec.C03_consistent` pcq, `Props.Exec.C03_spelled_out` pcq
* C04: `Props.Exec.C04_clean_slate` pcq
* C05: `Props.Node.C05_parent_gates_child` p, `Props.Node.C05_list_waits_for_children` p, `Props.Exec.C05_history` pcq
* C06: `Props.Sync.C06_no_active_children_partial` pcq, `Props.Sync.C06_child_left_running` pcq
* C07: `Props.Sync.C07_synchronous` pcq, `Props.Sync.C07_synchronous_resources` pcq, `Props.Sync.C07_order_independent` pcq, `Props.Sync.C07_history` pcq, `Props.SyncRun.C07_refines_synchronous` pcq, `Props.SyncRun.C07_transition_synchronous` pcq
* C08: `Props.Quiet.C08_quiescence` pcq, `Props.Quiet.C08_quiescence_resources` pcq
* C09: `Props.Quiet.C09_lost_node` pcq, `Props.Quiet.C09_skipped_node` pcq, `Props.Sync.C09_release_wakes_partial` pcq, `Props.Sync.C09_served_partial` pcq
* C10: `Props.Exec.C10_mutual_exclusion` pcq, `Props.Exec.C10_holds` pcq, `Props.Exec.C10_no_stealing` pcq
* C100: `Ipc.Rendezvous.c100_answers_partial` pcq, `Ipc.Rendezvous.c100_progress_partial` pcq, `Ipc.Rendezvous.c100_example` p, `Ipc.Rendezvous.c100_polite_example` pq, `Ipc.Rendezvous.c100_early_reply_hangs` pq, `Ipc.Rendezvous.c100_second_answer_unknown` pq, `Ipc.Rendezvous.c100_second_answer_wrong` pq, `Ipc.Rendezvous.c100_no_answer_hangs` pcq
* C101: `Ipc.c101_same_value_partial` pcq, `Ipc.c101_example` pq, `Ipc.c101_lost` pcq, `Ipc.c101_changed` pcq
* C102: `Ipc.c102_label` pcq, `Ipc.c102_label_unique` pcq, `Ipc.c102_names_partial` pcq, `Ipc.c102_example` pcq, `Ipc.c102_message_as_command` pcq
* C103: `Decl.c103_lookup` pcq, `Decl.c103_lookup_constant` pq, `Decl.c103_command_partial` pq, `Decl.c103_undeclared` pq, `Decl.c103_example` p, `Decl.c103_no_arguments_unchecked` pq, `Decl.c103_no_return_unchecked` p
* C104: `Decl.c104_declarations` pcq, `Decl.c104_order` pcq, `Decl.c104_example` pcq, `Decl.c104_trailing_unchecked` pcq, `Decl.c104_malformed` pcq
* C105: `Decl.c105_scope` p, `Decl.c105_example` -
* C106: `Decl.c106_resources_partial` pq, `Decl.c106_accepts` pq, `Decl.c106_two_bounds` p, `Decl.c106_real_priority` p, `Decl.c106_types` pq
* C107: `Launcher.c107_start_partial` pcq, `Launcher.c107_ids` pcq, `Launcher.c107_example` pcq, `Launcher.c107_ids_example` pcq, `Launcher.c107_arrays_refused` pcq, `Launcher.c107_zero_byte` pcq, `Launcher.c107_ids_again` pcq
* C108: `Launcher.c108_exit_partial` pcq, `Launcher.c108_known` pcq, `Launcher.c108_effect` pcq, `Launcher.c108_example` pcq, `Launcher.c108_not_started` pcq, `Launcher.c108_ambiguous` pcq
* C109: `Launcher.c109_state` pcq, `Launcher.c109_outcome_partial` pcq, `Launcher.c109_example` pcq, `Launcher.c109_once_example` pq, `Launcher.c109_stale` pcq
* C11: `Props.Exec.C11_all_or_nothing` pq
* C110: `Library.c110_map` pcq, `Library.c110_strings` pq, `Library.c110_example` pcq
* C111: `Library.c111_get_partial` pcq, `Library.c111_reachable` pcq, `Library.c111_names` pcq, `Library.c111_hidden` pcq, `Library.c111_by_path` pcq, `Library.c111_paths` pcq
* C112: `Library.c112_documents_partial` pcq, `Library.c112_latest` pcq, `Library.c112_example` pcq, `Library.c112_again` pcq, `Library.c112_stale_success` pcq
* C113: `Sockets.c113_delivery_partial` pcq, `Sockets.c113_all_read` pcq, `Sockets.c113_sockets` pcq, `Sockets.c113_closed` pcq, `Sockets.c113_example` p, `Sockets.c113_example_proper` p, `Sockets.c113_reopen` p, `Sockets.c113_reopen_hangs` p
* C114: `Sockets.c114_returns_partial` pcq, `Sockets.c114_no_restart` p, `Sockets.c114_stop_twice` p, `Sockets.c114_close_unknown` p, `Sockets.c114_error` p
* C115: `Props.Exit.C115_no_start` pcq, `Props.Exit.C115_bounded` pcq, `Props.Exit.C115_bounded_by_parent` pcq, `Props.Exit.C115_children_active` pcq, `Props.Exit.C115_at_rest_partial` pcq, `Props.Exit.C115_all_finished_partial` pcq, `Props.Exit.C115_repeat_unknown_refuted` pcq
* C116: `Props.Epx.C116_finished` pcq, `Props.Epx.C116_postcondition_failed` pcq, `Props.Epx.C116_known` -, `Props.Epx.C116_told` pcq, `Props.Epx.C116_not_told` pq, `Props.Epx.C116_succeeded` pcq
* C117: `Props.Epx.C117_after_predecessor` pcq, `Props.Epx.C117_in_order_partial` pcq, `Props.Epx.C117_one_at_a_time_partial` pcq, `Props.Epx.C117_progress` pcq, `Props.Epx.C117_exit_refuted` pcq
* C118: `Props.Epx.C118_no_start` pcq, `Props.Epx.C118_success` pcq, `Props.Epx.C118_fails` pcq
* C119: `Props.Epx.C119_condition` pcq, `Props.Epx.C119_never_both` pcq, `Props.Epx.C119_exactly_one` pcq, `Props.Epx.C119_waits_for_unknown` pcq, `Props.Epx.C119_own_start_refuted` pcq
* C12: `Props.Exec.C12_released_partial` pcq, `Props.Exec.C12_variable_released` pcq, `Props.Exec.C12_only_own` pcq, `Props.Exec.C12_mutex_leaks` pcq
* C120: `Props.Epx.C120_first_true` pcq, `Props.Epx.C120_at_most_one` pcq, `Props.Epx.C120_some_clause` pcq
* C121: `Props.Epx.C121_action` pcq, `Props.Epx.C121_repeats` pcq, `Props.Epx.C121_ends` pcq, `Props.Epx.C121_invariant_refuted` pcq
* C122: `Props.Epx.C122_until_success` pcq, `Props.Epx.C122_success` pcq, `Props.Epx.C122_progress` pcq
* C123: `Props.Epx.C123_for` pcq, `Props.Epx.C123_do` pcq, `Props.Epx.C123_unknown_refuted` pcq
* C124: `Props.Epx.C124_waits` pcq, `Props.Epx.C124_ends` pcq, `Props.Epx.C124_checked` pcq, `Props.Epx.C124_result` pcq, `Props.Epx.C124_failed_stuck` pcq, `Props.Epx.C124_timeout_stuck` pcq, `Props.Epx.C124_denied_aborted` pcq
* C125: `Props.Epx.C125_order` pcq, `Props.Epx.C125_success` pcq, `Props.Epx.C125_query` pcq, `Props.Epx.C125_progress` pcq, `Props.Epx.C125_early_refuted` pcq
* C126: `Script.c126_ack` pq, `Script.c126_result` pq, `Script.c126_abort` pq, `Script.c126_update` pq, `Script.c126_value` pq, `Script.c126_at_once` pq, `Script.c126_reason` pq, `Script.c126_shadowed` pq
* C127: `Script.c127_order` pcq, `Script.c127_over` pq, `Script.c127_contents` pq, `Script.c127_failed` pq, `Script.c127_sendPlan_refuted` pq, `Script.c127_unsettled_refuted` pq
* C128: `Script.c128_int` pcq, `Script.c128_round_trip` pcq, `Script.c128_bool` pcq, `Script.c128_string` pcq, `Script.c128_unknown` pcq, `Script.c128_array` pcq, `Script.c128_array_refuted` pcq, `Script.c128_no_number_refuted` pcq, `Script.c128_param_bool_refuted` pcq, `Script.c128_empty_result_refuted` pcq
* C129: `Finalize.c129_lifo` pq, `Finalize.c129_once` pq, `Finalize.c129_late_refuted` pcq, `Finalize.c129_displaced_refuted` pq, `Finalize.c129_displaced_two_refuted` pq, `Finalize.c129_not_called_refuted` p
* C13: `Props.Queue.C13_priority_fifo` pcq, `Props.Order.C13_waiting_order` pcq, `Props.Order.C13_served_in_order` pcq, `Props.Queue.C13_front_count` pcq
* C130: `Debug.c130_enabled` pq, `Debug.c130_line` pq, `Debug.c130_colon_refuted` pq
* C131: `Luv.c131_readable` pcq, `Luv.c131_markup_refuted` pcq, `Luv.c131_once` pq, `Luv.c131_says` pq, `Luv.c131_late_refuted` pq, `Luv.c131_plan_info` pcq
* C132: `Luv.c132_no_viewer` pcq, `Luv.c132_reported` -, `Luv.c132_gone_refuted` pcq, `Luv.c132_blocking` pcq, `Luv.c132_blocking_refuted` pcq
* C133: `Props.Epx.C133_not_early` pcq, `Props.Epx.C133_ends` pcq, `Props.Epx.C133_report` pcq, `Props.Epx.C133_doubled_refuted` pcq
* C134: `Scope.c134_variable` pcq, `Scope.c134_element` pcq, `Scope.c134_array_partial` pcq, `Scope.c134_undeclared_refuted` pq, `Scope.c134_date_refuted` pcq
* C135: `Bits.c135_one` pcq, `Bits.c135_zero` pcq, `Bits.c135_set_one` pcq, `Bits.c135_set_zero` pcq
* C136: `Analyze.c136_right_partial` pcq, `Analyze.c136_leaf_refuted` pq
* C137: `Props.Epx.C137_order` pcq, `Props.Epx.C137_receive` pcq, `Props.Epx.C137_success` pcq, `Props.Epx.C137_parent` pcq, `Props.Epx.C137_progress` pcq, `Props.Epx.C137_conditions_refuted` pcq, `Props.Epx.C137_early_refuted` pcq
* C138: `Assign.c138_exact` pcq, `Assign.c138_element_exact` pq, `Assign.c138_element_unknown` p, `Assign.c138_stored` pcq, `Assign.c138_element_stored` pq, `Assign.c138_typed_partial` pcq, `Assign.c138_perform_partial` pcq, `Assign.c138_untyped_refuted` pcq, `Assign.c138_size_refuted` pcq
* C139: `Main.c139_goes_on` pcq, `Main.c139_help` pcq, `Main.c139_rejected` pcq, `Main.c139_order_refuted` pcq
* C14: `Props.Exec.C14_commits_start_value` pcq
* C140: `Main.c140_main` pcq, `Main.c140_code` pq, `Main.c140_script` pq, `Main.c140_prefix` pq, `Main.c140_stopped` pq, `Main.c140_config` p, `Main.c140_viewer_partial` pq, `Main.c140_finalizers` p, `Main.c140_stop_refuted` pq, `Main.c140_config_refuted` p, `Main.c140_viewer_refuted` p
* C141: `SimScript.c141_reads_partial` pcq, `SimScript.c141_wrong` pcq, `SimScript.c141_comments` pcq, `SimScript.c141_text` pq, `SimScript.c141_negative_refuted` pcq, `SimScript.c141_error_refuted` pcq, `SimScript.c141_comment_refuted` pcq, `SimScript.c141_last_refuted` pcq, `SimScript.c141_words` pcq, `SimScript.c141_ignored` pq
* C142: `Factory.c142_registered` p, `Factory.c142_visible` p, `Factory.c142_somewhere` pq, `Factory.c142_no_library` pq, `Factory.c142_library` pq, `Factory.c142_result` pq, `Factory.c142_found` pq, `Factory.c142_again` pq, `Factory.c142_kept` pq, `Factory.c142_other_refuted` p, `Factory.c142_collision_refuted` p
* C143: `Factory.c143_one` pq, `Factory.c143_alive` pcq, `Factory.c143_destroyed` pq, `Factory.c143_constructors_partial` pq, `Factory.c143_twice_refuted` p
* C144: `Factory.c144_table` pq, `Factory.c144_named` pq, `Factory.c144_best_partial` pq, `Factory.c144_least_refuted` -
* C145: `Runner.c145_goes_on` pcq, `Runner.c145_rejected` pcq, `Runner.c145_error_refuted` pcq
* C146: `Runner.c146_file` pcq, `Runner.c146_code_partial` pcq, `Runner.c146_order` pcq, `Runner.c146_script` pcq, `Runner.c146_library` pcq, `Runner.c146_deleted` pcq, `Runner.c146_main` pcq, `Runner.c146_malformed_refuted` pcq, `Runner.c146_throws_refuted` pcq
* C147: `Ipc.Adapter.c147_queue` pcq, `Ipc.Adapter.c147_own` pcq, `Ipc.Adapter.c147_kept_partial` pcq, `Ipc.Adapter.c147_sent_first_partial` pcq, `Ipc.Adapter.c147_destroyed` pcq, `Ipc.Adapter.c147_early_refuted` pq, `Ipc.Adapter.c147_sent_last_refuted` pq, `Ipc.Adapter.c147_again_refuted` pcq, `Ipc.Adapter.c147_destroyed_refuted` pq
* C148: `Ipc.Adapter.c148_asked` pq, `Ipc.Adapter.c148_lookup_partial` pq, `Ipc.Adapter.c148_told` pq, `Ipc.Adapter.c148_default_refuted` pq
* C149: `UpdateXml.c149_accepted` pcq, `UpdateXml.c149_values` pcq, `UpdateXml.c149_sent_partial` pcq, `UpdateXml.c149_empty_refuted` pcq
* C15: `Props.Exec.C15_retract_restores` pcq
* C150: `Config.c150_routes_partial` pcq, `Config.c150_goes` pcq, `Config.c150_command` pcq, `Config.c150_accepted` pcq, `Config.c150_default_refuted` pcq, `Config.c150_blank_refuted` pcq
* C151: `Print.c151_commands` pq, `Print.c151_output` pq, `Print.c151_line_readable` p
* C152: `Follow.c152_told` pcq, `Follow.c152_states` pcq, `Follow.c152_filtered` pcq, `Follow.c152_variables` pcq, `Follow.c152_names` p, `Follow.c152_example` pcq
* C153: `Ipc.Plans.c153_plans_partial` pcq, `Ipc.Plans.c153_libraries` pcq, `Ipc.Plans.c153_errors` pcq, `Ipc.Plans.c153_same` pcq, `Ipc.Plans.c153_file_refuted` pcq, `Ipc.Plans.c153_file_example` pcq, `Ipc.Plans.c153_blank_refuted` pcq, `Ipc.Plans.c153_example` pcq
* C154: `Sema.c154_count` pcq, `Sema.c154_signals` p, `Sema.c154_served` pcq, `Sema.c154_returns` p, `Sema.c154_example` pq
* C155: `Logging.c155_printed` pcq, `Logging.c155_logged` pcq, `Logging.c155_session` pcq, `Logging.c155_decides_partial` pcq, `Logging.c155_decides_refuted` pcq, `Logging.c155_no_terminal` pcq, `Logging.c155_exit` pcq, `Logging.c155_example` pcq, `Logging.c155_session_example` pcq
* C156: `Init.c156_start` pcq, `Init.c156_unique` pcq, `Init.c156_order` pcq, `Init.c156_balanced` pcq, `Init.c156_end` pcq, `Init.c156_again` p, `Init.c156_cycle_refuted` p, `Init.c156_example` -, `Init.c156_example_hyps` pq
* C157: `NodeType.c157_parse` pcq, `NodeType.c157_round` pcq, `NodeType.c157_node` pcq, `NodeType.c157_finalized_refuted` p, `NodeType.c157_example` pcq
* C16: `Props.Exec.C16_macro_steps` pcq, `Props.Exec.C16_command_once` pcq, `Props.Exec.C16_update_once` pcq, `Props.Exec.C16_abort_once` pcq
* C17: `Props.Arbiter.C17_batch_within_capacity` pcq, `Props.Arbiter.C17_history_within_capacity_partial` pcq, `Props.Arbiter.C17_history_with_producer_overallocates` pq
* C18: `Props.Arbiter.C18_each_decided_once` pq
* C19: `Props.Arbiter.C19_greedy` pcq
* C20: `Props.Arbiter.C20_conservation` pcq, `Props.Arbiter.C20_all_released_all_free` pcq, `Props.Arbiter.C20_release_unknown_noop` pcq, `Props.Arbiter.C20_release_twice` pq
* C21: `Props.Queue.C21_refinement` pcq, `Props.Queue.C21_double_push_cycles` p
* C22: `Props.Queue.C22_insert_after_partial` pq, `Props.Queue.C22_insert_after_null_partial` pq, `Props.Queue.C22_insert_after_tail_breaks` -, `Props.Queue.C22_insert_after_last_refuted` pq
* C23: `Props.Value.C23_scalar_round_trip` pcq, `Props.Value.C23_message_round_trip` pcq
* C24: `Props.Value.C24_array_round_trip_unsigned_char` pcq, `Props.Value.C24_array_round_trip_signed_char_partial` pcq, `Props.Value.C24_array_round_trip_fails_signed_char` pcq
* C25: `Props.Value.C25_serialSize_exact` pq, `Props.Value.C25_refused_iff` pcq
* C26: `Props.Value.C26_strict_weak_order` pcq, `Props.Value.C26_equals_equivalence` pq, `Props.Value.C26_equal_not_less_partial` pcq, `Props.Value.C26_incomparable_equal_partial` pcq, `Props.Value.C26_unknown_int_real_inconsistent` p, `Props.Value.C26_stale_contents_inconsistent` p, `Props.Value.C26_nan_inconsistent` p
* C27: `Expr.c27_and` pq, `Expr.c27_not` pq, `Expr.c27_or_partial` pcq, `Expr.c27_or_nary_exact` pq, `Expr.c27_or_nary_value` pq, `Expr.c27_xor_partial` pcq, `Expr.c27_xor_nary_never` pq, `Expr.c27_and_perm` pq, `Expr.c27_and_monotone` pq, `Expr.c27_de_morgan` pcq, `Expr.c27_or_counterexample` pq, `Expr.c27_or_not_monotone` pq, `Expr.c27_xor_counterexample` pq
* C28: `Props.Value.C28_set_get` pq, `Props.Value.C28_unknown_get` pq, `Props.Value.C28_resize_get` pq, `Props.Value.C28_fresh_reset_list` pq, `Props.Value.C28_invariant` p, `Props.Value.C28_setValue_get` pq
* C29: `Props.Hierarchy.C29_charged_resources` pcq, `Props.Hierarchy.C29_explicit_amount_partial` pcq, `Props.Hierarchy.C29_explicit_amount_ignored` -
* C30: `Props.Hierarchy.C30_acyclic_terminates` pcq, `Props.Hierarchy.C30_cyclic_diverges` pq
* C31: `Props.Node.C31_activations_balanced_partial` pq, `Props.Node.C31_command_balanced_but_exit` pq, `Props.Node.C31_reads_active_and_no_underflow` pq, `Props.Node.C31_command_exit_leaks` pq
* C32: `Props.Sync.C32_assertion_fails` pcq, `Props.Sync.C32_queue_protocol_partial` pcq
* C33: `Props.Sync.C33_root_unqueued_partial` pcq, `Props.Sync.C33_root_stays_finished` pcq, `Props.Sync.C33_dangling` pcq
* C34: `Var.c34_saved_reported_partial` p, `Var.c34_unknown_reported_known` p
* C35: `Props.Exec.C35_variables_change_only_as_reported` pcq
* C36: `Props.Conditions.C36_waits_for_assignment` pcq, `Props.Conditions.C36_waits_for_retraction` pcq
* C37: `Expr.c37_add` pq, `Expr.c37_add_in_range` pq, `Expr.c37_mul` pq, `Expr.c37_sub` pq, `Expr.c37_min` pq, `Expr.c37_max` pq, `Expr.c37_div` pcq, `Expr.c37_mod` pcq, `Expr.c37_div_mod_unknown` pq, `Expr.c37_abs` pcq, `Expr.c37_integer_range` pcq, `Expr.c37_real_add` pq, `Expr.c37_real_mul` pq, `Expr.c37_real_sub` pq, `Expr.c37_real_div_mod` pq, `Expr.c37_real_min_max` pq, `Expr.c37_real_sqrt_abs` pq
* C38: `Expr.c38_to_integer` pcq, `Expr.c38_to_real` pcq, `Expr.c38_unique` pcq, `Expr.c38_real_to_int` pcq, `Expr.c38_special` pq, `Expr.c38_roundtrip` pcq
* C39: `Expr.c39_numeric` pcq, `Expr.c39_strings` pq, `Expr.c39_equal_numbers` pq, `Expr.c39_equal_booleans_strings` pq, `Expr.c39_not_equal` pq, `Expr.c39_trichotomy` pcq, `Expr.c39_comparison_type` -
* C40: `Expr.c40_concat` pq, `Expr.c40_strlen` pq, `Expr.c40_strlen_concat` pq, `Expr.c40_arrays` pq
* C41: `Expr.c41_accepted_partial` pcq, `Expr.c41_div_counterexample` p, `Expr.c41_strlen_counterexample` p, `Expr.c41_arraysize_counterexample` pq, `Expr.c41_untyped_counterexample` p, `Expr.c41_arithmetic_type` pcq
* C42: `Lookup.c42_plain` pcq, `Lookup.c42_nothing` pcq, `Lookup.c42_general` pcq, `Lookup.c42_real` pcq, `Lookup.c42_integer_partial` pcq, `Lookup.c42_integer_false` p
* C43: `Lookup.c43_published` pcq, `Lookup.c43_quiet` pcq, `Lookup.c43_tolerance_unknown_false` p
* C44: `Lookup.c44_thresholds_partial` pcq, `Lookup.c44_plain_false` p, `Lookup.c44_shrunk_false` p, `Lookup.c44_unknown_false` p, `Lookup.c44_stale_false` p
* C45: `Lookup.c45_registered` pcq, `Lookup.c45_give_told` pcq
* C46: `Lookup.c46_value` pcq, `Lookup.c46_fresh` pcq, `Lookup.stamp_le` pcq, `Lookup.c46_asked_once` pcq, `Lookup.c46_asked_twice` p
* C47: `Notify.c47_told` pcq
* C48: `Notify.c48_torn_down_partial` pcq, `Notify.c48_listeners_used_partial` pcq, `Notify.c48_five_parameters` pcq
* C49: `Notify.c49_activation` pcq, `Notify.c49_released` pcq
* C50: `Notify.c50_operands_partial` pcq, `Notify.c50_alias` pcq
* C51: `Var.c51_scalar` p, `Var.c51_change_published` pq, `Var.c51_published_change` pq
* C52: `Var.c52_size_partial` pq, `Var.c52_size_shrinks` p, `Var.c52_activated` pq, `Var.c52_set` pq, `Var.c52_set_element` pq, `Var.c52_change_published_partial` pcq, `Var.c52_element_unknown_silent` pq, `Var.c52_restore_partial` p, `Var.c52_round_trip` pq, `Var.c52_restore_wrong` pq
* C53: `Var.c53_write` pq, `Var.c53_round_trip_partial` pq, `Var.c53_index_moved` pq, `Var.c53_nothing_kept` p
* C54: `Var.c54_designated_element_partial` pq, `Var.c54_index_assigned_first` pcq
* C55: `Input.c55_refines` pcq, `Input.c55_fifo_partial` pcq, `Input.c55_private` pcq, `Input.c55_accept_crashes` p, `Input.c55_flush_deadlock` p
* C56: `App.c56_no_lost_wakeup` pcq, `App.c56_in_order` pq, `App.c56_drains` pcq, `App.c56_suspended` pq
* C57: `App.c57_processed` pcq, `App.c57_first_call_partial` pcq, `App.c57_later_call` pq, `App.c57_wakes_partial` pcq, `App.c57_overlapping_calls` pq
* C58: `App.c58_not_early_partial` pcq, `App.c58_announced` pq, `App.c58_race` pq, `App.c58_second_plan` pq
* C59: `App.c59_background_partial` pq, `App.c59_enqueue_partial` pq, `App.c59_opportunistic_deadlock` p
* C60: `Time.c60_add_sub` pcq, `Time.c60_order` pcq
* C61: `Time.c61_within_a_fraction` pcq, `Time.c61_monotone` pcq, `Time.c61_out_of_range` pcq, `Time.c61_round_trip_loses` pcq
* C62: `Time.c62_wakeup_partial` pcq, `Time.c62_itimer_lost` p
* C63: `Time.c63_itimer_period` pq, `Time.c63_posix_period_partial` pq, `Time.c63_posix_period_wraps` p, `Time.c63_restart` p
* C64: `Scope.c64_lexical_partial` pcq, `Scope.c64_library_closed_partial` pcq, `Scope.c64_own_variable` pcq, `Scope.c64_lexical_example` pq, `Scope.c64_bare_root` p, `Scope.c64_bare_root_open` p
* C65: `Scope.c65_in_not_assignable_partial` pcq, `Scope.c65_in_below_partial` pcq, `Scope.c65_inout_writes_outer` pcq, `Scope.c65_inout_example` p, `Scope.c65_element_written` p
* C66: `Scope.c66_mutex_partial` pq, `Scope.c66_example` p, `Scope.c66_captured` p
* C67: `Scope.c67_node_id` pcq, `Scope.c67_node_ref` pq, `Scope.c67_child_unique` pq, `Scope.c67_example` p
* C68: `Scope.c68_ends` pq, `Scope.c68_loaded` pcq, `Scope.c68_ends_iff` pcq, `Scope.c68_cycle` pcq, `Scope.c68_example` pcq
* C69: `Udp.c69_layout` pcq, `Udp.c69_sent_partial` pcq, `Udp.c69_exact` pq, `Udp.c69_any_datagram` pq, `Udp.c69_example` pq, `Udp.c69_first_string` p, `Udp.c69_float2` pcq, `Udp.c69_short_datagram` p
* C70: `Udp.c70_in_order_partial` pcq, `Udp.c70_latest` pq, `Udp.c70_example` p, `Udp.c70_aborted` p, `Udp.c70_not_removed` p
* C71: `Udp.c71_names` pcq, `Udp.c71_parameter` pcq, `Udp.c71_unknown_label` pcq, `Udp.c71_example` pcq
* C72: `Text.c72_integer` pcq, `Text.c72_integer_unique` pcq, `Text.c72_round_trip` pcq, `Text.c72_boolean` pcq, `Text.c72_example` pcq
* C73: `Text.c73_names` pq, `Text.c73_types` pcq, `Text.c73_constants_partial` pq, `Text.c73_handles_not_writable` pq
* C74: `Text.c74_literal` pcq, `Text.c74_string_literal` p, `Text.c74_literal_example` pcq, `Text.c74_short_tag` pcq, `Text.c74_size_partial` pcq, `Text.c74_size_example` pcq, `Text.c74_size_bases` pcq, `Text.c74_capacity_wraps` pq
* C75: `Timepoint.c75_value` pcq, `Timepoint.c75_shared` pcq, `Timepoint.c75_published` pq, `Timepoint.c75_order` pcq, `Timepoint.c75_start_time` pcq, `Timepoint.c75_example` -
* C76: `Keys.c76_order` pcq, `Keys.c76_entries` pcq, `Keys.c76_example` p, `Keys.c76_nan` p
* C77: `Keys.c77_round_trip` pcq, `Keys.c77_refused` pcq, `Keys.c77_count` pq, `Keys.c77_example` pq
* C78: `Keys.c78_map` pq, `Keys.c78_cString` pq, `Keys.c78_set` pcq, `Keys.c78_variables` pq, `Keys.c78_example` p
* C79: `Props.Links.C79_nodes` pcq, `Props.Links.C79_bodies` pcq, `Props.Links.C79_example` pcq
* C80: `Command.c80_sent` pcq, `Command.c80_start` pcq, `Command.c80_example` -, `Command.c80_unknown_name` -
* C81: `Command.c81_running` pcq, `Command.c81_over` pcq, `Command.c81_returned` pcq, `Command.c81_announced_partial` pcq, `Command.c81_queue` pq, `Command.c81_no_error` pcq, `Command.c81_errors` pcq, `Command.c81_restart_silent` -, `Command.c81_late_response` p, `Command.c81_abort_order` -, `Command.c81_names` pcq
* C82: `Command.c82_handlers` pcq, `Command.c82_example` -
* C83: `Command.c83_in_use_partial` pcq, `Command.c83_all_free` pcq, `Command.c83_example` pq, `Command.c83_denied_leaks` pq
* C84: `Command.c84_update` pcq, `Command.c84_example` -
* C85: `Cache.c85_value_partial` pq, `Cache.c85_last_answer` pq, `Cache.c85_notified` pcq, `Cache.c85_error` pq, `Cache.c85_not_heard` p, `Cache.c85_example` p, `Cache.c85_lookups` pq
* C86: `Message.c86_head_of_queue` pcq, `Message.c86_at_first` pcq, `Message.c86_example` pcq
* C87: `Message.c87_handles_partial` pcq, `Message.c87_example` pcq, `Message.c87_never_readable` pcq, `Message.c87_accept_fails` pcq, `Message.c87_release_crash` pcq, `Message.c87_crash_example` pcq
* C88: `Message.c88_one_answer_partial` p, `Message.c88_always_success` pcq, `Message.c88_handle` pcq, `Message.c88_example` pcq, `Message.c88_processed` pcq
* C89: `Listen.c89_told` pcq, `Listen.c89_each_kind` pcq, `Listen.c89_example` -
* C90: `Listen.c90_names_partial` pcq, `Listen.c90_states_partial` pcq, `Listen.c90_ignored_partial` pcq, `Listen.c90_others` p, `Listen.c90_blank_before_comma` pcq, `Listen.c90_no_such_state` pcq, `Listen.c90_example` pcq
* C91: `Sim.c91_sent` pcq, `Sim.c91_order_partial` pcq, `Sim.c91_tie` pq, `Sim.c91_race` pq, `Sim.c91_race_crash` -
* C92: `Sim.c92_sent_partial` pcq, `Sim.c92_forgotten` pq, `Sim.c92_forgotten_now` pq
* C93: `Sim.c93_kth` pcq, `Sim.c93_example` pq
* C94: `Props.Wiring.C94_told` pcq, `Props.Wiring.C94_outside` pcq, `Props.Wiring.C94_quiescence` pcq, `Props.Wiring.C94_example` pcq
* C95: `Life.c95_initialized_before_start_partial` pcq, `Life.c95_running_before_stop_partial` pcq, `Life.c95_started_once_partial` pcq, `Life.c95_initialized_once_partial` pcq, `Life.c95_answers` pcq, `Life.c95_example` p, `Life.c95_not_initialized` p, `Life.c95_left_running` p, `Life.c95_started_twice` p, `Life.c95_doubled` p, `Life.c95_again` p
* C96: `Route.c96_reaches_latest` pq, `Route.c96_abort_same_handler` p, `Route.c96_abort_other_handler` p, `Route.c96_example` p, `Route.c96_log` pq
* C97: `Route.c97_answers` pq, `Route.c97_all_made_partial` pq, `Route.c97_example` -, `Route.example_tame` pcq, `Route.c97_update_escapes` -, `Route.c97_thresholds_escape` -
* C98: `Ipc.c98_whole_partial` pcq, `Ipc.c98_example` pq, `Ipc.c98_count_overflows` p, `Ipc.c98_count_overflows_example` p, `Ipc.c98_restarted_sender_fails` pq, `Ipc.c98_restarted_sender_example` p, `Ipc.c98_invalid_fails` p
* C99: `Ipc.c99_subscribers_partial` pq, `Ipc.c99_only_delivered` -, `Ipc.c99_example` -, `Ipc.c99_unsubscribe_type_no_effect` pq, `Ipc.c99_unsubscribe_last_no_effect` pq, `Ipc.c99_unsubscribe_duplicates` pq, `Ipc.c99_unsubscribe_calls` pq, `Ipc.c99_types` pcq
