# Formal model of Querela/fcs-ql-python in Lean 4

The model is in `lean/Verif/Model`, small independent specifications in `lean/Verif/Spec`, lemmas in
`lean/Verif/Proofs`, and the property theorems (named `Cxx_...` after `properties.jsonl`) in `lean/Verif/Props`.
Each theorem has an `example` beside it: a concrete case that meets its hypotheses.

## Layers of the model

| module | models | source |
|---|---|---|
| `Model/Py.lean` | Python strings as lists of code points (lone surrogates allowed, as in Python), slicing, decimal/hex formatting, `int()`, `isspace`, the runtime parameters | Python semantics |
| `Model/Lexer.lean` | lexer rules as data (regular expressions), simulation loop of ANTLR's lexer (longest match, first rule, error recovery, line/column) | `FCSLexer.g4` |
| `Model/Grammar.lean` | parser rules as data (EBNF), ordered-choice parser with full-context lookahead | `FCSParser.g4` |
| `Model/Atn.lean`, `Model/ParserAtnData.lean`, `Model/LexerAtnData.lean` | the serialized networks, integer by integer, and the deserializer | `FCSParser.py` 11-105, `FCSLexer.py` 11-103 |
| `Model/GenParser.lean`, `Model/ParserCode.lean` | the generated rule functions, statement by statement, and how they run | `FCSParser.py` 200-1900 |
| `Model/Recovery.lean` | the same functions on malformed input: `try`/`except`, error-recovery mode, an arbitrary error strategy | `FCSParser.py` 200-1900 |
| `Model/ErrorStrategy.lean` | the same with the error strategy of the runtime library as a program (`DefaultErrorStrategy`), its messages, and how far the lexer has been asked when each is reported; `antlr_parse`'s `SyntaxError` | `FCSParser.py` 200-1900, `parser.py` 956-993, 1716-1740, `__init__.py` 34-53 |
| `Model/Node.lean` | `QueryNode` classes and their API, `__str__` | `parser.py` 51-138, 344-910 |
| `Model/Builder.lean` | `ExpressionTreeBuilder` as an untyped stack machine over generic parse trees, parametric in how nodes are allocated (pure trees / object heap) | `parser.py` 1028-1668 |
| `Model/TreeBuilder.lean` | the same builder as a visitor object: methods and context accessors found by name, stack changes persisting under exceptions | `parser.py` 1028-1668, `FCSParserVisitor.py` |
| `Model/QueryParser.lean` | `ErrorListener`, `QueryParser.parse`, `fcsql.parse/can_parse/antlr_parse` | `parser.py` 950-1017, 1671-1756; `__init__.py` |
| `Model/Visitor.lean` | `QueryVisitor` dispatch and traversal | `parser.py` 144-338 |
| `Model/Validation.lean` | `Validator`, `FCSQLValidator`, `is_likely_a_regex`, `fcsql.validate` | `validation.py`, `__init__.py` |
| `Model/Heap.lean` | object heap with parent pointers | `parser.py` 386-426 |
| `Model/Accessors.lean` | constructors and typed accessors of the node classes, with their exceptions | `parser.py` 386-910 |
| `Model/History.lean` | histories: constructor calls by the user, several parser objects, concurrent `parse` calls | `parser.py` 386-426, 1671-1756 |
| `Model/Contexts.lean`, `Model/ContextData.lean` | context classes (accessors, `enterRule`, `exitRule`, `accept`), walking with listeners and visitors | `FCSParser.py` (`*Context`), `FCSParserListener.py`, `FCSParserVisitor.py` |

The grammar files and the generated Python are modelled separately and *proved* to agree (C52-C54), so that the theorems
about the grammar are theorems about the code that runs.

## How each property is modelled and proved

* C01, C13: the builder is proved, by induction on concrete-syntax trees, equal to a compositional meaning
  function that cannot pop the wrong item (`Proofs/Denote`); every derivable parse tree is shown to be such a tree
  (`Proofs/Cst`).
* C02: combination of C06/C09/C10/C13 with token-level predicates for literals, flags, quantifiers.
* C03, C36: the objects are state machines (`step : State -> Call -> State x Outcome`); theorems quantify over all call histories.
* C04, C05, C37-C39: entry points are modelled by their own definitions and related by theorems.
* C06, C07: generic theorem about the lexer loop with Brzozowski derivatives against an inductive
  matching relation; tiling by induction over the loop.
* C08, C49: lexing of laid-out token lists (`Spec/Layout`, `Proofs/Layout`): which neighbours need whitespace, exactly;
  then tokens differ only in offsets (`Proofs/Relabel`).
* C09-C11: generic theorems about the ordered backtracking parser: sound, complete (fuel bound proved
  sufficient because the grammar has no left recursion), and lexicographically least w.r.t. the decision sequence.
* C12: exact condition (iff) under which an expression is read as a disjunction of conjunctions; refuted in general by a
  concrete query (`Spec/Precedence`, `Proofs/Precedence`, `Beaten`, `Bracket`).
* C14-C17, C22-C26: induction over concrete-syntax trees.
* C18-C20: decoder vs. piecewise specification; lexer language of literals; printing every code point string as a literal.
* C21: normalisation is a parameter (any function), theorems hold for all of them.
* C27: the builder run on an object heap; representation invariant.
* C28-C30: direct, with refutations of the documented behaviour where the code differs.
* C31, C32, C43: visitors as records of handlers over arbitrary state/exceptions; induction on trees.
* C33: refutation (collisions) + exact characterisation (iff) for trees whose values contain no double quote. `C33_format`: the string of every node, from a separate description of the format (`Spec/NodeText.lean`).
* C34, C35, C40: the validator run is equal to a fold of per-expression issue lists.
* C41: direct from the listener and lexer error model, under `ReportsOk` (the runtime's parser errors point at
  tokens of the stream).
* C42: induction on the string.
* C44-C46, C50, C51: compositional lexing + least derivations of composed token lists (`Proofs/Best*`, `Join`, `Compose`).
* C47: printing (`Spec/Print`) and parsing back, in both directions; (b) assumes `NormOk` (idempotent normalisation).
* C48: corollary of tiling.
* C52: `Walk` (paths through a network, with calls) against derivations; a checker that segments the network along the
  grammar expression, proved sound, run by the kernel (`Proofs/AtnSeg`, `Proofs/Atn`).
* C53: the statements of the functions against network and grammar (`Impl`): LL(1) tests are justified by FIRST/FOLLOW
  sets; completeness by induction on derivation depth, soundness and termination by induction on steps and on remaining
  input/rank; a checker for `Impl`, proved sound, run by the kernel (`Proofs/GenParser`, `GenHalt`, `GenCheck`, `GenRun`).
* C54: `LexWalk` against the regular expressions, likewise (`Proofs/LexNet`, `LexNetSplits`).

* C55-C57: direct on all nodes/arguments, C56 for parsed trees from C14.
* C58: heap after a list of constructor calls, by induction on the list.
* C59: traversal results by induction on trees; the hooks (`defaultResult`, `aggregateResult`, `shouldVisitNextChild`)
  are methods that may change the visitor's state and raise; the protocol of calls is a theorem about a recording visitor.
* C60: state machine over several objects, induction on the history; C61: two-step calls under an arbitrary scheduler,
  invariant by induction on the schedule.
* C62: congruence of the denotation in the environment (`Proofs/Environment`).
* C63: lower and upper bounds of the number of children of a kind, computed from the grammar expression of a rule and
  proved for everything that fits it (`Proofs/Contexts`); C64, C65: induction on parse trees.
* C66: shifting tokens shifts the tree (`Proofs/Shift`), the tokens of a piece are those of the node (`Proofs/LaidAt`), and a
  part of the chosen derivation is the chosen derivation of its tokens (`Proofs/Fragments`, `FragmentsExpr`).
* C67: as C44-C46, C50, C51, with tokens at their positions (`LaidAt`); lists by induction.
* C68: C67, and issues and fragments of moved trees (induction on trees and on the list of parts).
* C69: from the verdict theorem C34/C35; the options only enter through the rules.
* C70: in the chosen tree a disjunction that is an operand of a conjunction begins with `!` (else an earlier alternative of the
  grammar derives the same tokens, `Proofs/NegatedOr`); induction on syntax trees with a potential that counts negations
  (`Proofs/Depth`); the recursion limit is modelled by visits with limited depth (`Model/Recursion`), counted in levels of the
  parse tree, not in Python frames; frames below a rule function (prediction) and the depth reached in an ungrammatical query
  are not modelled.
* C71: two token lists of the same types are relabellings of one list; derivations do not see texts, and the meaning of a
  concrete syntax tree only uses what `SameMeaning` (Spec/Spelling) compares; induction on the tree with the type of the token before.
* C72: `reporter` is a `subValidator` whose handlers report a list of issues computed from node and `parent_node`; induction
  over the tree, then the two modes as for C34-C36 (Proofs/CustomValidators). The stale stack after a raise is an example.
* C73, C74: case analysis over the classes; these state what the code does where C28-C31, C55 and C56 (as documented) fail.
* C75: columns are computed by a fold; they equal the distance to the last newline (reverse induction).
* C76: the pieces of the text, with error pieces replaced by whitespace, are a layout (`LaidAt`) of the same tokens.
* C77: `ExpressionTreeBuilder` modelled a second time as an object (`Model/TreeBuilder`): methods and accessors by name,
  `self.stack` mutated statement by statement; induction over parse trees shows that it computes the function of
  `Model/Builder`, for every tree and stack.
* C78: C54 (lexer network), C53 (generated functions) and C77 put together.
* C79: the generated functions with their `except` clauses and an arbitrary error strategy (`Model/Recovery`), for every
  predictor that is right (C53) and only chooses alternatives that can go on with the next token (`Spec/Recovery`);
  termination by a static analysis of the generated code, proved sound (`Proofs/RecoveryScan`, `RecoveryHalt`): what can
  happen before a token, or the strategy's patience, is consumed, for every next token; checked for the code by the kernel
  (`Proofs/RecoveryCode`, `Look`).
* C80: the same model with the prediction of `Model/Adaptive` (`Spec/AntlrStrategy`: only the choices of the error strategy are
  left open). Invariant of a run without reports (`Proofs/NeverLate`, `InStep`): whatever the network can still read from the
  current state completes the tokens consumed so far; when prediction gives up, the tokens it has read can be consumed by some
  alternative in the real calling context (`Proofs/AdaptiveFail`: configurations that do not reach into the outer context are
  sound without it). The generated functions ask only about situations covered by this, with recovery too
  (`Proofs/AdaptiveRecovery`). Texts: `Proofs/FirstErrorText` (some text for every token type, and what is laid out before a
  token).
* C81: `antlr_parse` on top of the generated parser with recovery (`Model/AntlrParse`), lines and columns of tokens as the
  lexer counts them; C79, C80, and induction over the pieces of the text.
* C82: C80 for the record list of `QueryParser.parse`; how the reports of lexer and parser may be interleaved is specified
  in `Spec/Records` (all that is used: lexical errors in order, and those before a token precede a report at it). Lexical
  errors after the offending token: by blanking them out (C76).
* C83: lexer and generated functions once more, with the shared caches threaded through every access (`Model/Cache`); the
  simulation of the network behind the caches is a parameter that is assumed to be right (`Spec/Cache`). Invariant: every
  stored entry is what would be computed. Look-up and store are separate steps and other threads act in between.
* C84: the generated functions once more, with the cursor of the token stream and what `enterRule`, `exitRule` and `consume`
  store in the contexts (`Model/Marked`); simulation of `exec` (`Proofs/Marked`), and an invariant on what is stored. So that
  `start` and `stop` are first and last token of a context is derived, not assumed.
* C85: `toStringTree` (`Model/Marked`) against a direct specification (`Spec/TreeText`); reading back by a prefix-code argument
  (`Proofs/TreeText`): tokens other than literals contain no space, literals are prefix-free even after escaping. Meaning by
  C71. The listener of the example: `Model/RunParse`.
* C86: the objections to single tokens are specified on the token list (`Spec/Complaint`), without the builder; by induction on
  the syntax tree the first of them is what the builder raises (`Proofs/Complaint`). Messages are determined: uniqueness of decimal
  and hexadecimal numerals.
* C87: `ParserATNSimulator` and `nextTokens` as a program on the decoded network (`Model/Adaptive`): closures, configuration
  sets with merged contexts, the SLL stage with its conflict rules, the LL stage with the calling context, the answer when
  nothing is left. Completeness (`Finds`): every path through the network on which the tokens can be consumed is followed by a
  configuration, in both stages; soundness of the LL stage (`Sound`): what a configuration can read extends to its alternative.
  Termination of closures by a rank of the states, checked by the kernel (`NetTab`). The generated code asks only about its own
  decisions with the real chain of calls (`Placed`, checked by the kernel; `exec_agree`).
* C88: for prediction that looks ahead as far as it can (`Spec/FirstError`, `Strategy.Exact`) by the invariant `OnTrack`
  (`Proofs/FirstError`): what can still be read is exactly what completes the tokens consumed so far. The runtime library's
  prediction is not like that (`Props/EarlyError`: run by the kernel on a query), so C88 is false of the code.
* C89: `Model/ErrorStrategy` is proved to be one of the strategies of `Model/Recovery` (`Proofs/ErrorStrategySeen`: what it
  decides is replayed as a list of choices; its failsafe bounds the steps without progress by the number of states), so all
  about C79-C82 holds of it, and it terminates (`ErrorStrategyEnds`). The order of lexer and parser errors comes from a count
  of the tokens not yet asked for (`ErrorStrategyOrder`).
* C90: invariant of the run (`Reading`, `ErrorStrategyForm`): all messages so far are in one of four forms
  (`Spec/Messages`, `Worded`). That the lists are never empty is checked for the states of the generated code (`AtStates`).
* C91: invariant of the run up to the first report (`OnWay`, `ErrorStrategyFirst`): from the current state of the network,
  called from the current chain, the end can be reached, and whatever leads there completes the tokens consumed so far; the
  sets of expected tokens are sound for this (`lookSet_sound`). Texts by `LaidAt`.
* C92: potential (`RState.pot`): reports + tokens left + one if a report can be made never grows; only the last statement of
  the generated code matches the end of input (`Placed`), so a report after it is impossible (`FewReports`). Tokens and
  unrecognised texts are non-empty parts of the query (C07). Tight for the queries of `n` dollar signs; order and repetitions
  refuted by queries run by the kernel.
* C93: `Model/LexerSim` (`Lexer.nextToken`, `LexerATNSimulator`: configurations with rule stacks, `closure`,
  `getReachableConfigSet`, `execATN`, `failOrAccept`, `recover`, `CommonTokenStream.fill`); `closure` finds exactly
  the configurations on paths of the network, in order of alternatives (`Proofs/LexerSim`); ranks of states, checked by the
  kernel, bound its recursion, and every configuration can go on to a token (`Proofs/LexerSimTab`); so the loop finds the longest match
  (`Proofs/LexerSimRun`), and the pieces are those of C54.
* C94: the bounds are those `runLexer` is given; `Model/LexerCache` threads the shared DFA through the same functions, with
  an arbitrary environment step before every access; simulation with "every entry is right" as invariant.
* C95: `Model/Program`: one machine with the lexer object of C93, `BufferedTokenStream` (`fetch`, `sync`, `LA`, `consume`), the
  generated functions with prediction and error strategy, and one list of listener calls. Lockstep simulation with the model of
  C89, in which all tokens are known beforehand (`Proofs/ProgramFetch`, `ProgramSim`, `ProgramRun`): the tokens fetched are a
  prefix of the stream, the calls so far are those of C89 up to there, and `adaptivePredict`, which fetches the tokens it looks
  at, gives the same answer as with all tokens at hand.
* C96: the same run, with the listeners of `antlr_parse`.
* C97: `Model/Process`: the functions of C95 once more, as trees of actions on what threads share (look-ups and stores in the
  `DFA`s of lexer and parser, `errors` of parser objects); a schedule picks the thread that takes its next action, and may let a
  look-up miss (what races on `DFAState` objects and `edges` lists can cause). A small rely/guarantee logic (`Proofs/Process`): each
  function comes to the result of its counterpart in C95 if what it finds stored is right, and stores only what is right; then an
  invariant over schedules (`Proofs/ProcessRun`). Settings are not changed meanwhile (C60 has that, for one thread).
* C98: `Spec/Census` reads the literals off the token sequence with the tokens around each of them (qualifier, identifier, operator,
  flags). `Proofs/Census`: by induction over concrete syntax trees, the `Expression`s of the denoted tree are those of the literals;
  any weights of nodes and of tokens that agree construct by construct have the same sums (all counts are instances); sizes of both trees;
  the rule functions called during a run (`execCalls`, Model/Recursion) are the contexts of the parse tree.
* C99: `Model/Debug`: the methods of the tree builder with their first and last statements, the listener, `parse` and `QueryVisitor.visit`
  with the log as part of the state. `Proofs/Debug`: a relation between a computation that logs, the same without, and what is logged
  (all of it on success, a first part on an exception), closed under the statements the methods consist of; visitors are compared up
  to a relation "differs only in the log".
* C100: `Model/Registry`: the dictionary `VALIDATORS`, histories of changes and calls; induction on the history from its end; what a
  registered validator returns by the theorems behind C34, C35 and C72.
* C101: `Model/Work`: counters that follow the simulators of `Model/LexerSim` and `Model/Adaptive` and the run of the generated
  functions. Characters: a token is looked past by one character and by hyphens after a name, and each of those hyphens then is an error of
  its own that costs two looks. Predictions: every generated function pays for its predictions with tokens it matches
  (`Proofs/Predictions`: a potential for each function, checked for the transcribed code), and their exact number is read off the
  parse tree (`Spec/Work`, `Proofs/PredictionCount`). Not covered: the number of
  configurations in one round.
* C102: `Model/Faults`: the run of `Model/Program` asked at every statement of every rule function, at its end and in its `except`
  clause, and the tree builder of `Model/TreeBuilder` asked before and after every method, whether something arrives from
  outside (arbitrary functions of the time, and of the pending calls); plus the moments in `parse` itself (before `try`, in
  `except`, in `finally`).  What arrives in the middle of a statement has let through any first part of the listener calls the
  statement makes.  Proof: listener calls are only added (`exec_grows`), so the run is the undisturbed one or struck with a
  prefix (`callF_same`); the builder simulates the undisturbed one or is struck (`faultsim_builder`); with C95 and C96.
  Not modelled: exceptions that the code catches by name (`ValueError`, `RecognitionException`) arriving from outside; a store
  into the shared caches of the library cut in two (C97 covers threads that stop between two stores).
* C103: `Model/FaultsApi`: `can_parse` and `validate` on top of C102's parse, with what arrives while the validator runs. Cases on how
  the parse ends (C102's `parseF_facts`), the validator's part being as in C04-C08 once a node is there.
* C104: about `execF` of C102, with `Strikes` that are silent as long as few calls are pending. A table computed from the generated
  code and the automaton (`Proofs/PendingScan`, checked by the kernel) says which rules the statements of a function may call
  before a token is consumed, and which after, given the next token and whether prediction, `sync` or `recover` lets them
  (`Proofs/PendingStep` proves the table right about `execE`, errors included); each call costs its rule at most what the tokens
  still ahead pay for (`Proofs/Pending`: `Roomy` is an invariant of all statements). For accepted queries `Proofs/PendingHeight`:
  what is returned is not higher than the limit, and nothing arrives if the tree is not.
* C105: `Model/ErrorWork`: the statements executed by `execE` (generated functions with error recovery), in order. For every function
  and next token a table (`Proofs/ErrorWorkTables`) bounds its work if no token is consumed, and what is left of the tokens' payment
  if some are; the kernel checks that the table fits the code and the automaton (`ErrorWorkScan`: `Rates.sane`, `Rates.right`), and
  `exec_covers` carries it through all runs, with C104's facts about what can happen before a token is consumed. A run that is cut
  off has used up its steps (`timeout_acts`), so the bound on the statements ends every run.
* C106: `Model/LexerCache`, `Model/Cache` with `Spec/Memory` (what is stored). Lexer: `Proofs/LexerStates` lists all 95 sets of
  configurations; the kernel checks that one step from each of them, for one character of every range of the network, stays in
  the list. Parser: `Proofs/CacheGrowth`: invariant of the sets of configurations before N opening brackets (states, outermost
  frames of each alternative, two alternatives alive): no verdict is ever reached, and the shortest stack grows with every bracket,
  so no set occurs twice; `Proofs/CacheKeys`: what was looked up is stored, kept, and not stored again.
* C107: `Model/ErrorTree` (`execN`: the run of `Model/ErrorStrategy`, with the nodes it adds to the tree: `consume`, `match`,
  `enterRule`, the `except` clauses) and `Spec/ErrorTree` (tokens, sizes, repairs of a tree). `Proofs/ErrorTree`: by induction over
  the run, it reports what `execE` does (`execN_out`), keeps every token (`execN_keeps`), adds a context per call and a bounded
  number of nodes per action (`execN_sized`, hence the bounds, by C105), and is the run of `exec` as long as nothing is reported
  (`exec_calm`). `Props/ErrorTree`: hence the statement, by C87, C89 and C105. That every report leaves an error node, a token made up or an exception in the tree is
  not claimed (C108: the tree is not one of the grammar).
* C108: `Spec/Conform` (`Shaped`: children that are what an expression of the grammar says; `ETree.Conforms`) about the trees
  of C107. `Proofs/Conform`: by induction over the relation between code and grammar (`Impl`, C53) and over the steps
  (`didN_of_impl`): what statements add until the next ones start is what their expression says, or its beginning. That no report
  leaves a tree of the grammar behind (`C108_reports`) is proved by C107 and the uniqueness of the accepted tree.

Model fidelity: the project's own test queries and documented results are run on the model by the kernel (`Tests/Regression`,
generated by `tools/gen_regression.py`; `Tests/Validation`). These are tests of the model, not proofs of properties.

## Trusted base

* Lean's kernel; axioms used are at most `propext`, `Classical.choice`, `Quot.sound` (`AXIOMS.txt`, the output of
  `#print axioms` for every property theorem). No axioms of our own.
* The reading of the Python sources (model vs. code), cited definition by definition. `tools/gen_antlr.py` transcribes the
  integers and the rule functions of the generated files; the decoded tables are proved to be what the deserializer
  makes of the integers.
* ANTLR runtime (not part of /repo): (a) lexer = longest match / first rule with the recovery rule of `Lexer.nextToken`
  /`Lexer.recover`; proved (C93) for a model of the published lexer simulator, which leaves out what the grammar does not use (modes,
  channels, `more`, non-greedy loops, predicates, actions other than `skip`), and C94 shows that its shared DFA does not matter; (b) ALL(*) prediction: `adaptivePredict` answers with the lowest alternative of the decision from which
  the rest of the input can be consumed in the full calling context, if there is one, and otherwise with an alternative
  that exists or an exception; `sync` does not complain about a token that is expected (`Predictor.Ideal`; all other
  behaviour is arbitrary); that `parseTokens` is what then happens is proved (C53); and these assumptions are proved (C87)
  for a model of the published prediction algorithm, whose only simplifications are that graph-structured stacks are
  sets of stacks, and that no work is shared between the paths of a closure;
  (c) the *content* of parser syntax errors (messages, positions, recovery) is an arbitrary parameter (`Runtime.syntaxErrors`),
  so theorems hold for every possible content; C41 assumes that reported tokens are tokens of the stream (`ReportsOk`),
  which C79 derives from a model of error recovery in which only the rules of the game are fixed (error-recovery mode, what a
  deletion, an insertion, a skip, an exception does, `EOF` is never skipped, and the failsafe of `recover`); what
  C79-C82 use of prediction on malformed queries is proved for the model of the prediction algorithm (which alternative is chosen,
  which token is blamed); C89-C92 are about runtimes whose errors are those of the published `DefaultErrorStrategy`
  (`Runtime.Antlr`; `Model/ErrorStrategy`, written after the library's code, not part of /repo); C95 shows that they are
  the ones of the whole program, where tokens are fetched on demand (`Model/Program`);
  (d) `enterRule`, `exitRule` and `consume` as in `Model/Marked` (`LT(1)`, `LT(-1)`; `EOF` is never consumed); what this means
  for start and stop tokens is proved (C84); (e) `getToken(s)`, `getTypedRuleContext(s)`, `ParseTreeWalker.walk`, `ParseTreeVisitor.visitChildren` as
  written in `Model/Contexts`. `tools/gen_contexts.py` transcribes the context classes.
* Python runtime parameters: `unicodedata.normalize` (arbitrary function; idempotent in C47 (b)), digit limit of `int()`,
  `chr()` overflow behaviour, non-ASCII decimal digits accepted by `int(_, 16)`, `repr()` of strings — all arbitrary parameters.

## Not modelled

What handlers do with log records (and the addresses in them), where memory runs out (C102 and C103 let `MemoryError` arrive anywhere), packaging,
docs/tests. Python's recursion limit is modelled as in C70 (room for the parser's and the builder's calls, for accepted queries) and C104 (the parser's calls, for all queries)
and as in C102 (`RecursionError` at any call of a rule function, malformed queries included).

## Test against wrong programs

`seeded/LOG.jsonl`: realistic bugs put into a copy of the model, with the theorems that stopped holding, and what was
tightened when one survived.
