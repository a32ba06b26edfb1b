# Formal model of dbrattli/Expression

Subject: the Python package under `/repo/expression` at the pinned commit. The code is read as text, never run.
Everything here is about a Lean 4 model written by hand from that text.

## Trusted base

* Lean 4.33.0's kernel. Theorems depend at most on `propext`, `Classical.choice`, `Quot.sound` (the three axioms of Lean's
  library); no axiom is added, nothing is `sorry`'d, no `native_decide`/`bv_decide`. `Verif/Audit.lean` prints the axioms.
* The faithfulness of the model: each definition cites the file and lines it models, and says where it simplifies.
* The semantics we give to Python itself (below).

## How Python is modelled

* **Effects and exceptions.** A Python computation is `Py σ α := ExceptT PyErr (StateM σ) α`: it runs in a world `σ` that is
  arbitrary, may change it, and returns a value or raises; changes made before a raise are kept. Every theorem about callbacks
  is for all `σ` and all callbacks of type `… → Py σ …`, so "called once, in this order, not called after" is expressed as
  equality of computations with a specification written in the same monad. Functions without callbacks are pure or `Except PyErr`.
* **Divergence.** Loops/recursions that may not end are modelled by `partial_fixpoint` in `Option`, a relation, or a step
  function; never by a fuel bound that hides the divergence.
* **Keys.** Map keys come with Boolean `<` and `==` that are *not* Lean equality (so `1`, `1.0`, `True` can be distinct but equal keys);
  the law assumed is that `<` is a strict weak order whose incomparability is `==`. Keys violating it (NaN) are treated in a second
  model of maps (`MapHost`, C103), where comparisons are arbitrary code.
* **Generators** are interaction trees (`yield`/`raise`/`return`), `yield from` is their bind. **Iterators** are state machines
  with an effectful `next`.
* **Threads** are interleavings of atomic steps, the atomic steps being the code between lock operations / shared accesses.
* **Pydantic and asyncio** are libraries: the model states what their documented interfaces do (core schemas; futures, tasks, events
  and the FIFO ready queue of an event loop) and the theorems are about the package's code on top of that.
* Not modelled: memory identity and aliasing except where said, the recursion limit except where said, floating-point arithmetic, `repr`,
  type annotations, performance except the tree depth, asyncio internals beyond "callbacks run one at a time in FIFO order".

## Layout

`Verif/Model/*` model, `Verif/Spec/*` independent specifications, `Verif/Lemmas/*` helper lemmas, `Verif/Props/*` property theorems
(names start with the property id) with a non-trivial instance beside each. `Verif/Audit.lean` prints the axioms of every theorem in
`MANIFEST.json`.

Every definition of the model cites the lines it models. `[Python]` marks what is not in `/repo` but done by the interpreter, its standard
library or CPython's extension modules; `[model]` what exists in the model only (memory, interleavings, logs of what happened, code of a user).

A property the code violates has a definition `Cxx_full_statement : Prop` (the property in full), a theorem
`Cxx_full_statement_false` (its negation, from a concrete witness) and one or more `…_partial` theorems with what does hold.

## What is modelled, file by file

| file in `/repo/expression` | model | left out |
|---|---|---|
| `collections/maptree.py`, `map.py` | `MapTree`, `Map`: all of it, effectful callbacks, failing branches as errors; `MapSource`: `of_seq` of any iterable; `MapHost`: the same functions once more, with comparisons that are arbitrary code and calls that occupy stack frames; `MapHeap`: the functions that make or read nodes once more, with the nodes as objects in a heap; `MapView`: the methods inherited from `Mapping`, `items` through a `dict`, mapping patterns; `Text`: `__str__` | — |
| `collections/block.py` | `Block`: all methods; Python's tuples are lists, `sorted` is a stable insertion sort; `Text`: `__str__`; `StopIter`: callbacks that raise `StopIteration`; `BlockCost`: elements copied; `FromIterable`: making a block (also an array, or a map by `of_list`) from any object | hints at the length of a source |
| functions of `block`, `map`, `option`, `result`, `array` that call a method | `Modules` | — |
| `collections/seq.py` | `SeqMethods`; `Seq`: iterables as state machines with effectful `next`; generators as such machines; `SeqStack`, `SeqConsume`: the same with the frames that are free; `StopIter`: callbacks that raise `StopIteration`; `SeqClose`, `SeqPipe`: iterators that are left before their end | cycles of references, which delay finalization |
| `collections/array.py` | `Array`: typed arrays of integers, floats (as objects with an interface for rounding) and objects, storage identity of `bytearray`; `Slice`: slices as keys; `ArrayLive`: callbacks that change the array; `ArraySeq`: the other methods inherited from `MutableSequence`; `StopIter` | — |
| `collections/asyncseq.py` | `AsyncSeq`; `AsyncShared` (one generator object, several tasks that ask it, cancellation); `AsyncStop` (`StopAsyncIteration` as an exception, and callbacks that raise it); `AsyncStack` (the same functions with the frames that are free) | closing generators left early |
| `core/option.py`, `result.py` | `Option`; `OptId`: which object a `Nothing` is; `Text`: `__str__` | — |
| `core/tagged_union.py` | `TaggedUnion`: construction, attribute access, `eq`/`order`/`hash`, copying; `UnionClass`: what the decorator does to classes with bases and methods of their own, `Try`; `UnionOrder`: the comparison operators; `Match`: the `match` statement, class and sequence patterns, `__match_args__` (also of the collections) | multiple inheritance |
| `core/builder.py`, `core/async_builder.py`, `effect/*.py` | `Builder`: generators and coroutines as interaction trees; `TryBody`: bodies with `try` and `with` statements | traceback handling |
| `core/compose.py`, `pipe.py`, `curry.py`, `misc.py`, `fn.py` | `Functions`; `CallStack`: with the frames that are free | overloads |
| `core/mailbox.py` | `Mailbox`: one attribute access, queue or lock operation at a time, any number of threads. `MailboxInterrupt`: the same, with exceptions that end calls of other threads. `Agent`: `start`, with the task of a body that receives in a loop, the reply channels and the token. `Worker`: `start` with any coroutine as body: it may await other things, receive with a timeout, catch, return, raise; replies by anybody on the event loop. `Network`: any number of such agents on one event loop, whose bodies post to, ask and answer each other, and pass reply channels on | several tasks of one body that receive at once (`Mailbox` alone has any number of receives) |
| `core/aiotools.py` | `Aio`: `from_continuations`, `start`, `start_immediate`, `run_synchronously` | the implementation of asyncio |
| `system/disposable.py`, `cancellation.py` | `Disposable`, `Cancellation`: interleavings of any number of threads; `Linked`: any number of sources and disposables whose callbacks cancel and dispose each other; `With`: `with` blocks in one thread; `Interrupt`, `CancelInterrupt`: exceptions from outside in any call of a disposable or of a source | exceptions from outside between taking a lock and entering its block, and in calls on several linked sources |
| `core/typing.py` | `Typing`: the casts | the protocols, which have no code |
| `extra/parser.py` | `Parser`, `ParserStack`, `Grammar` (grammars written with the combinators), `GrammarCost` (the same with runs counted), `ParserText` (names) | `int()`/`float()` beyond ASCII digits |
| `extra/option/pipeline.py`, `extra/result/*.py` | `Extra`, `TraverseAny`; `CallStack`, `BlockCost` | — |
| pydantic hooks (`__get_pydantic_core_schema__`, `dict`) of Option, Result, Block | `Serialize` | pydantic itself |

Threads: every interleaving of atomic steps under sequential consistency. The steps are single attribute reads and writes, lock
operations and calls of built-in containers, as listed at each step function.

## Where the code does not do what one would expect

Those with a property id are theorems (a refuted full statement, or part of a theorem's statement; `MANIFEST.json` has the names);
the few without one are observations from reading.

* Map: removals can unbalance the tree without bound: a map of n entries can have n levels, never more (C06). `change` raises `EffectError` when the key is absent, the callback answers
  `Nothing` and the search ends in an empty subtree (C07). `==` is true of a map and any extension of it by larger keys (C10), so equal
  maps can hash differently (C11). `pick` raises `EffectError`, not `KeyError` (C13).
  `items()` raises `TypeError` if a key cannot be hashed, `keys()` and `values()` do not (C109).
* Block: `take_last(0)` is everything and `skip_last(0)` nothing (C16). `indexed` ignores `start` (C19). `Block` defines `__eq__` but no
  `__hash__`, so it is unhashable. `zip` does not check lengths though it says so.
* Seq: `filter`, `scan`, `zip`, `unfold` return one-shot iterators (C24), which iterations at the same time share (C114); the method `collect` is eager (C59); `max_by`/`min_by` return
  the projection, not the element (C77).
* Tagged unions: equal values of unions that are not frozen hash by identity (C31). `_index` can be set even on frozen values (C60).
  The decorator overwrites methods written in the class body, among them `Option.__repr__`, `Option.__eq__` and `Result.__repr__` (C87).
  A decorated subclass of a decorated class, without an `__init__` of its own, can never be called (C88). `copy`/`deepcopy` of a `Try` give a `Result` (C89). With `order=True` only `<` and `>` work: `<=` and `>=` raise `TypeError` (C157).
* `Option.Nothing()`, copies, `pickle` and JSON give options without a value that are not the object `Nothing`, so that the documented test
  `x is Nothing` fails for them (C137).
* A `Map.pick` without a hit, or a loop over `Nothing`, inside an effect block makes the block return `Nothing`, whatever kind of block it is; only a block of a sequence that has yielded something before raises `EffectError` (C138).
* What `effect.seq` returns cannot be iterated over when the body yields some hundreds of values (one `seq.concat` is nested in another per yield: `RecursionError` before the first value), and iterating takes quadratic time (C139, C140).
* An asynchronous sequence made by some hundreds of `append`s, one after the other, cannot be iterated over: every `append` takes a stack frame (C154); and iterating over what fewer have made takes quadratic time (C155).
* `pipeline(f1, ..., fn)` nests one call in another: it needs a stack frame per function, while `compose` needs two for all (C141).
* Every `Block.cons` copies the block, although the documentation calls prepending fast; `block.concat`, `traverse`, `sequence` and `many` take quadratic time (C142).
* The name of a parser contains those of its parts and is made with it: a parser used twice at each of n levels takes exponential time and memory to make,
  though it may run in linear time; `preturn(x)` calls `str(x)` when it is made (C144).
* `many1(p)` is called `many(p)`; the names of `and_then`, `or_else` and `bind` lack the closing bracket and have the second parser first (C143).
* `Block(xs)`, `TypedArray(xs)` and `map.of_list(xs)` test `if xs`: a NumPy array of the number 0 makes an empty block, a longer one makes them raise; `of_seq` does not test (C145).
* A `dispose()` that a `KeyboardInterrupt` ends between marking the object and calling the action loses the action for good (C146).
* The error of a parser with alternatives speaks of the last alternative only, even if another one came farther: `(pstring("ab") | pchar("x"))("ac")` expects an 'x' instead of the 'a' (C149).
* A `post` that a `KeyboardInterrupt` ends between queueing its message and waking the event loop leaves the message in the queue although a receive waits, until the next `post` (C148).
* A `cancel()` that is interrupted (or that a listener ends by a `BaseException`) loses the listeners it still had to call, and an interrupted disposal of a registration leaves its listener; a `register` interrupted before `_id += 1` leaves a callback that the next one overwrites (C147).
* Text: `Block.of("a, b")` and `Block.of("a", "b")` print alike (C90).
* Builders: a body that returns `None` after a `yield` gives the last value bound (C33, C34); with `effect.seq`, an `EffectError` after
  the first `yield` escapes (C35); a coroutine body that awaits `Nothing` lets `EffectError` escape (C36). `except Exception` in a body catches the
  short circuit (C125).
* Map: `of_seq` (and `of`, `create`) recurses once per pair, so long sequences raise `RecursionError`; `of_list` does not (C95).
* Parser: `many` recurses once per element (C63), `sequence` and `pstring` recurse once per parser (C96), `choice` of nothing raises `ValueError`, `many` of a parser that consumes nothing never
  ends (C41).
* `traverse` calls its function on every element, last one first, even after an error (C43).
* `seq.append`, `seq.concat` and `seq.collect` close a generator they are given when the loop over the result is left early, so that the elements it had left are lost to the caller; other functions do not (C153).
* `traverse` returns `Nothing`, which is no `Result`, when the function fails with `Nothing` (C150).
* `curry` drops the keyword arguments of all stages but the last (C47); a negative number of arguments never calls the function.
  `starcompose` is typed for unpacked arguments but takes one tuple (C46).
* Casts: `try_downcast(int | str, 5)` is `None`; `downcast(list[int], xs)` raises `TypeError` (C98).
* Disposables: the `dispose` that loses a race returns before the action has run (C49). A composite stops at the first part that
  raises (C64), and a disposal that overlaps another returns while actions still run in the other (C115).
* `pint` raises `ValueError` instead of returning `Error` on a literal with more digits than `sys.get_int_max_str_digits()` (4300 by default), so text
  from outside can make a parser raise (C116).
* Cancellation: a `register` that races with `cancel` can be lost (C51). A `BaseException` in a listener stops the rest, and the snapshot
  calls listeners disposed meanwhile (C50). `CancellationToken.none()` says it is not cancelled, yet `register` raises on it.
  A second `cancel` returns while the first is still calling listeners, so a source linked to the cancelled one may not be cancelled yet (C119).
* Mailbox: two processing threads drop a message, even two for one call, and can leave a receive waiting for ever (C54). A reply `None` never completes the asker; of two replies before the wait the
  last one wins (C55). The stale continuation of a receive that timed out swallows the next message, and a receive before that raises
  (C65). Cancelling the token does not wake a waiting receive before the next post (C66).
  Cancelling an agent leaves those who asked it waiting for ever (C102).  A `receive` under `asyncio.wait_for` that times out loses the next message (C110).
  An agent whose body has ended accepts posts and questions as before, and nobody is told (C112).
  Agents that ask each other, or themselves, wait for ever: a body that awaits an answer receives nothing, and `post_and_async_reply` has no timeout (C118).
* Typed arrays: `int32`/`uint32` have the size of a C long; `byte` raises `ValueError` (C56). A `bytearray` given is shared (C68). `map` and
  slices infer the type anew from the first element and can raise `OverflowError` (C69, C70); slices of typed arrays are untyped (C72);
  `take_last(0)`/`skip_last(0)` as for blocks (C70); `indexed` ignores `start` (C71). A slice of an array of numbers
  takes no `TypedArray`, nor a slice of an array of the same type code if that was inferred for one of them (`"l"` and `"q"` for 64 bits);
  an empty array assigned to a slice with a step deletes it (C105).
  A callback that deletes elements makes `map`, `filter` and `fold` skip others; `a.extend(b)` never ends if `a` and `b` are made of the same
  non-empty `bytearray` (C133). A loop over `reversed(a)` that shortens `a` raises `IndexError`, unlike one over a list (C135).
* Asynchronous sequences: cancelling a task that waits for the next element (a timeout) ends the sequence, silently, for all others that go
  through it; asking while another request is worked on raises `RuntimeError` (C136).
* Parser: `choice` and `any_of` nest to the left, so that the first alternative, which is tried first, is the deepest: with too few frames
  every text raises `RecursionError`, also one that starts with the first alternative (C106).
  A left-recursive rule raises `RecursionError` on every text; a recursive grammar does on deeply nested texts (C122, C123).
  `or_else` reads again what its first alternative has read: a recursive grammar may take exponential time (C128).
* `Map.of_seq`: the unpacking of an element is inside the `try`, so a `StopIteration` it raises silently truncates the map; an endless source, or one with
  more pairs than the stack has frames, raises `RecursionError` (C132, C95).
* A callback that raises `StopIteration` (say, a bare `next(it)`) silently truncates `Block.map`, `mapi`, `filter`, `collect`, `choose`, `TypedArray.map`, `filter`,
  `seq.filter`, `scan`, `mapi` and `init_infinite`; in the other functions of `seq` it becomes `RuntimeError` (C134).
* Functions of modules: piping a map into `map.fold_back(folder, state)` takes the map for the state; `pipe(xs, seq.zip(ys))` pairs the other way round than
  `xs.zip(ys)`; `option.or_else`, `to_result`, `to_result_with` and `default_arg` are not curried, unlike `result.or_else` (C131).
* Patterns: the payload of a case cannot be given by position, except that of the first case declared: `case Option("some", x)` never matches (C107).
  `case Seq(x)` and `case TypedArray(x)` never match, `case Map(x)` raises `TypeError`, and `case [h, *t]` does not match a block (C108).
* AsyncSeq: `take(n)` pulls one element more than it delivers (C58); `repeat` without `times` yields nothing (C73); results are one-shot
  (C74).
* Serialisation: `dict()` does not look into plain lists and dictionaries (C79); `Some(Nothing)` dumps as `None` (C80); no JSON loads as a
  `Result`, and JSON below an `Option` stays raw (C81, C82); an instance passes validation whatever it holds (C82). Data that is no dictionary makes
  the validators of `Result` raise `TypeError` instead of rejecting it (C126).
* aiotools: failed and cancelled tasks are never released (C84); `start_immediate` runs nothing immediately, and `start` with a
  cancelled token, or with `CancellationToken.none()`, raises although the task was created and will run (C86).

## Mutation testing

`seeded/LOG.jsonl` has one line per wrong program tried: the definition, the edit (file, old and new text), the claim it breaks, the
theorems that stopped proving and those tightened as a consequence. The edits are made in a scratch copy, one at a time. A theorem counts
as failed when it no longer elaborates or rests on a declaration that does not; where only a proof broke while the statement stayed true
the entry says so and names the theorem that was tightened or added.
The lines `auto…` are edits made by a program, one line of the model at a time; their builds were stopped at the first declaration that failed,
and the theorems listed are those that rest on it.

## Plan per property

| id | modelled | how proved |
|---|---|---|
| C01 | `maptree.py` whole, `map.py` methods; callbacks in `Py` | in-order list of the tree is sorted (induction over the history); each operation's in-order list computed; lookup = association lookup; refinement to a function-valued dictionary over arbitrary histories |
| C02 | to_list loop, stack iterator `MkIterator`/`collapseLHS`, `to_seq`, fold | in-order characterisation + sortedness |
| C03 | `size_aux`, `is_empty` | length of in-order list; bijection with bound keys |
| C04 | failing branches kept as `Except` errors | cached heights are exact on every reachable tree, hence failing branches unreachable |
| C05 | `add` | AVL-like invariant with tolerance 2, then a Fibonacci-like lower bound on size |
| C06 | `remove` | false for the code (root removal uses `mk`): witness history; for every n a map of n entries and n levels; partial: heights stay exact, never more levels than entries |
| C07 | `change` with callback in `Py` | false when the key is absent, the callback returns Nothing and the search ends in an empty subtree (raises EffectError): witness; partial: true otherwise, and exactly one call |
| C08 | `filter_aux`, `partition_aux` | equality with monadic filter over the sorted list |
| C09 | iter/fold/fold_back/exists/forall/try_pick | equality with monadic list traversals in `Py σ` |
| C10 | `Map.__eq__` with its two iterators | false (a map equals any extension of it): witness; partial: equality = prefix relation, so correct for equal sizes |
| C11 | `Map.__hash__` | false because of C10: witness; partial: equal bindings hash equally |
| C12 | `of_seq`, `of_list` | last-wins specification |
| C13 | `try_pick`, `pick` | false for pick (raises EffectError): witness; partial |
| C14 | `map` | list map |
| C15, C16 | Python slices over integers | list take/drop; C16 false at 0: witness; partial for n>0 |
| C17 | `sorted` as stable insertion sort | permutation, sortedness, stability |
| C18, C20 | block methods over tuples, callbacks in `Py` | list equations |
| C19 | `indexed` | false: start ignored; partial for start = 0 |
| C21 | `unfold` as partial fixpoint | relation "generates" |
| C22, C23 | seq combinators as iterator transformers | equality of effects for every demand |
| C24 | re-iterability | false for filter/scan/zip/unfold: witness; partial for the others |
| C25 | scan/fold/fold_back | list induction |
| C26-C29 | option.py/result.py methods | case analysis with callbacks in `Py` |
| C30-C32 | tagged_union.py | construction decision procedure; order/equality/hash laws |
| C33-C36 | builders over interaction trees | induction on the body |
| C37-C42 | parser.py, `many` as partial fixpoint | well-behavedness closed under combinators; relational spec of repetition; decimal round trip |
| C43 | traversable.py over the result builder | evaluation order false (right to left, all elements): witness; partial: the value returned |
| C44, C45 | pipeline.py, catch.py | induction / case analysis |
| C46-C48 | compose/pipe/curry/tailrec | induction; keyword dropping witness |
| C49-C51 | disposable/cancellation as interleavings | invariants; C51 false: witness schedule; partial |
| C52-C55 | mailbox as interleavings | invariants; C54 and parts of C55 false: witness schedules |
| C56 | typed arrays of integer types | range checks |
| C57, C58 | asyncseq.py | list equations; C58 false: pulls one more |
| C59 | the method `Seq.collect` | false: eager; proved on finite collections |
| C60 | attribute operations of frozen unions | invariant over arbitrary operations |
| C61, C62 | parser laws, `pfloat` | equality of computations; grammar of literals |
| C63 | `many` with a stack bound | exact depth needed |
| C64 | composite disposables | equality with a sequential specification |
| C65, C66 | mailbox with awaiters giving up, cancelled token | invariants over interleavings |
| C67-C72 | typed arrays with storage | list specification plus range invariant |
| C73, C74 | sources of async sequences | list equations; witnesses |
| C75-C78 | block equality, `range`; seq consumers, `__repr__` | list equations |
| C79-C82 | `dict`, dumping, validation | mutual induction on values and annotations |
| C83-C86 | `from_continuations`, started tasks | invariants over event-loop histories |
| C87-C89 | class dictionaries and method resolution, `Try` | case analysis; witnesses from the package's own classes |
| C90 | `__str__` of blocks and maps | injectivity of joining; witness |
| C91 | `asdict` of unions | round trip through the constructor |
| C92 | `sum`, `sum_by`, `unfold`, `__str__` of typed arrays | list equations; witness for `sum_by` |
| C93 | the operations of the builders | monad laws; witness for sequences with effects |
| C94 | slices as keys | the documentation's formula for the items |
| C95 | `of_seq`, `of`, `create` with a stack bound | exact depth needed |
| C96 | `sequence`, `pstring` with a stack bound | exact depth needed |
| C97 | `with` on disposables, one thread | every program around one object |
| C98 | `upcast`, `downcast`, `try_downcast` | instances under any class hierarchy |
| C99 | `__str__` of options and results, `__repr__` of unions | injectivity in case and payload text |
| C100 | `MailboxProcessor.start` with a receiving body | invariants over all interleavings; a measure bounds the work |
| C101 | `post_and_async_reply` on an agent | invariant of the reply channels |
| C102 | cancelling the token of an agent | refuted for pending askers; the rest by invariants |
| C103 | maps with keys whose comparisons are arbitrary code | a triple for result, exceptions and cost, by induction on the tree; equal to the first model for Boolean comparisons |
| C104 | maps on a bounded stack | simulation of the unbounded stack, by induction on the tree |
| C105 | assigning to slices of typed arrays | refuted for `array.array`; otherwise the documentation's rules, pointwise |
| C106 | running parsers with a stack bound | closure under combinators of "same or `RecursionError`"; exact frames for `any_of`, `pstring`, `many` |
| C107 | patterns on tagged unions | refuted by position beyond the first case; by keyword from the attributes of constructed values, statements by induction on the branches |
| C108 | patterns on collections | refuted for `Seq`, `TypedArray`, `Map`; blocks and sequence patterns pointwise |
| C109 | maps as mappings | the views equal the enumeration (C02); a `dict` with hashes, by induction on the insertions |
| C110 | `MailboxProcessor.start` with any coroutine | refuted for timeouts; order by an invariant over all interleavings, losses counted |
| C111 | reply channels used by any body and by others | invariant of the channels |
| C112 | agents whose body has ended | invariants after the end; the queue from the account of all messages |
| C113 | cancelling an agent with any body | invariants after cancelling; no receive is left waiting |
| C114 | iterations of one sequence at the same time | refuted for one-shot objects; otherwise each equals the lone iteration, by induction on the interleaving |
| C115 | composites of asynchronous disposables in several tasks | refuted for overlapping disposals; invariants over all interleavings, failures counted |
| C116 | parsers answer: neither exception nor endless run | refuted for `pint` beyond the digit limit and for `many` of what consumes nothing; induction over the combinators with a consumption analysis |
| C117 | `Network`: n agents (`Worker`) and who runs on the event loop; `post`, `post_and_async_reply` and `reply` called by bodies run in the mailbox of the other agent step by step | each agent of a network runs as it could alone (projection), so the invariants of one agent hold; messages only grow at the end |
| C118 | the same; bodies that see to their questions are described by what they owe and hold (`Manners`) | false (two agents asking each other): witness; false also if nobody waits upwards but channels are handed up: witness; partial: every question asked is owed by somebody, on its way, or answered (invariant), and an agent of least rank among those that wait would have to be answered; a closed set of waiting agents is invariant |
| C119 | `Linked`: n sources (`Cancellation.Race`), m disposables (`Disposable`), and the open calls of each thread in their order; a callback is a user's, or `cancel`/`dispose` of one of them | false (second `cancel` overtakes the first): witness; partial: each object runs as it could alone (projection); a callback that was called has set the flag, or a thread is at it just above the caller (invariant); chains by induction |
| C120 | the same | the calls on the lists of the threads are the frames of the objects, and only the innermost is not in a callback (invariant); a potential: steps left of each frame, listeners still to be called, disposables not disposed |
| C121 | `Grammar`: rules are functions that make parsers, used in each other by `bind`; the recursion is a partial fixpoint | parsing expression grammar as an inductive relation; soundness by fixpoint induction, completeness by induction on the derivation (through the bounded stack) |
| C122 | the same | well-founded induction on the text left and the rules that may start; left recursion: no derivation exists, by induction on derivations |
| C123 | `FrameParser`: so many free frames | the parser gives the grammar's answer or overflows (induction on the frames); enough frames by induction on the derivation, linearly many for a well-formed grammar (constants by recursion along what a rule may start with); each nesting of brackets costs frames |
| C124 | `TryBody`: the generator of a body with `try`/`with` statements, with the list of statements it is inside of while suspended | the generator, run by the builder, does what the block does without suspension (two fixpoint inductions); entries and exits of managers form a well-nested word (fixpoint induction) |
| C125 | the same | false (`except Exception` catches the short circuit): witness; partial: for bodies that let `EffectError` pass, equality with the block in which it cannot be caught |
| C126 | `Serialize` (`validate`) | false (`"error" in 5`): witness; partial: acceptance and result are exactly `Reads` (induction on the annotation), failures are `ValueError`; for data that is no dictionary, the exception is determined |
| C127 | `MapHost` (`Host.metered`) | a triple of cost, result and exceptions by induction on the tree; the iterator by a potential (calls a tree on its stack will still cause) |
| C128 | `GrammarCost`: the parsers of a grammar, each inside a user's parser that counts | false (`sum → term '+' sum \| term` takes exponential time): witness for every depth; partial: expressions without rules, by induction on readings with their cost; repetitions consume since a reading and its cost are unique; linear time for LL(1) grammars: a reading that begins nothing costs a constant, one that consumes is paid for by its characters, and after one that was given up late the next character is not among those that may follow, so that nothing begins there again; the constants are found by recursion over the rules a rule may start with |
| C129 | `MapHeap`: the nodes are objects in a heap, to which others add between any two steps | refinement of the tree functions by induction on the tree stored at a reference, counting new nodes and collecting addresses; that nothing is written by fixpoint induction (also for references that hold no tree); histories by induction |
| C130 | `MapHeap` (`iterable`) | refinement of the iterator's stack, by induction on its weight; the loop as a relation between pairs, worlds and outcomes |
| C131 | `Modules`: each delegating function of the modules as data (parameters, `curry_flip` number, method call), with Python's binding of arguments, over arbitrary methods; `SeqMethods` | false (`map.fold_back` takes the state last; `seq.zip` pairs the other way round): witnesses; partial: one lemma about binding by induction on the parameters, and a check of the shape of each function |
| C132 | `MapSource`: `of_seq` over an arbitrary iterator and unpacking, with a bound on the stack | false (`StopIteration` while unpacking ends the map): witness; partial: the history of the iterator as a relation, by induction on it; the loop by fixpoint induction |
| C133 | `ArrayLive`: storage on the heap, an iterator is an index, callbacks run on the heap | false: witness (deleting callback); the visits as a relation, by induction; termination from a bound on the length, non-termination by fixpoint induction; `extend` by induction on what is left |
| C134 | `StopIter`: iterators of C code pass a `StopIteration` of the callback on as their own end, generators turn it into `RuntimeError` | false: witness; each function as a `for` loop with `try` around the call, by fixpoint induction; lists by induction on the calls that returned; partial: equality with the model of the other properties for callbacks that never raise it |
| C135 | `ArraySeq`: the methods inherited from `MutableSequence`, on the heap | `reversed` false (`IndexError` if the array gets shorter): witness; partial for bodies that leave alone what is before; the searches as loops over the list, by induction |
| C136 | `AsyncShared`: one generator object, its askers and its source as a history of events | full statement false: a cancelled wait ends the sequence for all: witness; the rest as invariants over histories (values = the loop over the delivered elements; requests = outcomes + waiting); alive: partial; tied to `AsyncSeq` by `C136_operations`, `C136_alone` |
| C137 | `OptId`: options whose absence has an address | `x is Nothing` false for copies, pickle, JSON, `Option.Nothing()`: witness; partial for all programs of the other operations: induction over `Obtained`; `==` and `is_none` always right |
| C138 | `Builder`, any generator as body | own kind false (an `EffectError` of `Map.pick` in a block of results gives `Nothing`): witness; what is returned, for every body, from the equations of C33-C36; partial for bodies whose `EffectError`s are of the own kind |
| C139 | `SeqStack`: the combinators of `Seq` with a number of free frames; the objects `effect.seq` nests | one stack for all blocks false: a countdown; otherwise same or overflow: a simulation up to `RecursionError`, in both directions of termination, for every combinator; exact frames of the nested concatenations: induction over the layers |
| C140 | `SeqStack`, resumptions counted in the world | linear false; exactly n² + 3 n - 2: induction over the layers |
| C141 | `CallStack`: calls with a number of free frames | constant false of pipelines, which need a frame per function (exact equation, by induction from the last function); compose, pipe, effect blocks, traverse: equal to the models without frames |
| C142 | `BlockCost`: elements copied, counted in the world | linear false; quadratic bound and exact counts by induction |
| C143 | `ParserText`: parsers with their names | false for `many1`; unique readability by induction over how a parser was made |
| C144 | `ParserText`, programs whose calls use parsers made before | linear false; exactly exponential, by induction over the calls |
| C145 | `FromIterable`: objects with effects when iterated and when tested | false for objects that are false; the loop of `list(xs)` is an iteration and nothing else, by fixpoint induction |
| C146 | `Interrupt`: the interleavings of C49 with exceptions from outside | false; the invariant of C49, or that the action is lost |
| C147 | `CancelInterrupt`: calls on a source, interleaved, with exceptions from outside | false; invariants of the lock, of the keys, and of who has still to call whom |
| C148 | `MailboxInterrupt`: the interleavings of C52-C54 with exceptions in threads other than the event loop's | false; the invariants of C52-C54 are kept by interrupts; a queued message while a receive waits: its `post` was interrupted, or not over, or somebody will look (invariant) |
| C149 | `Grammar`: the error of the parser of an expression | false (witness); `Stuck` (where an expression gets stuck) is what the parser reports, by induction on it; it is among the comparisons that failed (`Missed`); without alternatives there is one only |
| C150 | `TraverseAny`: traversable.py with functions that return options or results or raise `EffectError` or anything else | false (witness: `Nothing`); exact for every function (`attempts`, `firstFailure`) by evaluating the generator of `folder` under the builder and induction on the block |
| C151 | `AsyncStop`: the end of an iterator is an exception; a generator is a frame that decides what `__anext__` does by how its code was left | the frame rule commutes with the code of a generator (fixpoint induction), which gives the loops of C57 with a `try` around each call; lists by induction on the calls that returned |
| C152, C153 | `SeqClose`, `SeqPipe`: what dropping and closing an iterator does; pipelines with a ledger of open generators | each function keeps the accounts of its sources (`Accounts`: what an iterator in a given state still owes to an entry of the ledger), by fixpoint induction; induction on the pipeline. Without clean-up a pipeline simulates the one of `Seq` in both directions (`Dir`), which justifies that `Seq` lets dropping an iterator have no effect. C153 false: `yield from` closes (witness) |
| C154 | `AsyncStack`: the functions of `AsyncSeq` with a number of free frames | same or overflow: the simulation of C139 for the loop of a generator, `scan`, `append` and `collect`; what suffices and what is needed per function; sequences appended one at a time: induction over the list; `fold`, `head`, `length`, … as coroutines with a frame of their own: the simulation for `async for` loops whose bodies may overflow |
| C155 | `AsyncStack`, resumptions counted in the world | linear false; exactly (n² + 7 n - 4) / 2: induction over the appended values |
| C156 | `SeqConsume`: the functions that run through a sequence, with a number of free frames | same or overflow: the simulation of C139 for loops whose bodies may overflow; what suffices and what is needed per function |
| C157 | `UnionOrder`: `<`, `<=`, `>`, `>=` on values of unions and subclasses, asking either operand first | full statement refuted (`<=` and `>=` raise); `<` and `>` by case, then payload; unrelated unions raise |
