{"id": "C01", "title": "Map lookups agree with a dictionary after any history", "statement": "After any sequence of add, remove, change, filter, partition and map calls starting from an empty map, try_find(k), contains(k) and m[k] answer exactly what an ordinary key-value dictionary would answer after the same updates; m[k] raises KeyError exactly when k was not bound.", "quantifier": "every finite history of map operations, every key type with a lawful < and ==, every value", "why_tests_cant": "The tree is reshaped by rotations that depend on the whole history; tests exercise a handful of histories out of infinitely many shapes.", "anchors": ["expression/collections/map.py: Map.add, Map.remove, Map.change, Map.try_find, Map.contains_key, Map.__getitem__", "expression/collections/maptree.py: add, remove, change, try_find, find, mem, rebalance, mk"]}
{"id": "C02", "title": "Map enumeration is strictly ascending and complete", "statement": "to_list, to_seq, iteration over keys and fold visit every binding of a map exactly once, in strictly ascending key order, whatever history produced the map.", "quantifier": "every reachable map", "why_tests_cant": "Ordering has to survive every rotation, splice and rebuild; only an inductive invariant covers all shapes.", "anchors": ["expression/collections/map.py: Map.to_list, Map.to_seq, Map.__iter__, Map.fold", "expression/collections/maptree.py: to_list, to_seq, fold, MkIterator, collapseLHS"]}
{"id": "C03", "title": "len and emptiness of a Map count distinct keys", "statement": "len(m) is the number of keys k for which contains(k) holds; is_empty() holds exactly when there is none; add changes len by 1 exactly when the key was absent, remove by -1 exactly when it was present.", "quantifier": "every reachable map and key", "why_tests_cant": "Depends on histories with duplicate keys in any tree position.", "anchors": ["expression/collections/map.py: Map.__len__, Map.is_empty", "expression/collections/maptree.py: size, is_empty"]}
{"id": "C04", "title": "Map operations never hit an internal error", "statement": "No public operation on a map built through the public API raises one of the 'internal error' failures of the rebalancing, splicing or iteration code.", "quantifier": "every reachable map, every operation, every key and callback", "why_tests_cant": "The failing branches are reachable only through malformed trees; absence over all histories needs an invariant.", "anchors": ["expression/collections/maptree.py: rebalance, splice_out_successor, MkIterator.__next__"]}
{"id": "C05", "title": "A Map built by insertions is balanced", "statement": "A map built by any sequence of insertions has depth at most logarithmic in its size: sibling subtrees differ in height by at most two, so the number of comparisons of a lookup is bounded by a constant times log(len).", "quantifier": "every finite sequence of insertions, every key order", "why_tests_cant": "A depth bound for all n and all insertion orders cannot be sampled.", "anchors": ["expression/collections/maptree.py: add, rebalance, TOLERANCE, height"]}
{"id": "C06", "title": "A Map stays balanced under removals", "statement": "After any sequence of insertions and removals sibling subtrees still differ in height by at most two.", "quantifier": "every finite sequence of insertions and removals", "why_tests_cant": "Imbalance builds up only along particular removal histories.", "anchors": ["expression/collections/maptree.py: remove, splice_out_successor, mk"]}
{"id": "C07", "title": "Map.change updates exactly one key", "statement": "m.change(k, f) calls f once with the current binding of k (Some value or Nothing); the result binds k to v when f returned Some(v), has k unbound when f returned Nothing, and agrees with m on every other key. It never raises unless f raises.", "quantifier": "every reachable map, key and callback (including one with effects or one that raises)", "why_tests_cant": "Absent keys may fall on many different tree shapes; the callback is arbitrary.", "anchors": ["expression/collections/map.py: Map.change", "expression/collections/maptree.py: change"]}
{"id": "C08", "title": "Map.filter and Map.partition split the bindings by the predicate", "statement": "m.filter(p) keeps exactly the bindings satisfying p; m.partition(p) returns the bindings satisfying p and those that do not, together exactly the bindings of m; p is called once per binding; no binding is altered.", "quantifier": "every reachable map, every predicate including effectful and raising ones", "why_tests_cant": "Arbitrary predicate and arbitrary tree shape; call counts over all maps.", "anchors": ["expression/collections/map.py: Map.filter, Map.partition", "expression/collections/maptree.py: filter, filter1, partition, partition1"]}
{"id": "C09", "title": "Map traversals visit in key order and stop early", "statement": "fold and iterate call the callback once per binding in ascending key order, fold_back in descending order; exists, for_all and try_pick go in ascending order and stop at the first deciding binding, so later bindings are never passed to the callback; an exception in the callback stops the traversal there.", "quantifier": "every reachable map, every callback with arbitrary effects", "why_tests_cant": "Order, count and early stop of arbitrary effectful callbacks over arbitrary trees.", "anchors": ["expression/collections/map.py: Map.fold, Map.fold_back, Map.iterate, Map.exists, Map.for_all, Map.try_pick", "expression/collections/maptree.py: fold, fold_back, iter, exists, forall, try_pick"]}
{"id": "C10", "title": "Map equality means equal bindings", "statement": "m1 == m2 holds exactly when both maps bind the same keys to equal values; in particular == is symmetric.", "quantifier": "every pair of reachable maps", "why_tests_cant": "Two maps with the same bindings may be shaped differently by different histories; all pairs cannot be tried.", "anchors": ["expression/collections/map.py: Map.__eq__"]}
{"id": "C11", "title": "Equal Maps have equal hashes", "statement": "m1 == m2 implies hash(m1) == hash(m2); maps with equal bindings hash equally whatever histories built them.", "quantifier": "every pair of reachable maps", "why_tests_cant": "Ranges over all pairs of histories.", "anchors": ["expression/collections/map.py: Map.__hash__, Map.__eq__"]}
{"id": "C12", "title": "Building a Map from a sequence: last binding wins", "statement": "of_seq, of_block and of_list of any sequence of pairs give the map in which each key is bound to the value of its last occurrence; rebuilding a map from its own to_list/to_seq output gives the same bindings.", "quantifier": "every finite sequence of key/value pairs", "why_tests_cant": "Ranges over all sequences with duplicates in any position.", "anchors": ["expression/collections/map.py: Map.of_seq, Map.of_block, Map.of_list, of_seq, of_block, create", "expression/collections/maptree.py: of_seq, of_list, mk_from_iterator"]}
{"id": "C13", "title": "Map.pick and try_pick return the first chosen result in key order", "statement": "try_pick(f) returns f's first Some result in ascending key order and Nothing when there is none; pick(f) returns the same result and raises KeyError when there is none.", "quantifier": "every reachable map and chooser", "why_tests_cant": "Needs all maps and all choosers.", "anchors": ["expression/collections/map.py: Map.try_pick, pick", "expression/collections/maptree.py: try_pick"]}
{"id": "C14", "title": "Map.map preserves keys and shape", "statement": "m.map(f) binds every key k of m to f(k, v), nothing else; f is called once per binding in ascending key order; mapping the identity gives equal bindings and mapping twice equals mapping the composition; and lookups in the result take the same path (same keys at the same positions) as in m.", "quantifier": "every reachable map, every function", "why_tests_cant": "All maps and functions.", "anchors": ["expression/collections/map.py: Map.map", "expression/collections/maptree.py: map"]}
{"id": "C15", "title": "Block.take and Block.skip split a block", "statement": "For every integer n, xs.take(n) followed by xs.skip(n) is xs; for n >= 0 take(n) is the first min(n, len) elements and skip(n) the rest.", "quantifier": "every block and integer, negative and oversized included", "why_tests_cant": "All lengths and all integers.", "anchors": ["expression/collections/block.py: Block.take, Block.skip, take, skip"]}
{"id": "C16", "title": "Block.take_last and Block.skip_last count from the end", "statement": "For every n >= 0, xs.take_last(n) is the last min(n, len) elements, xs.skip_last(n) all the others, and skip_last(n) followed by take_last(n) is xs.", "quantifier": "every block and every non-negative integer", "why_tests_cant": "All lengths and counts; the boundary n = 0 is where slices with negated bounds change meaning.", "anchors": ["expression/collections/block.py: Block.take_last, Block.skip_last, take_last, skip_last"]}
{"id": "C17", "title": "Block.sort and Block.sort_with are stable sorts", "statement": "The result is a permutation of the block, ordered by the key (descending when reverse=True), and elements with equal keys keep their original relative order.", "quantifier": "every block, every key function into a total preorder, both values of reverse", "why_tests_cant": "Permutation and stability range over all blocks.", "anchors": ["expression/collections/block.py: Block.sort, Block.sort_with, sort, sort_with"]}
{"id": "C18", "title": "Block element-wise operations are the list operations", "statement": "map, filter, choose, collect, partition, mapi, indexed, zip, append, concat, cons, reduce, fold, forall, of_seq and friends process elements left to right, calling the callback once per element, and keep relative order; filter and the first half of partition agree; append is associative with the empty block as unit.", "quantifier": "every block, every callback including effectful and raising ones; callbacks raise no StopIteration, for which see C134", "why_tests_cant": "All blocks and arbitrary effectful callbacks.", "anchors": ["expression/collections/block.py: Block.map, Block.filter, Block.choose, Block.collect, Block.partition, Block.mapi, Block.append, Block.fold, Block.reduce, concat"]}
{"id": "C19", "title": "Block.indexed honours its start index", "statement": "xs.indexed(start) pairs the i-th element with start + i, for every start.", "quantifier": "every block and start index", "why_tests_cant": "All blocks and all starts.", "anchors": ["expression/collections/block.py: Block.indexed, indexed"]}
{"id": "C20", "title": "Block collect is a monadic bind", "statement": "collect satisfies left identity, right identity and associativity with singleton as unit; map and choose are its special cases.", "quantifier": "every block; the identity laws and special cases for all callbacks, associativity for callbacks without side effects (with side effects the two sides call in different orders); callbacks raise no StopIteration, for which see C134", "why_tests_cant": "Algebraic laws over all functions.", "anchors": ["expression/collections/block.py: Block.collect, Block.map, Block.choose, singleton"]}
{"id": "C21", "title": "Block.unfold generates until the generator stops", "statement": "unfold(g, s) yields the elements g produces from s in order and stops exactly when g first returns Nothing; it diverges exactly if g never does.", "quantifier": "every generator function and seed; callbacks raise no StopIteration, for which see C134", "why_tests_cant": "Arbitrary generators; divergence cannot be tested.", "anchors": ["expression/collections/block.py: Block.unfold, unfold"]}
{"id": "C22", "title": "Seq pipelines are lazy and pull no more than needed", "statement": "take(n) on any sequence, finite or infinite, pulls exactly min(n, len) elements from its source; the functions map, choose, filter, scan, skip, zip, pairwise and collect of the seq module pull one source element at a time, apply the callback right after it, and never run ahead of the consumer.", "quantifier": "every source (finite, infinite, effectful, raising), every consumer demand; callbacks raise no StopIteration, for which see C134", "why_tests_cant": "Infinite sources and every possible demand prefix.", "anchors": ["expression/collections/seq.py: take, map, filter, choose, scan, skip, collect, SeqGen"]}
{"id": "C23", "title": "Seq searching stops at the first hit", "statement": "head, try_find_index and try_pick return the result for the first matching element and never evaluate anything after it, so they terminate on infinite sequences that contain a match.", "quantifier": "every source and predicate", "why_tests_cant": "Infinite and effectful sources.", "anchors": ["expression/collections/seq.py: head, try_find_index, try_pick"]}
{"id": "C24", "title": "Sequences can be iterated again", "statement": "Iterating the result of a seq combinator applied to a re-iterable source a second time gives the same elements as the first time.", "quantifier": "every combinator, every re-iterable source", "why_tests_cant": "All compositions of combinators.", "anchors": ["expression/collections/seq.py: SeqGen.__iter__, map, filter, scan, zip, unfold, collect, take, skip"]}
{"id": "C25", "title": "Seq.scan and folds agree", "statement": "scan(f, s) yields s and then each intermediate fold state, so its last element is fold(f, s) and its length is one more than the source's; fold_back(f, s) is fold of the flipped function over the reversed sequence.", "quantifier": "every finite sequence, folder and state; callbacks raise no StopIteration, for which see C134", "why_tests_cant": "All sequences and folders.", "anchors": ["expression/collections/seq.py: scan, fold, fold_back"]}
{"id": "C26", "title": "Option bind/map obey the monad and functor laws", "statement": "Some is a left and right unit of bind, bind is associative, map preserves identity and composition, Nothing absorbs; callbacks run exactly when the option is Some.", "quantifier": "all options and all callbacks including effectful and raising ones", "why_tests_cant": "Laws over all functions.", "anchors": ["expression/core/option.py: Option.bind, Option.map, Option.filter, Option.map2, Option.apply, Option.starmap"]}
{"id": "C27", "title": "Result bind/map obey the monad laws and keep the first error", "statement": "Ok is a left and right unit of bind, bind is associative, an Error passes through bind/map/filter unchanged without running the callback; map2 and apply report the first error in their documented order; swap is an involution; map_error touches only errors.", "quantifier": "all results and callbacks", "why_tests_cant": "Laws over all functions.", "anchors": ["expression/core/result.py: Result.bind, Result.map, Result.map2, Result.map_error, Result.apply, Result.swap, Result.filter, Result.filter_with, Result.or_else"]}
{"id": "C28", "title": "Option and Result conversions round-trip", "statement": "Option -> Result -> Option is the identity; Result -> Option -> Result is the identity on Ok; of_optional/to_optional round-trip on every non-None value and Some(None) is the only option lost by to_optional.", "quantifier": "all values", "why_tests_cant": "All values including None payloads.", "anchors": ["expression/core/option.py: of_optional, to_optional, to_result, of_result", "expression/core/result.py: Result.to_option, Result.of_option, of_option_with"]}
{"id": "C29", "title": "Defaults and alternatives are lazy", "statement": "default_with, or_else_with, to_result_with, of_option_with call their fallback exactly once when the value is missing and never otherwise; default_value/or_else return the payload whenever there is one.", "quantifier": "all options/results, every effectful fallback", "why_tests_cant": "Absence of a call over all inputs.", "anchors": ["expression/core/option.py: Option.default_with, Option.or_else_with, to_result_with", "expression/core/result.py: Result.default_with, Result.or_else_with, of_option_with"]}
{"id": "C30", "title": "Tagged unions hold exactly one case", "statement": "Constructing a tagged union succeeds exactly when one declared case is given (and an explicit tag, if any, is None or matches); the tag then names that case, its value is readable and reading any other declared case raises AttributeError; every other construction raises TypeError.", "quantifier": "every declaration (whose cases are not named self, tag, _index or __dataclass_fields__, which the implementation uses itself), every keyword combination", "why_tests_cant": "All keyword combinations.", "anchors": ["expression/core/tagged_union.py: tagged_union, __init__"]}
{"id": "C31", "title": "Tagged-union equality, hash and order are coherent", "statement": "Equality is an equivalence, equal values have equal hashes, and < is a strict order: by case declaration order first, then by payload; exactly one of a<b, a==b, b<a holds when payloads are totally ordered.", "quantifier": "all values of all tagged unions whose payload order is total", "why_tests_cant": "Laws over all triples.", "anchors": ["expression/core/tagged_union.py: __eq__, __hash__, __lt__"]}
{"id": "C32", "title": "Tagged unions survive copy and pickle", "statement": "Copying, deep-copying or pickling and unpickling a tagged union value gives a value equal to the original with the same tag.", "quantifier": "all values", "why_tests_cant": "All values.", "anchors": ["expression/core/tagged_union.py: __copy__, __deepcopy__, __getstate__, __setstate__"]}
{"id": "C33", "title": "effect.option computes the monadic block", "statement": "A generator body under effect.option whose steps are 'x = yield from opt' and whose final statement returns v behaves as the nested bind of the options followed by Some(v): the first Nothing ends it with Nothing and nothing after it runs; other exceptions propagate.", "quantifier": "every terminating generator body", "why_tests_cant": "Bodies are arbitrary programs.", "anchors": ["expression/core/builder.py: Builder.__call__, Builder._send", "expression/effect/option.py: OptionBuilder", "expression/core/option.py: Option.__iter__"]}
{"id": "C34", "title": "effect.result computes the monadic block", "statement": "A generator body under effect.result behaves as nested binds ending in Ok(v): the first Error is the result and nothing after it runs; other exceptions propagate.", "quantifier": "every terminating generator body", "why_tests_cant": "Bodies are arbitrary programs.", "anchors": ["expression/core/builder.py: Builder.__call__, Builder._send", "expression/effect/result.py: ResultBuilder", "expression/core/result.py: Result.__iter__"]}
{"id": "C35", "title": "effect.seq collects every yielded value in order", "statement": "A generator body under effect.seq yields the sequence of all yielded values in order, followed by the returned value when it is not None; each yield expression evaluates to the value it yielded.", "quantifier": "every terminating generator body", "why_tests_cant": "Bodies are arbitrary programs.", "anchors": ["expression/core/builder.py: Builder.__call__", "expression/effect/seq.py: SeqBuilder"]}
{"id": "C36", "title": "effect.async_option and effect.async_result compute the monadic block", "statement": "An async body awaiting options/results: the first Nothing/Error awaited ends the computation with it; otherwise the result is the last yielded value wrapped; awaiting other things is transparent; other exceptions propagate.", "quantifier": "every terminating async body, generator or plain coroutine", "why_tests_cant": "Bodies are arbitrary programs with arbitrary suspension points.", "anchors": ["expression/core/async_builder.py: AsyncBuilder.__call__, AsyncBuilder._send", "expression/effect/async_option.py", "expression/effect/async_result.py"]}
{"id": "C37", "title": "Parsers never move backwards or change the input", "statement": "Running any parser built from the combinators leaves the text unchanged and returns a position not before the start position and not after the end of the text.", "quantifier": "every parser built from the combinators, every text and position", "why_tests_cant": "All parser compositions and texts.", "anchors": ["expression/extra/parser.py: Parser, pchar, and_then, or_else, many, sep_by, bind, sequence"]}
{"id": "C38", "title": "Integer parsing round-trips", "statement": "For every integer n and every text t not starting with a digit, parsing str(n) + t with pint gives n and leaves exactly t.", "quantifier": "every integer and every following text", "why_tests_cant": "Infinitely many integers and continuations.", "anchors": ["expression/extra/parser.py: pint, digit, many1, opt"]}
{"id": "C39", "title": "String parsing accepts exactly the given prefix", "statement": "pstring(s) succeeds at a position exactly when s occurs there; it then returns s and advances by len(s).", "quantifier": "every s and every text/position", "why_tests_cant": "All strings.", "anchors": ["expression/extra/parser.py: pstring, sequence, pchar"]}
{"id": "C40", "title": "Alternation is ordered choice with full backtracking", "statement": "p.or_else(q) returns p's result when p succeeds, otherwise exactly what q returns at the original position; choice(ps) is the first success in list order, and its error is the last alternative's.", "quantifier": "all parsers and inputs", "why_tests_cant": "All parsers.", "anchors": ["expression/extra/parser.py: or_else, choice, any_of"]}
{"id": "C41", "title": "Repetition is maximal munch and terminates", "statement": "many(p) collects results of p until p first fails and leaves the position before that failure; it never fails; it terminates on every text whenever p never succeeds without consuming.", "quantifier": "all parsers p and texts", "why_tests_cant": "Termination and maximality over all inputs.", "anchors": ["expression/extra/parser.py: parse_zero_or_more, many, many1"]}
{"id": "C42", "title": "Separated lists", "statement": "sep_by1(p, sep) accepts p (sep p)*; a trailing separator that is not followed by p is not consumed; sep_by accepts in addition the empty list without consuming anything.", "quantifier": "all parsers p, sep and texts", "why_tests_cant": "All parsers and texts.", "anchors": ["expression/extra/parser.py: sep_by1, sep_by, ignore_then, then_ignore"]}
{"id": "C43", "title": "traverse returns all results or the first error", "statement": "traverse(f, xs) is Ok of the block of all results when every f(x) is Ok, otherwise the Error of the first failing element in order; f is applied in order and not past the first error; sequence is traverse of identity.", "quantifier": "every block and every effectful f", "why_tests_cant": "All blocks, call orders and effects.", "anchors": ["expression/extra/result/traversable.py: traverse, sequence", "expression/collections/seq.py: fold_back"]}
{"id": "C44", "title": "Railway pipelines compose left to right and stop at the first failure", "statement": "pipeline(f1, ..., fn)(x) applies the functions in order to the successive payloads and returns the first Error/Nothing without calling later functions; with no functions it returns Ok(x)/Some(x).", "quantifier": "every list of functions, every input", "why_tests_cant": "All lists of functions.", "anchors": ["expression/extra/result/pipeline.py: pipeline", "expression/extra/option/pipeline.py: pipeline"]}
{"id": "C45", "title": "catch converts exactly the requested exceptions", "statement": "A function decorated with catch(exc) returns Error(e) when it raises an instance e of exc, Ok(v) when it returns a plain value, the result itself when it returns a Result, and lets every other exception propagate.", "quantifier": "every function and exception hierarchy", "why_tests_cant": "All functions and exceptions.", "anchors": ["expression/extra/result/catch.py: catch"]}
{"id": "C46", "title": "compose and pipe are left-to-right application", "statement": "compose of any number of functions applies them left to right, each once; compose() is the identity; composing concatenations equals composing compositions; pipe(x, *fs) = compose(*fs)(x); the first exception stops the chain.", "quantifier": "every list of functions", "why_tests_cant": "All lists of functions.", "anchors": ["expression/core/compose.py: compose, starcompose", "expression/core/pipe.py: pipe, starpipe, pipe2, pipe3"]}
{"id": "C47", "title": "curry and curry_flip preserve the call", "statement": "Calling a curried function in stages makes exactly the one underlying call with all arguments given, in order; curry_flip(n) puts the n late arguments in front; keyword arguments given at any stage reach the call.", "quantifier": "every arity, every split of the arguments", "why_tests_cant": "All arities and splits.", "anchors": ["expression/core/curry.py: curry, _curry, curry_flip"]}
{"id": "C48", "title": "tailrec computes the recursive function in constant stack", "statement": "A tail-recursive function decorated with tailrec returns what the ordinary recursion would return, for any recursion depth, and diverges exactly when that recursion never ends.", "quantifier": "every step function and every depth", "why_tests_cant": "Unbounded depth and divergence.", "anchors": ["expression/core/fn.py: tailrec, tailrec_async, TailCall"]}
{"id": "C49", "title": "A disposable runs its action at most once", "statement": "However many threads call dispose() in whatever interleaving, the action runs exactly once after the first dispose, and entering a disposed object raises.", "quantifier": "every number of threads and every interleaving", "why_tests_cant": "All interleavings.", "anchors": ["expression/system/disposable.py: AnonymousDisposable.dispose, AsyncAnonymousDisposable, AsyncCompositeDisposable"]}
{"id": "C50", "title": "Cancellation notifies every live listener exactly once", "statement": "Cancelling a source calls every listener that is registered and not disposed when cancel is called exactly once, in registration order, even if some raise an Exception or use the source themselves; later cancels call nothing; registering afterwards raises; the cancelled state never reverts.", "quantifier": "every history of register / dispose-registration / cancel operations", "why_tests_cant": "All histories.", "anchors": ["expression/system/cancellation.py: CancellationTokenSource.cancel, dispose, register_internal, CancellationToken.register"]}
{"id": "C51", "title": "A registration racing with cancellation is not lost", "statement": "When register and cancel run on different threads, either register raises or its listener is called by the cancel; no listener is ever called twice.", "quantifier": "every interleaving of register and cancel", "why_tests_cant": "Needs a particular interleaving between a flag test and an insertion.", "anchors": ["expression/system/cancellation.py: register_internal, dispose"]}
{"id": "C52", "title": "The mailbox delivers every message exactly once in posting order", "statement": "Whatever the interleaving of posts from other threads with the receiver on the event loop, messages are delivered to successive receives in the order they entered the queue, none lost, none duplicated.", "quantifier": "every schedule of posters, event loop callbacks and receives in which other threads post and only the event loop calls post_and_async_reply (for the others see C54), and no awaiter gives up (C65)", "why_tests_cant": "All schedules and unbounded message counts.", "anchors": ["expression/core/mailbox.py: MailboxProcessor.post, receive, __process_events"]}
{"id": "C53", "title": "A waiting receiver is always woken", "statement": "If the receiver waits and a message is queued, then a callback that will deliver it is already scheduled or a poster is about to schedule it; when everything scheduled has run, no receiver waits while a message is queued.", "quantifier": "every schedule in which other threads post and only the event loop calls post_and_async_reply (for the others see C54)", "why_tests_cant": "Lost wake-ups occur only under particular schedules.", "anchors": ["expression/core/mailbox.py: MailboxProcessor.post, receive, __process_events"]}
{"id": "C54", "title": "Mailbox delivery tolerates replies posted from other threads", "statement": "Delivery stays exactly-once when post_and_async_reply, which processes events on the calling thread, runs concurrently with the event loop.", "quantifier": "every interleaving of any number of processing threads with the event loop", "why_tests_cant": "Needs an exact interleaving around an unlocked test.", "anchors": ["expression/core/mailbox.py: MailboxProcessor.post_and_async_reply, __process_events"]}
{"id": "C55", "title": "A reply completes the asker", "statement": "The first reply sent on a reply channel completes the pending ask with that value, whatever the value, and whether it is sent before or after the asker starts to wait; later replies are ignored.", "quantifier": "every order of replies and waiting, every reply value", "why_tests_cant": "All orders and values.", "anchors": ["expression/core/mailbox.py: AsyncReplyChannel, MailboxProcessor.post_and_async_reply"]}
{"id": "C56", "title": "TypedArray stores exactly the elements it accepts", "statement": "Building a typed array of an integer type from any list succeeds exactly when every element fits the type's range, raising OverflowError otherwise, and then reads back the same elements in order; equality is element-wise.", "quantifier": "every list and every integer type code", "why_tests_cant": "All lists and boundary values.", "anchors": ["expression/collections/array.py: array_from_typecode, array_from_initializer, TypedArray.__eq__"]}
{"id": "C57", "title": "AsyncSeq operations are the list operations", "statement": "map, filter, choose, collect, fold, scan, take, skip, append, length of an async sequence give the same elements as the corresponding list operation on the elements of the source, in order.", "quantifier": "every async source and callback", "why_tests_cant": "All sources.", "anchors": ["expression/collections/asyncseq.py: AsyncSeq.choose, AsyncSeq.collect, AsyncSeq.filter, AsyncSeq.fold, AsyncSeq.fold_back, AsyncSeq.scan, AsyncSeq.take, AsyncSeq.skip, AsyncSeq.tail, AsyncSeq.length, map, append"]}
{"id": "C58", "title": "AsyncSeq.take pulls no more than it delivers", "statement": "take(n) requests at most n elements from its source.", "quantifier": "every source and n", "why_tests_cant": "All sources and demands.", "anchors": ["expression/collections/asyncseq.py: AsyncSeq.take"]}
{"id": "C59", "title": "The collect method of Seq is as lazy as seq.collect", "statement": "xs.collect(f) behaves as seq.collect(f)(xs): no consumer can tell them apart, on finite and infinite sequences.", "quantifier": "every source, callback and consumer; callbacks raise no StopIteration, for which see C134", "why_tests_cant": "Infinite sources and every consumer.", "anchors": ["expression/collections/seq.py: Seq.collect, Seq.concat, collect, concat"]}
{"id": "C60", "title": "Values of frozen tagged unions never change", "statement": "Assigning or deleting a declared field of a frozen union value raises TypeError, and no history of attribute assignments and deletions changes its tag or its payload.", "quantifier": "every frozen union, value and history of attribute operations", "why_tests_cant": "Every history.", "anchors": ["expression/core/tagged_union.py: tagged_union, __setattr__, __delattr__"]}
{"id": "C61", "title": "Parser combinators obey their laws", "statement": "preturn and bind form a monad and map, starmap, and_then, lift2 are their derived forms; or_else is associative with fail as left unit; sequence runs its parsers in order and fails where the first of them does; opt never fails and consumes nothing when its parser fails; between, ignore_then and then_ignore run their parsers left to right and keep the value they should.", "quantifier": "all parsers, functions and inputs", "why_tests_cant": "Laws over all parsers and functions, including effectful, raising and endless ones.", "anchors": ["expression/extra/parser.py: preturn, bind, map, and_then, or_else, sequence, opt, between, ignore_then, then_ignore, lift2, starmap"]}
{"id": "C62", "title": "Floating-point literals are read whole", "statement": "pfloat on -?d+(.d+)? not followed by further digits (or by a point and a digit) consumes exactly the literal, passes the unsigned text to float and negates the result when there is a minus sign; a point that no digit follows is not consumed.", "quantifier": "every literal and every surrounding text", "why_tests_cant": "All literals and continuations.", "anchors": ["expression/extra/parser.py: pfloat, many1, opt, ignore_then"]}
{"id": "C63", "title": "Repetition needs only bounded stack", "statement": "many(p) parses texts of any length with a fixed recursion limit.", "quantifier": "every text length and every recursion limit", "why_tests_cant": "No test can try all lengths.", "anchors": ["expression/extra/parser.py: parse_zero_or_more, many"]}
{"id": "C64", "title": "A composite disposable disposes every part", "statement": "Disposing an asynchronous composite disposes every part exactly once, in order, also when one of them raises.", "quantifier": "every list of parts and every behaviour of theirs", "why_tests_cant": "All lists and all points where a part may raise.", "anchors": ["expression/system/disposable.py: AsyncCompositeDisposable"]}
{"id": "C65", "title": "A receive that is given up costs no message", "statement": "When the awaiter of a receive is cancelled (a timeout, say), messages posted later are still delivered to the receives that follow; none is lost.", "quantifier": "every schedule of posts, receives, timeouts and callbacks", "why_tests_cant": "Every moment at which a timeout may strike.", "anchors": ["expression/core/mailbox.py: MailboxProcessor.receive, __process_events", "expression/core/aiotools.py: from_continuations"]}
{"id": "C66", "title": "A cancelled mailbox delivers nothing more", "statement": "Once the token is cancelled and the calls under way are over, no message is delivered any more, and a receive still waiting is cancelled when the next message is posted.", "quantifier": "every schedule, every moment of cancellation", "why_tests_cant": "Every moment at which the cancellation may strike.", "anchors": ["expression/core/mailbox.py: MailboxProcessor.__process_events, receive, post"]}
{"id": "C67", "title": "Editing a typed array is editing a list, and its elements stay in range", "statement": "insert, item assignment, item deletion, append, extend, pop and reverse change a typed array as they would change a list, with the same index errors; a value out of the type's range is refused and changes nothing; so after any history of edits every element is in the range of the type.", "quantifier": "every array, every sequence of edits and every index and value", "why_tests_cant": "Histories of any length.", "anchors": ["expression/collections/array.py: TypedArray.insert, __setitem__, __delitem__, __getitem__"]}
{"id": "C68", "title": "A typed array owns its storage", "statement": "Changing the list, bytes or array that a typed array was built from does not change the typed array, and editing the array does not change what it was built from.", "quantifier": "every initialiser and every later edit of it", "why_tests_cant": "All histories of edits on both sides.", "anchors": ["expression/collections/array.py: array_from_typecode, array_from_initializer, TypedArray.__init__"]}
{"id": "C69", "title": "Element-wise operations of typed arrays are the list operations", "statement": "map, collect, choose, filter, fold, forall, head, tail and sort_with of a typed array call the function on each element once, in order, and deliver the array of the results of the list operation; of_seq holds the elements given to it, and is_empty says whether there is none.", "quantifier": "every array and every function, including functions with effects or exceptions; callbacks raise no StopIteration, for which see C134", "why_tests_cant": "All arrays and functions.", "anchors": ["expression/collections/array.py: TypedArray.map, TypedArray.collect, TypedArray.choose, TypedArray.filter, TypedArray.fold, TypedArray.forall, TypedArray.head, TypedArray.tail, TypedArray.sort_with, TypedArray.of_seq, TypedArray.is_empty"]}
{"id": "C70", "title": "take, skip, take_last and skip_last of typed arrays", "statement": "take(n) keeps the first n elements (all when there are fewer), skip(n) drops them, take_last(n) and skip_last(n) do so from the end; in particular take_last(0) is empty and skip_last(0) is the whole array.", "quantifier": "every array and every n >= 0", "why_tests_cant": "All lengths and counts.", "anchors": ["expression/collections/array.py: TypedArray.take, TypedArray.skip, TypedArray.take_last, TypedArray.skip_last"]}
{"id": "C71", "title": "indexed pairs every element with its index", "statement": "indexed(start) pairs the elements with start, start+1, ... in order.", "quantifier": "every array and every start", "why_tests_cant": "All arrays and starts.", "anchors": ["expression/collections/array.py: TypedArray.indexed"]}
{"id": "C72", "title": "Selecting elements keeps the element type", "statement": "filter, take, skip, take_last, skip_last, tail and sort of an array of a given type give an array of that type, so that it keeps refusing values out of range.", "quantifier": "every array of every type", "why_tests_cant": "All arrays and types.", "anchors": ["expression/collections/array.py: TypedArray.filter, TypedArray.take, TypedArray.skip, TypedArray.take_last, TypedArray.skip_last, TypedArray.tail, TypedArray.sort"]}
{"id": "C73", "title": "Asynchronous sources deliver what was asked for", "statement": "repeat(v, n) delivers v n times, repeat(v) for ever; range delivers the elements of the builtin range (and raises its ValueError for step 0), empty nothing.", "quantifier": "every value, count, start, stop and step", "why_tests_cant": "All counts and bounds, infinite sequences.", "anchors": ["expression/collections/asyncseq.py: repeat, range, empty, AsyncSeq.range, AsyncSeq.empty"]}
{"id": "C74", "title": "An async sequence can be looped over again", "statement": "A second loop over an AsyncSeq sees the elements that the first one saw.", "quantifier": "every sequence and every consumer", "why_tests_cant": "All sequences and pipelines.", "anchors": ["expression/collections/asyncseq.py: AsyncSeq.__aiter__, AsyncSeq.map, AsyncSeq.range, repeat"]}
{"id": "C75", "title": "Block equality and membership are element-wise", "statement": "xs == ys holds exactly when both blocks have the same length and equal elements at every place; it is an equivalence when equality of the elements is; v in xs holds exactly when some element is v or equals it; equal blocks have the same members; append and cons add members and nothing else.", "quantifier": "every pair of blocks, every element type and equality", "why_tests_cant": "All blocks and all equalities of elements.", "anchors": ["expression/collections/block.py: Block.__eq__, Block.__contains__, Block.__len__, Block.append, Block.cons"]}
{"id": "C76", "title": "Block.range and the constructors hold what they were given", "statement": "Block.range(start, stop, step) holds start + i*step for exactly those i for which this is before stop (after it for a negative step) and raises ValueError for step 0; of_seq, of, singleton and of_option hold the elements given, in order; sum adds the elements to 0 from left to right.", "quantifier": "every start, stop and step; every list", "why_tests_cant": "All integers and lists.", "anchors": ["expression/collections/block.py: range, Block.range, of_seq, singleton, of_option, Block.sum"]}
{"id": "C77", "title": "Whole-sequence consumers and the small builders do what the plain loop does", "statement": "max and min of a sequence pull the whole source and return the first of the greatest (smallest) elements, raise ValueError if there is none, and raise or fail to end exactly when pulling the source does; max_by/min_by/sum_by call the projection once on each element right after pulling it and return the greatest (smallest, summed) projection; sum adds from the left starting at 0; length counts what list(source) holds with the same effects; iter and mapi call the function once per element in order, mapi with indexes 0, 1, 2...; append loops over the source and then over each other sequence, tail over all elements but the first, starmap/map2 over the unpacked results, range over exactly the numbers of the builtin (ValueError for step 0), singleton over one element.", "quantifier": "every source (finite, infinite, raising), every projection or action with effects and exceptions, every loop body over the result, all integers for range; callbacks raise no StopIteration, for which see C134", "why_tests_cant": "Tests consume short lists of numbers with pure functions; ties between equal greatest elements, raising sources, effect order and infinite inputs are not enumerable.", "anchors": ["expression/collections/seq.py: max, max_by, min, min_by, sum, sum_by, length, iter, mapi, append, tail, starmap, map2, range, singleton"]}
{"id": "C78", "title": "Printing a sequence is bounded", "statement": "The text of a sequence is its first 100 elements separated by '; ' in square brackets, followed by '; ...' exactly when there are more than 100. Printing pulls at most 101 elements from any sequence, so it ends also for an infinite one whose elements come and can be printed.", "quantifier": "every list of elements and every way of printing them; for the bound and termination every source, also infinite, raising or effectful ones", "why_tests_cant": "A test prints a few short sequences; the bound speaks of every source, including infinite ones.", "anchors": ["expression/collections/seq.py: Seq.__repr__, Seq.__str__"]}
{"id": "C79", "title": "dict() gives plain data", "statement": "dict() of a value built from Option, Result, Block, lists and dictionaries over plain data and over objects that dump to plain data, nested to any depth, contains only numbers, strings, None, lists and dictionaries; Some(v) dumps as v does, Nothing as None, Ok/Error as a dictionary with the tag and the case, a block as the list of the dumps.", "quantifier": "every value, to every nesting depth", "why_tests_cant": "Tests dump a handful of flat values; nesting depth is unbounded. (The code violates the property for lists and dictionaries inside.)", "anchors": ["expression/core/option.py: Option.dict", "expression/core/result.py: Result.dict", "expression/collections/block.py: Block.dict"]}
{"id": "C80", "title": "Validating a dump gives the value back", "statement": "For every annotation built from Option, Result and Block over types that round trip themselves, and every value of that annotation, validating the value's dict() as Python data returns an equal value.", "quantifier": "every annotation to every nesting depth and every value of it", "why_tests_cant": "Tests validate a few flat fields; annotations nest without bound. (The code violates it for Option[Option[...]]: Some(Nothing) comes back as Nothing.)", "anchors": ["expression/core/option.py: Option.dict, Option.__get_pydantic_core_schema__", "expression/core/result.py: Result.dict, Result.__get_pydantic_core_schema__", "expression/collections/block.py: Block.dict, Block.__get_pydantic_core_schema__"]}
{"id": "C81", "title": "Values survive a round trip through JSON", "statement": "For every annotation built from Option, Result and Block without Option[Option[...]], and every value of it, loading the JSON of its dump returns an equal value.", "quantifier": "every annotation to every nesting depth and every value of it", "why_tests_cant": "The only JSON round trips in the tests are flat options and blocks of numbers and strings. (The code violates it: no JSON can be loaded as a Result, and what is below an Option is left as raw data.)", "anchors": ["expression/core/option.py: Option.__get_pydantic_core_schema__", "expression/core/result.py: Result.__get_pydantic_core_schema__", "expression/collections/block.py: Block.__get_pydantic_core_schema__", "expression/core/tagged_union.py: tagged_union"]}
{"id": "C82", "title": "Validation only lets members of the annotation through", "statement": "Whatever validation of an annotation built from Option, Result and Block returns belongs to the annotation: the payloads too have the annotated types.", "quantifier": "every annotation, every input", "why_tests_cant": "Tests validate good data and a few bad ones. (The code violates it: instances are let through whatever they hold, and JSON below an Option is not checked at all.)", "anchors": ["expression/core/option.py: Option.__get_pydantic_core_schema__", "expression/core/result.py: Result.__get_pydantic_core_schema__", "expression/collections/block.py: Block.__get_pydantic_core_schema__"]}
{"id": "C83", "title": "The first continuation called decides the outcome", "statement": "However often and in whatever order the callback of from_continuations calls done, error and cancel - at once, later, or after the awaiter was cancelled - the first call alone decides what awaiting gives; the others have no effect and do not raise. If the callback itself raises, from_continuations raises that.", "quantifier": "every sequence of continuation calls, before and after the callback returned", "why_tests_cant": "Tests call one continuation once; the claim is about every sequence of calls.", "anchors": ["expression/core/aiotools.py: from_continuations"]}
{"id": "C84", "title": "Started tasks are kept alive until they end, then released", "statement": "At every moment a strong reference is kept to exactly those tasks started with start or start_immediate that have not ended, whatever the interleaving of starts, cancellations and event loop steps and however they end.", "quantifier": "every history of starts, cancellations and event loop steps, any number of tasks", "why_tests_cant": "Leaks and lost references show only in long histories with failing and cancelled tasks. (The code violates it: tasks that fail or are cancelled are kept for ever.)", "anchors": ["expression/core/aiotools.py: start, start_immediate"]}
{"id": "C85", "title": "A started computation runs once, by itself, and is cancelled only through its token", "statement": "In every history of starts, cancellations and event loop steps, the effects and outcome of each started computation are those it has on its own, in order, with CancelledError thrown in at most once: at its first step after the source of its token was cancelled, which for a computation that has not run yet means that it never runs. A computation started without a token is never cancelled, and cancelling sources other than that of its token has no influence on it. start and start_immediate return before any of it has run.", "quantifier": "every history, any number of computations and cancellation sources, every computation (effects, awaits, cleanup on cancellation)", "why_tests_cant": "Interleavings of several computations and cancellation at each possible await are unbounded.", "anchors": ["expression/core/aiotools.py: start, start_immediate"]}
{"id": "C86", "title": "start raises only without starting; start_immediate starts at once; run_synchronously returns the result", "statement": "If start raises, the computation never runs. start_immediate runs the computation up to its first await before it returns. run_synchronously returns (or raises) what the computation ends with.", "quantifier": "every history before the call, every computation", "why_tests_cant": "Tests start computations with fresh tokens only. (The code violates the first two: with a token that was cancelled already or with CancellationToken.none() start raises after scheduling the task, which then runs; and start_immediate only schedules.)", "anchors": ["expression/core/aiotools.py: start, start_immediate, run_synchronously", "expression/system/cancellation.py: CancellationTokenSource.register_internal"]}
{"id": "C87", "title": "A method written in the class body is used", "statement": "If the body of a class decorated with tagged_union defines __repr__, __eq__, __hash__, __lt__, __init__ or another special method, that method is what the values of the class use. An __init__ of the body runs, without arguments, after the case has been stored. A class that writes __eq__ and no __hash__ has unhashable values, unless it is declared frozen.", "quantifier": "every class body, every combination of the decorator's switches, every chain of bases", "why_tests_cant": "Tests look at a few classes; the rule concerns every combination of written methods and switches. (The code violates it: the decorator overwrites written methods, among them Option.__repr__, Option.__eq__ and Result.__repr__ of the package itself, so repr(Some(1)) is 'Option(some=1)'.)", "anchors": ["expression/core/tagged_union.py: tagged_union", "expression/core/option.py: Option.__repr__, Option.__eq__", "expression/core/result.py: Result.__repr__"]}
{"id": "C88", "title": "A tagged union can be extended by a subclass", "statement": "A decorated subclass of a tagged union can be called with any of its own and inherited cases. A subclass that is not decorated accepts exactly the calls its base accepts and holds the same case and payload; in particular Success(v) holds what Ok(v) holds and Failure(e) what Error(e) holds. Inherited cases keep the place in the order that they have in the base.", "quantifier": "every union, every subclass, all keyword arguments", "why_tests_cant": "The set of class hierarchies and calls is unbounded. (The code violates the first sentence: no call of a decorated subclass without an __init__ of its own ever succeeds, since the generated constructor calls that of the base without arguments.)", "anchors": ["expression/core/tagged_union.py: tagged_union", "expression/core/try_.py: Try, Success, Failure"]}
{"id": "C89", "title": "Values of subclasses compare, hash and copy like values of the union", "statement": "Values of a union and of its plain subclasses (such as Result and Try) are equal exactly when they are in the same case with equal payloads, whichever side they stand on; equal ones hash alike when the union is frozen; repr names the union, the case and the payload; a copy is of the class of the original, in the same case with the same payload.", "quantifier": "every union, any plain subclasses of it, all payloads", "why_tests_cant": "Which operand Python asks first depends on the classes, and payloads are arbitrary. (The code violates the last clause: copy and deepcopy of a Try give a Result.)", "anchors": ["expression/core/tagged_union.py: tagged_union", "expression/core/try_.py: Try"]}
{"id": "C90", "title": "The text of a block or map shows its elements in order and tells different collections apart", "statement": "str(block) is the texts of the elements in order, separated by a comma and a blank, in brackets; str(map) is its bindings in key order and never raises. If the texts of the elements tell the elements apart, the texts of two different blocks (or maps) differ.", "quantifier": "every block, every map made through the API, every way of printing elements", "why_tests_cant": "Two collections printing alike is a question about all pairs of collections. (The code violates the last sentence: Block.of('a, b') and Block.of('a', 'b') print alike. It holds if no element's text is empty or contains a separator, so for integers.)", "anchors": ["expression/collections/block.py: Block.__str__, Block.__repr__", "expression/collections/map.py: Map.__str__, Map.__repr__"]}
{"id": "C91", "title": "dataclasses.asdict shows the active case only", "statement": "dataclasses.asdict of a tagged union value is a dictionary with exactly the tag (if declared) and the active case with its payload, never another case; calling the class with that dictionary makes a value with the same tag and payload.", "quantifier": "every union class with distinct ordinary field names, every value of it, every conversion of payloads", "why_tests_cant": "a test looks at one union and one value; that no case other than the active one ever shows, whatever the order of declaration and whatever the payload, is a statement about all of them", "anchors": ["expression/core/tagged_union.py: tagged_union (__init__, lines 102-104)"]}
{"id": "C92", "title": "Sums, unfold and the text of typed arrays", "statement": "sum adds the elements to 0 from left to right, so for integers it is the mathematical sum whatever the element type; sum_by is the sum of what the function gives for the elements; unfold makes the array of what the generator function produces, raises what it raises, and ends exactly when it stops; str shows the texts of the elements in order.", "quantifier": "every array, every function and generator function, including ones with effects or exceptions; callbacks raise no StopIteration, for which see C134", "why_tests_cant": "All arrays, functions and lengths of the generated sequence. (The code violates the clause on sum_by: it first makes a typed array of the results, so sum_by(int8) raises OverflowError when a value does not fit.)", "anchors": ["expression/collections/array.py: TypedArray.sum, TypedArray.sum_by, TypedArray.unfold, TypedArray.__str__"]}
{"id": "C93", "title": "The operations of the effect builders obey the monad laws", "statement": "For the option, result, seq, async option and async result builders: bind(return_(x), f) is f(x); bind(m, return_) is m; binding is associative; bind on Nothing, an Error or an empty sequence gives it back without calling the function; combine gives the second value unless the first is Nothing or an Error, and concatenates sequences; return_from changes nothing.", "quantifier": "every builder, every value of its class, every function, including ones with effects or exceptions", "why_tests_cant": "The laws range over all values and functions. (For sequences associativity fails when the first function has effects: the calls come in a different order.)", "anchors": ["expression/effect/option.py: OptionBuilder", "expression/effect/result.py: ResultBuilder", "expression/effect/seq.py: SeqBuilder", "expression/effect/async_option.py: AsyncOptionBuilder", "expression/effect/async_result.py: AsyncResultBuilder"]}
{"id": "C94", "title": "Slices of blocks and typed arrays select what the documentation of Python says", "statement": "block[i:j:k] and array[i:j:k] consist of the items with index i + n*k before j, in that order, with omitted, negative and too large bounds treated as documented; del array[i:j:k] removes exactly these items and keeps the others in order; a step of 0 raises ValueError. block[:n] followed by block[n:] is the block, block[::-1] is its reverse, and slices without a step agree with take and skip.", "quantifier": "every block and array, all bounds and steps, including negative, huge and omitted ones", "why_tests_cant": "All combinations of length, bounds and steps.", "anchors": ["expression/collections/block.py: Block.__getitem__", "expression/collections/array.py: TypedArray.__getitem__, TypedArray.__delitem__"]}
{"id": "C95", "title": "Building a map from a sequence works for sequences of every length", "statement": "Map.of_seq, map.of_seq, Map.of and map.create build the map of the pairs, the last pair of a key winning, however many pairs there are. (False of the code: the elements are added by a function that calls itself once per pair, so a sequence longer than the interpreter's stack raises RecursionError. Proved: a sequence with fewer pairs than free frames gives the map that of_list gives; with as many or more, RecursionError is raised. of_list and of_block use a loop.)", "quantifier": "every sequence of pairs of every length and every stack depth", "why_tests_cant": "a test of ten pairs passes; the error needs about a thousand, and the limit depends on the interpreter and on how deep the caller is", "anchors": ["expression/collections/maptree.py:mk_from_iterator", "expression/collections/maptree.py:of_seq", "expression/collections/map.py:of_seq", "expression/collections/map.py:of", "expression/collections/map.py:create"]}
{"id": "C96", "title": "The parser of a string can be made for strings of every length", "statement": "parser.pstring(s) and parser.sequence(ps) give a parser however long the string or the block of parsers is. (False of the code: sequence calls itself once per parser, so a string longer than the interpreter's stack raises RecursionError when the parser is made. Proved: with more free frames than characters the parser of C61 is made; otherwise RecursionError is raised.)", "quantifier": "every string, every block of parsers and every stack depth", "why_tests_cant": "a test makes parsers of short words; the limit shows only for long ones and depends on the caller's depth", "anchors": ["expression/extra/parser.py:sequence", "expression/extra/parser.py:pstring"]}
{"id": "C97", "title": "A with block disposes its object exactly once, however it is left", "statement": "'with d: body' on a Disposable made from an action (and 'async with' on an asynchronous one) runs the action exactly once by the time the block is left, whether the body returns, raises, disposes the object itself or nests another block on it; the body's exception goes on unless the action raises; entering an object already disposed raises ObjectDisposedException and runs neither body nor action. An asynchronous composite can always be entered and disposes its parts in order.", "quantifier": "every body built from arbitrary code, dispose calls, nested with blocks and exception handlers, every action and every state of the world", "why_tests_cant": "a test leaves the block in a few ways; nested blocks on one object, exceptions of body and action together and handlers inside give unboundedly many paths", "anchors": ["expression/system/disposable.py:Disposable.__enter__", "expression/system/disposable.py:Disposable.__exit__", "expression/system/disposable.py:AnonymousDisposable.dispose", "expression/system/disposable.py:AnonymousDisposable.__enter__", "expression/system/disposable.py:AsyncDisposable.__aexit__", "expression/system/disposable.py:AsyncAnonymousDisposable.__aenter__", "expression/system/disposable.py:AsyncCompositeDisposable"]}
{"id": "C98", "title": "Casts give the object itself exactly if it is an instance", "statement": "try_downcast(type, x) gives x itself if x is an instance of the type and None otherwise; downcast(type, x) gives x itself or raises AssertionError. (False of the code: try_downcast of a union such as int | str gives None for every value. Proved for classes and parameterised generics; downcast for classes and unions, while a parameterised generic raises TypeError; under python -O downcast checks nothing.)", "quantifier": "every class hierarchy, every type expression made of classes, parameterised generics and unions, and every object", "why_tests_cant": "a test tries a few classes; hierarchies and type expressions are unbounded", "anchors": ["expression/core/typing.py:upcast", "expression/core/typing.py:downcast", "expression/core/typing.py:try_downcast"]}
{"id": "C99", "title": "The text of an option, a result or a union value tells the case and the text of its payload", "statement": "str of an option is 'Nothing' or 'Some ' and the text of the value, str of a result 'Ok ' or 'Error ' and the text of the value or error, repr of a tagged union value the class, the case and the repr of the payload; two of one kind print alike exactly if they are of the same case and the texts of their payloads are alike, whatever those texts are.", "quantifier": "every option, result, union class with ordinary field names, every value made by calling the class, and every text of payloads", "why_tests_cant": "that no payload text can make one case look like another is a statement about all texts", "anchors": ["expression/core/option.py:Option.__str__", "expression/core/result.py:Result.__str__", "expression/core/tagged_union.py:tagged_union (__repr__)"]}
{"id": "C100", "title": "An agent handles all messages, in the order they were sent, one at a time", "statement": "MailboxProcessor.start(body), with a body that receives and handles messages in a loop, while any number of threads post and code on the event loop asks: at every moment the body has handled the first so many of the messages sent, in the order in which they entered the queue, each exactly once, and its state is the fold of its handler over exactly these. No receive of the body ever raises. If nobody cancels, then when nothing goes on any more all messages sent have been handled; and the number of steps the system makes by itself is bounded by a multiple of the number of messages sent, so that it gets there under every scheduler.", "quantifier": "every body (state, handler, replies), every schedule of any number of posting threads, the event loop's callbacks and the body's task, one attribute access, queue or lock operation at a time", "why_tests_cant": "the interleavings of posters, callbacks and the body's task are unboundedly many; a lost wake-up or a second receive would show only in rare ones", "anchors": ["expression/core/mailbox.py:MailboxProcessor.start", "expression/core/mailbox.py:MailboxProcessor.post", "expression/core/mailbox.py:MailboxProcessor.post_and_async_reply", "expression/core/mailbox.py:MailboxProcessor.receive", "expression/core/aiotools.py:start_immediate"]}
{"id": "C101", "title": "Whoever asks an agent gets the reply to its own message, computed from the messages before it", "statement": "post_and_async_reply on an agent completes with the first reply other than None that the body sends when it handles that message, which it computes from the state after exactly the messages sent before it; it does not complete before the message is handled; and if nobody cancels, everybody who asked has the answer when nothing goes on any more.", "quantifier": "every body, every schedule of posting threads and the event loop, every message that was asked", "why_tests_cant": "which messages come before an ask depends on the interleaving of the threads; tests see a few orders", "anchors": ["expression/core/mailbox.py:MailboxProcessor.post_and_async_reply", "expression/core/mailbox.py:AsyncReplyChannel.reply", "expression/core/mailbox.py:MailboxProcessor.start"]}
{"id": "C102", "title": "Cancelling the token ends the agent and the waiting of those who asked it", "statement": "After the token source of an agent is cancelled, no further message is handled, the state of the body stays, the body's task ends as cancelled, and the awaitables of all who asked end too. (False of the code: an asker whose message was not handled before waits for ever, and one who asks later too. Proved: everything else, and that nobody gets an answer after that.)", "quantifier": "every body, every schedule before and after the cancellation", "why_tests_cant": "a test cancels at one point of one schedule; that nothing is handled afterwards and that the task ends must hold for every point", "anchors": ["expression/core/mailbox.py:MailboxProcessor.start", "expression/core/aiotools.py:start_immediate", "expression/system/cancellation.py:CancellationTokenSource.cancel"]}
{"id": "C103", "title": "A map keeps its other entries whatever its keys' comparisons do", "statement": "However the `<` and `==` of the keys behave (inconsistently, differently each time, with effects, raising, like NaN): `add` puts in one entry or replaces one whose key said it is equal, `remove` takes out at most one such entry, `change` alters at most one entry as its callback said, and all other entries stay as they are and in their order; what a lookup finds is in the map under a key that said it is equal; `filter`, `partition` and the constructors give only entries they were given. No operation raises anything but what the comparisons and callbacks raise (besides KeyError of `m[k]` and EffectError of `change`), and an operation that returns has called nothing that raised. Maps made by insertion stay balanced, and a lookup or update makes at most two comparisons per level.", "quantifier": "every comparison code with arbitrary effects and exceptions, every map made by any history of operations, every key, value, callback and world", "why_tests_cant": "tests use keys with a proper order; what broken or raising comparisons can do to the tree, and how many are made, ranges over all code and all histories", "anchors": ["expression/collections/maptree.py:add", "expression/collections/maptree.py:remove", "expression/collections/maptree.py:change", "expression/collections/maptree.py:try_find", "expression/collections/maptree.py:mem", "expression/collections/maptree.py:filter", "expression/collections/maptree.py:partition", "expression/collections/map.py:Map"]}
{"id": "C104", "title": "Map operations need only a logarithmic stack", "statement": "An operation on a map needs no more free stack frames than the tree has levels, plus a small constant and what the comparisons and callbacks themselves need; with so many it does exactly what it would do on an unbounded stack. For a map built by insertions that is at most 2*log2(len+1) plus a constant (twice that for filter and partition), so that RecursionError does not occur. (Building from a sequence is the exception, see C95; its stack is exactly one frame per pair more.)", "quantifier": "every map, every key, value and callback, every comparison code, every number of free frames", "why_tests_cant": "the depth of recursion depends on the shape of the tree, hence on the whole history of a map; a test sees some sizes and one recursion limit", "anchors": ["expression/collections/maptree.py:add", "expression/collections/maptree.py:remove", "expression/collections/maptree.py:splice_out_successor", "expression/collections/maptree.py:size_aux", "expression/collections/maptree.py:fold", "expression/collections/maptree.py:to_list", "expression/collections/maptree.py:collapseLHS", "expression/collections/map.py:Map"]}
{"id": "C105", "title": "Assigning to a slice of a typed array replaces exactly that slice", "statement": "For arrays a and b of the same type, a[i:j] = b (or b[:]) replaces the items of the slice by those of b and keeps all others in order; a[i:j:k] = b overwrites the items one by one, and raises ValueError and changes nothing if the numbers differ or k is 0; reading the slice back gives what was assigned; assigning a slice of an array to itself changes nothing; after any history of edits every element is in the range of the type. (False of the code: arrays of numbers refuse a TypedArray with TypeError, and even a slice of an array with the same type code if that was inferred for one of them; assigning an empty slice with a step deletes.)", "quantifier": "every array and storage, every slice with all bounds and steps, every value assigned, every history of edits", "why_tests_cant": "All combinations of lengths, bounds, steps, storages and values; histories of edits of any length.", "anchors": ["expression/collections/array.py: TypedArray.__setitem__, TypedArray.__getitem__, TypedArray.__delitem__"]}
{"id": "C106", "title": "Running a parser never silently gives a wrong answer on a bounded stack, and how much stack it needs", "statement": "However a parser is made by the combinators (`and_then`, `or_else`, `map`, `starmap`, `apply`, `sequence`, `pstring`, `many`, `many1`, `sep_by1`, `opt`, `between`, `bind`, ...), running it on a stack with any number of free frames does what it does on an unbounded stack or raises RecursionError. A choice of k + 1 parsers works with 2 k frames more than its parts, `any_of` of k + 1 characters with exactly 2 k; a string of `pstring` needs ten frames and four per character found before the last; `many` one frame per repetition. The full property, that one stack is enough for every `any_of`, `pstring` and `many`, is false: with fewer than 2 k free frames `any_of` raises RecursionError whatever the text is, `pstring` of a long string raises on the string itself, and `many` on a long text.", "quantifier": "every parser made by the combinators, every number of free frames, every text and position, every number of alternatives, characters and repetitions", "why_tests_cant": "The stack a test runs on is a single number; that the answer is never wrong on a smaller one, and the exact dependence on the number of alternatives or characters, concern all of them.", "anchors": ["expression/extra/parser.py:Parser.run", "expression/extra/parser.py:choice", "expression/extra/parser.py:any_of", "expression/extra/parser.py:sequence", "expression/extra/parser.py:pstring", "expression/extra/parser.py:parse_zero_or_more"]}
{"id": "C107", "title": "Pattern matching on union values takes the branch of the value's case", "statement": "For a value of a tagged union in the case n with payload v: the patterns D(tag=\"m\"), D(m=p) and D(tag=\"m\", m=p) match exactly if m is n (and p matches v) and bind what p binds; so a match statement with one branch per case runs the branch of the value's own case with its payload, also for values of subclasses. A constant as sub-pattern matches exactly if the payload equals it; a pattern that has the tag both by position and by name raises TypeError. Patterns by position work the same way.", "quantifier": "every ordinary union class, every case and payload, every sub-pattern, every list of branches, values of the class and of plain subclasses", "why_tests_cant": "whether a pattern matches depends on which attributes are present and on __match_args__; a test tries a few classes and cases, usually the first case, which is the only one for which positional patterns work", "anchors": ["expression/core/tagged_union.py: tagged_union (__match_args__)", "expression/core/option.py: match statements", "expression/core/result.py: match statements", "expression/collections/maptree.py: match statements"]}
{"id": "C108", "title": "Pattern matching on collections", "statement": "Block(p) matches a block exactly if p matches the tuple of its items; Block([x1, ..., xn]) matches exactly the blocks of n items and Block([h, *t]) exactly the non-empty ones; typed arrays are matched by sequence patterns. A pattern C(x) matches what the constructor of C returns, for Block, Seq, TypedArray and Map.", "quantifier": "every collection of any length, all lists of names before and after the star", "why_tests_cant": "patterns depend on __match_args__ and on the abstract base classes, which no type checker checks; tests use a few literals", "anchors": ["expression/collections/block.py: Block.__match_args__", "expression/collections/seq.py: Seq.__match_args__", "expression/collections/array.py: TypedArray.__match_args__", "expression/collections/map.py: Map"]}
{"id": "C109", "title": "A map is a mapping like a dict", "statement": "get never raises and gives the value or the default; keys(), values() and items() show all bindings in the order of the keys, with the length of the map; (k, v) in items() says whether k is bound to v; dict(m) has the same bindings; the pattern {k1: x1, ..., **rest} matches exactly the maps that have these keys and binds their values and the other bindings. items() needs keys that can be hashed, and raises otherwise; get, keys() and values() do not.", "quantifier": "every map reached by any history of operations, every key and default, every list of keys in a pattern, every hash function, with collisions", "why_tests_cant": "the views look every key up again or go through a hash table, so their agreement with the tree is a statement about all histories and all hash functions", "anchors": ["expression/collections/map.py: Map.items, Map.__getitem__, Map.__iter__, Map.__len__, Map.__contains__"]}
{"id": "C110", "title": "An agent with any body receives the messages in the order of sending, and none is skipped", "statement": "Whatever coroutine is given to MailboxProcessor.start (it may await other things, receive with a timeout, catch exceptions and go on, return or raise): what its receives return are the messages sent to it, in the order in which they entered the queue, none of them twice and none skipped; when nothing goes on any more and the body still waits for a message, it has received all.", "quantifier": "every body (any function from its state and the outcome of its last await to its next turn), every number of posting threads and askers, every interleaving of their atomic actions with callbacks, resumptions, timeouts and cancellation", "why_tests_cant": "the body is arbitrary code and the interleavings are unbounded; a test runs one body under the schedules that happen to occur", "anchors": ["expression/core/mailbox.py: MailboxProcessor.start, MailboxProcessor.post, MailboxProcessor.receive, MailboxProcessor.post_and_async_reply", "expression/core/aiotools.py: from_continuations, start_immediate"]}
{"id": "C111", "title": "Who asks gets the first reply that is not None, whoever replies and whenever", "statement": "Somebody who awaits post_and_async_reply gets exactly the first reply that is not None among the calls of reply of that channel, by the body in any of its turns or by anybody it gave the channel to, however late; exactly one answer, which no later reply changes; as long as there is none they wait. Who only posted a message gets nothing.", "quantifier": "every body, every history of sends, replies, timeouts and cancellation, every interleaving, every channel", "why_tests_cant": "replies may come late, repeatedly and from several places; the order of these is unbounded", "anchors": ["expression/core/mailbox.py: AsyncReplyChannel.reply, MailboxProcessor.post_and_async_reply", "expression/core/aiotools.py: from_continuations"]}
{"id": "C112", "title": "An agent whose body has ended is silent, and nobody is told", "statement": "When the body given to MailboxProcessor.start has returned or raised, nothing starts it again: it receives no message any more and replies to nobody. post and post_and_async_reply are accepted as before; the messages stay in the queue, in order, and askers wait unless somebody else replies.", "quantifier": "every body, every history before the end, every schedule after it", "why_tests_cant": "it is about everything that can follow, for ever", "anchors": ["expression/core/mailbox.py: MailboxProcessor.start, MailboxProcessor.post, MailboxProcessor.post_and_async_reply", "expression/core/aiotools.py: start_immediate"]}
{"id": "C113", "title": "A cancelled agent gets no message, also if its body catches the exception", "statement": "When the source of the token given to MailboxProcessor.start is cancelled, a body that has not begun never begins; one that waits, for a message or for something else, is resumed with CancelledError next, whatever happens in between. If it catches that and goes on, it receives no message any more: every further receive raises CancelledError, TimeoutError or 'Receive can only be called once!', none waits for ever.", "quantifier": "every body, every history before cancelling and every schedule after it", "why_tests_cant": "cancelling races with messages on their way, with timeouts and with callbacks, in unboundedly many ways, and the body may react in any way", "anchors": ["expression/core/mailbox.py: MailboxProcessor.start, MailboxProcessor.receive, MailboxProcessor.__process_events", "expression/core/aiotools.py: start_immediate, from_continuations", "expression/system/cancellation.py: CancellationTokenSource.cancel, CancellationToken.is_cancellation_requested"]}
{"id": "C114", "title": "Several iterations of one sequence at the same time do not disturb each other", "statement": "However any number of iterations of one sequence are interleaved, each gets the elements of the sequence in order from the first, and raises what it would raise by itself, as if the other iterations were not there.", "quantifier": "every sequence built from lists, init_infinite and delay by map, choose, collect, concat, skip, take, pairwise and their compositions, with functions whose results do not depend on mutable state (they may have effects); every number of iterations and every order of asking them; callbacks raise no StopIteration, for which see C134", "why_tests_cant": "Nested loops over one sequence, or zip(xs, xs), interleave iterations in unboundedly many ways; tests iterate once or twice in a row. (The code violates it for filter, scan, zip and unfold: their iterations share one, and each element goes to only one of them.)", "anchors": ["expression/collections/seq.py: SeqGen, map, choose, collect, concat, skip, take, pairwise, delay, init_infinite, filter, scan, zip, unfold"]}
{"id": "C115", "title": "Overlapping disposals of composites run every action once and leave nothing out", "statement": "Whatever asynchronous composites (nested, with parts in common) are disposed by however many tasks at the same time, with actions that fail and tasks that are cancelled: each part's action is begun at most once; when dispose_async returns, the action of every part has returned; when it fails, the parts before the failing one are disposed and disposing again goes on behind it, so that no more calls fail than parts do.", "quantifier": "every set of composites, every action (awaits, failures, cleanup on cancellation), every interleaving of calls, cancellations and event loop steps", "why_tests_cant": "Overlapping disposals, cancellation at every await and retries are unbounded. (The code violates the middle part: a disposal that overlaps another returns while actions are still running in the other.)", "anchors": ["expression/system/disposable.py: AsyncAnonymousDisposable.dispose_async, AsyncCompositeDisposable.dispose_async, AsyncDisposable.composite, AsyncDisposable.create"]}
{"id": "C116", "title": "A parser answers", "statement": "Running a parser returns Ok or Error on every text: it raises nothing and ends. (False of the code twice: under Python's limit on the digits of integers, 4300 by default, pint raises ValueError on a longer literal instead of returning Error; and many of a parser that succeeds without consuming never returns. Proved: every parser made by the combinators out of functions that return, with only consuming parsers repeated and with pint on texts within the limit, answers from every position; those that the combinators make consuming move forward on every success; a literal within the limit is read as without one, and a longer one raises ValueError.)", "quantifier": "every parser made by the combinators, every text and position, every limit on integer digits, every user function that returns", "why_tests_cant": "Totality is a statement about all texts and all compositions; the failing literal has more than 4300 digits.", "anchors": ["expression/extra/parser.py: Parser.__call__, Parser.run, many, many1, sep_by, sep_by1, pint, pfloat, bind, map, sequence, choice"]}
{"id": "C117", "title": "Agents that send to each other: each gets its messages in the order of sending, and an answer is that of the question", "statement": "In any number of MailboxProcessors whose bodies post to and ask each other: what a body sends arrives, last, at the agent it is sent to and at no other; if one agent sends x and afterwards the same or another agent (say one that the first has told) sends y to the same receiver, y is never received before x, nor without x unless a cancellation or a timeout intervenes; asking gives the future of just the question it sends, and a reply reaches just the question it answers; a body is past a call only when the call is made; an agent waiting for the answer to a question goes on with the first reply other than None to just that question, and with nothing else unless cancelled; and when nothing goes on any more, without cancellation and timeouts, every agent has ended, waits for an answer that nobody has given, or has received everything sent to it.", "quantifier": "every number of agents, every body (deciding by what it has received), every mixture with posts, questions, replies and cancellations from other threads, every schedule", "why_tests_cant": "Orders between several agents on one event loop and any number of threads are unbounded, and so are the conversations; tests use one agent with one asker.", "anchors": ["expression/core/mailbox.py: MailboxProcessor.post, MailboxProcessor.post_and_async_reply, MailboxProcessor.receive, MailboxProcessor.start, AsyncReplyChannel.reply", "expression/core/aiotools.py: from_continuations, start_immediate"]}
{"id": "C118", "title": "Agents that ask each other answer all questions", "statement": "MailboxProcessors whose bodies ask each other, and each of which answers, or hands on the reply channel of, every question before it receives the next message, have answered every question by the time nothing goes on any more. (False of the code: two agents that ask each other, or one that asks itself, wait for ever, since a body that awaits an answer receives nothing and post_and_async_reply has no timeout; likewise an agent whose question is handed back to it. Proved: it holds if agents can be ranked so that each waits only for answers of lower ones and hands channels on only to agents that are not above it; and agents waiting for each other in a circle wait for ever, whatever happens, unless they are cancelled or somebody else answers.)", "quantifier": "every number of agents, every body that sees to its questions in the sense above, every schedule without cancellation and timeouts", "why_tests_cant": "Deadlock depends on the whole network and on the schedule; a test that does not hang on one schedule says nothing about others.", "anchors": ["expression/core/mailbox.py: MailboxProcessor.post_and_async_reply, MailboxProcessor.receive, AsyncReplyChannel.reply", "expression/core/aiotools.py: from_continuations"]}
{"id": "C119", "title": "Cancelling a source cancels everything linked to it, and nothing else", "statement": "If cancel of a source, or dispose of a disposable, is registered as a callback with a parent source (or is the action of a disposable), then it is cancelled (disposed) when a cancel of the parent has returned. (False of the code: a second cancel of the parent, by another thread or from a listener, returns at once while the first is still calling its listeners. Proved: it holds once every cancel of the parent that began has returned; when all calls are over it holds along chains of links of any length, also through disposables and in circles; what no thread cancels itself, and no callback of anything else cancels, is not cancelled and its callbacks are not called, so cancelling a child leaves its parents alone; and each source and disposable goes through exactly what it goes through without the others.)", "quantifier": "every number of sources, disposables and threads, every way of linking them (chains, trees, circles), every interleaving of registering, unregistering, cancelling, disposing and entering, also from within callbacks", "why_tests_cant": "Links make the state of one object depend on the schedule of all others; there are unboundedly many ways to link and to interleave.", "anchors": ["expression/system/cancellation.py: CancellationTokenSource.cancel, CancellationTokenSource.dispose, CancellationTokenSource.register_internal, CancellationTokenSource.is_cancellation_requested, CancellationToken.register", "expression/system/disposable.py: AnonymousDisposable.dispose, Disposable.create"]}
{"id": "C120", "title": "Linked sources and disposables: no deadlock, and every call returns", "statement": "However sources and disposables call each other's cancel and dispose as callbacks, also in circles, and however threads interleave: no deadlock, whoever is in a call can go on or somebody in a call of the same object can; all calls together take at most fourteen steps for each call that user code makes, and eight for each disposable, so they all return if the functions of users do.", "quantifier": "every number of sources, disposables and threads, every way of linking them, every interleaving", "why_tests_cant": "Circular notification loops and lock cycles between objects show only for particular links and schedules; tests try a few.", "anchors": ["expression/system/cancellation.py: CancellationTokenSource.cancel, CancellationTokenSource.dispose, CancellationTokenSource.register_internal, CancellationToken.register", "expression/system/disposable.py: AnonymousDisposable.dispose, AnonymousDisposable.__enter__"]}
{"id": "C121", "title": "The parser of a grammar reads the grammar, also a recursive one", "statement": "Write a grammar with the combinators (preturn, fail, pchar, pstring, and_then, then_ignore, ignore_then, or_else, opt, many, many1, sep_by1, sep_by, between, map), using rules inside rules (also themselves) through bind. Then the parser of every expression of it does what the parsing expression grammar says: it succeeds exactly if the expression matches, with the tree of the grammar and after the characters of the grammar; fails exactly if the expression does not match; raises nothing; has no effects; and runs for ever exactly where the grammar gives no meaning. So nested lists written with brackets are read back, however deep they are.", "quantifier": "every grammar (any number of rules, recursive in any way), expression, text and position", "why_tests_cant": "A test reads some texts with some grammar; the claim is about every grammar that can be written with the combinators, with unbounded recursion, and every text.", "anchors": ["expression/extra/parser.py: Parser, pchar, and_then, or_else, map, starmap, preturn, fail, pstring, many, many1, sep_by1, sep_by, opt, then_ignore, ignore_then, between, bind"]}
{"id": "C122", "title": "A grammar answers unless a rule starts with itself", "statement": "If no rule of a grammar starts, directly or through other rules, with itself, and only expressions that consume something are repeated, the parser answers on every text: Ok or Error. If rules start with each other in a circle, a parser that starts with one of them never answers, on any text.", "quantifier": "every grammar, expression, text and position", "why_tests_cant": "Whether a recursive parser ends on all texts cannot be settled by running it on some.", "anchors": ["expression/extra/parser.py: Parser, bind, many, many1, sep_by, sep_by1, or_else, and_then"]}
{"id": "C123", "title": "On a bounded stack the parser of a grammar gives the grammar's answer or raises RecursionError", "statement": "With any number of free stack frames the parser of any grammar ends, and either gives the answer of the grammar or raises RecursionError; it has no effects. For every text there is a number of frames with which, and with any more, it gives the answer. For a grammar with finitely many rules that starts no rule with itself and repeats only what consumes, that number grows with the length of the text and no faster: there is a constant so that this many frames for every character still to be read, and once more, are enough. More slowly it does not grow in general: for every number of frames there is a nested list written with brackets, of two characters for every frame and two more, on which the parser raises RecursionError. A left-recursive grammar raises RecursionError on every text.", "quantifier": "every grammar, expression, text, position and number of free frames", "why_tests_cant": "The depth at which a test runs is one of infinitely many, and the answer must not silently change where the stack gets scarce.", "anchors": ["expression/extra/parser.py: Parser.run, parse_zero_or_more, bind, and_then, or_else, many, many1, sequence, pstring"]}
{"id": "C124", "title": "with and try statements in an effect block work as in a plain function, and clean-up is never left out", "statement": "In the body of effect.option, effect.result, effect.seq and of the asynchronous builders, `x = yield v` is `x = v`, and `x = yield from m` (`await m`) is the value of m or raises EffectError(m) there, inside the try and with statements around it. So whichever way the block is left - end, return, Nothing, Error, an exception of the body or of a clean-up - the managers that were entered have been exited exactly once each, innermost first, before the call returns or raises.", "quantifier": "every body (any nesting of try and with statements, loops, effects, exceptions), all builders, every world", "why_tests_cant": "The ways of leaving a block, at every nesting of with statements and at every suspension, are infinitely many.", "anchors": ["expression/core/builder.py: Builder.__call__, Builder._send", "expression/core/async_builder.py: AsyncBuilder.__call__, AsyncBuilder._send", "expression/core/option.py: Option.__iter__, Option.__await__", "expression/core/result.py: Result.__iter__, Result.__await__", "expression/core/error.py: EffectError", "expression/system/disposable.py: Disposable.__exit__, AsyncDisposable.__aexit__"]}
{"id": "C125", "title": "Nothing or an Error always ends the effect block", "statement": "When the body of a builder binds Nothing or an Error, no further statement of the body runs, apart from clean-up, and the call gives that Nothing or Error.", "quantifier": "every body with try and with statements, effect.option, effect.result, effect.async_option, effect.async_result", "why_tests_cant": "It depends on how all exception handlers that can surround a statement treat the exception that carries the short circuit.", "anchors": ["expression/core/error.py: EffectError", "expression/core/builder.py: Builder._send", "expression/core/async_builder.py: AsyncBuilder._send", "expression/core/option.py: Option.__iter__", "expression/core/result.py: Result.__iter__"]}
{"id": "C126", "title": "Data that does not fit the annotation is rejected with a ValidationError", "statement": "Validating data against an annotation built from Option, Result and Block accepts exactly the data that can be read as such a value (instances as they are, None as Nothing, {'ok': ...} and {'error': ...} as results, sequences as blocks) and returns that value; everything else is rejected with ValueError (pydantic reports it as ValidationError), never with another exception.", "quantifier": "every annotation built from Option, Result and Block over other types that behave so, every input", "why_tests_cant": "Both the annotations and the data nest without bound, and unions of schemas let some exceptions through.", "anchors": ["expression/core/option.py: Option.__get_pydantic_core_schema__", "expression/core/result.py: Result.__get_pydantic_core_schema__, validate_ok, validate_error", "expression/collections/block.py: Block.__get_pydantic_core_schema__"]}
{"id": "C127", "title": "Map operations cost what a balanced tree promises: logarithmic lookups and updates, linear traversals and iteration", "statement": "Count the calls of the library's tree functions together with what key comparisons and callbacks add to the count (at most c for a comparison, at most d for a callback). add, remove, change, try_find, contains_key and m[k] add at most (2c+1) per level of the tree and a constant (and d for the callback of change), whether they return or raise; for a map built without deletions of single keys a tree of fewer than 2^n entries has at most 2n levels. len, to_list, iterate, map, exists, forall, fold, fold_back, try_pick add at most d + 2 per entry and a constant. A for loop over the map adds at most d + 4 per entry and a constant in all, although a single step of the iterator may take as many calls as the tree is deep. filter, partition, of_list and of_seq cost one logarithmic insertion per entry. Keys may compare inconsistently or raise: the bounds hold all the same.", "quantifier": "all maps, keys, values, comparisons (any behaviour), callbacks, worlds, numbers of rounds of the loop; all c and d", "why_tests_cant": "Tests can time single sizes; that no input and no order of insertion makes an operation linear (or an iteration quadratic) is a statement about all trees, and amortised bounds do not show in single steps.", "anchors": ["expression/collections/maptree.py: add, try_find, find, mem, remove, change, splice_out_successor, size, iter, try_pick, exists, forall, map, fold, fold_back, to_list, of_list, of_seq, filter, partition, collapseLHS, mk_iterator, iter_next", "expression/collections/map.py: Map"]}
{"id": "C128", "title": "Parsing takes polynomial time", "statement": "A parser written with the combinators runs the parsers it is made of a number of times that is polynomial in the length of the text. This holds for parsers made without recursion: if such a parser ends on a text, it took at most its own size times (length left + 1) to the power of how deep its repetitions (many, many1, sep_by, sep_by1) are inside each other; so it is linear if repetitions are not nested, and with two nested ones it may indeed be quadratic. It fails for recursive grammars: sum = term '+' sum | term with term = '(' sum ')' | '1' answers on every text, but takes at least 2^d runs to accept the number 1 in d pairs of brackets, since or_else forgets what its first alternative has read. It is linear for every grammar with finitely many rules in which no rule starts with itself and the next character decides wherever there is a choice (LL(1)), also on texts that are refused; writing the sums as sep_by1(term, '+') makes them such a grammar.", "quantifier": "every expression over the combinators, every text and position; every nesting depth", "why_tests_cant": "Running time in the worst case is a statement about all texts; the texts in tests are short, on which exponential and linear parsers cannot be told apart.", "anchors": ["expression/extra/parser.py:or_else", "expression/extra/parser.py:and_then", "expression/extra/parser.py:many", "expression/extra/parser.py:many1", "expression/extra/parser.py:sep_by", "expression/extra/parser.py:parse_zero_or_more", "expression/extra/parser.py:pstring", "expression/extra/parser.py:bind"]}
{"id": "C129", "title": "Maps are persistent: an update leaves every map as it was, shares all but a few nodes with the old one, and needs no lock", "statement": "However add, remove, change, map, filter, partition and lookups end, no node that existed before has changed, so every map that a program holds has the contents it had, also while other threads (or callbacks) update maps between any two steps. The results are those of the tree functions whatever the others do. Adding, removing or changing makes at most three nodes per level of the map (plus one, plus those of the callback): all other nodes of the new map are nodes of the old one; for maps built by insertion this is logarithmic in the number of pairs. A program that keeps all maps it has made, and updates any of them at any time, finds each as it was made, and the memory is bounded by the number of updates times that.", "quantifier": "all maps, keys, values, callbacks, histories of updates; all nodes that other threads make between any two steps of ours", "why_tests_cant": "Whether some update, in some shape of tree, writes to a node that another map shares is a statement about all shapes, all histories and all interleavings; a test sees one.", "anchors": ["expression/collections/maptree.py: MapTreeLeaf, MapTreeNode, mk, rebalance, add, remove, change, splice_out_successor, map, filter, partition, try_find"]}
{"id": "C130", "title": "A loop over a map goes through the pairs the map had, whatever is done to maps meanwhile", "statement": "for ... in m (or m.to_seq()) calls its body with exactly the pairs that m had when the loop began, in order, until the body breaks, raises or hangs. The body and other threads may update m or other maps in any way: there is no 'changed size during iteration', and the loop itself never raises.", "quantifier": "all maps, loop bodies (any effects that make maps, break, exceptions, endless computations), all nodes that others make between any two steps", "why_tests_cant": "Bodies and interleavings are unbounded; a test tries a few updates at a few positions.", "anchors": ["expression/collections/maptree.py: MkIterator.__init__, MkIterator.__next__, collapseLHS, mk_iterator, to_seq", "expression/collections/map.py: Map.__iter__, Map.to_seq"]}
{"id": "C131", "title": "Piping into a module's function is calling the method", "statement": "For every function of the modules block, map, option, result and array that stands for a method, and for every value x, arguments and callbacks: pipe(x, f(args)) does what x.f(args) does, with the same value, exception and effects, whether arguments are given by position, by keyword or left to their defaults; a function of one parameter is the method itself; the methods of Seq are the functions of the seq module. Calls with arguments that do not fit raise TypeError and call no method. (The code does this except: map.fold_back takes the state last, so a map piped into it is taken for the state; option.or_else, to_result, to_result_with, default_arg and result.of_option, of_option_with take everything at once, the object first, and raise TypeError when piped into; map2 of option and result is curried twice, once for each of its objects; array.indexed ignores its argument; pipe(xs, seq.zip(ys)) pairs the other way round than xs.zip(ys).)", "quantifier": "every function in the modules that delegates to a method, every object and every behaviour of its methods, every way of giving the arguments", "why_tests_cant": "A test checks one call style with one set of values; whether piping and method calls agree for all arguments, keywords and callbacks, including arguments of the same type that could be swapped, is a statement about all calls.", "anchors": ["expression/collections/block.py: append, choose, collect, filter, fold, forall, item, map, mapi, partition, skip, skip_last, sort, sort_with, take, take_last, zip", "expression/collections/map.py: add, change, contains_key, find, iterate, try_pick, exists, filter, for_all, map, fold, fold_back, partition, remove, try_find", "expression/core/option.py: bind, default_value, default_with, map, map2, apply, or_else, to_result, default_arg", "expression/core/result.py: default_value, default_with, map, map2, map_error, bind, filter, filter_with, or_else, or_else_with, of_option", "expression/collections/array.py: map, filter, fold, indexed, item, take, take_last", "expression/collections/seq.py: Seq, zip", "expression/core/curry.py: curry_flip"]}
{"id": "C132", "title": "A map made from a source that computes its elements, fails, or never ends", "statement": "`Map.of_seq` and `Map.create` accept any iterable. They do what the loop `for x, y in src: m = m.add(x, y)` does: each element is asked for once, in order, and taken apart before the next is asked for; the result is the map of the pairs given before the source is exhausted; an exception of the source or of taking an element apart comes out unchanged with nothing done after it.  (The code satisfies this on a stack with more free frames than there are pairs; otherwise, and for every endless source, RecursionError comes out after exactly as many elements as there are frames. A StopIteration raised while an element is taken apart ends the map silently instead of coming out.)", "quantifier": "every iterable: any effects, exceptions or non-termination of its iterator and of unpacking its elements, finite or endless; every size of the stack; every key type whose comparison is an order", "why_tests_cant": "Sources with effects that fail at an arbitrary point, or that never end, are not enumerable; a test fixes one source and one recursion limit", "anchors": ["expression/collections/map.py: Map.of_seq, Map.create, of_seq, create", "expression/collections/maptree.py: of_seq, mk_from_iterator"]}
{"id": "C133", "title": "Typed arrays that change while they are gone through", "statement": "A method of a typed array that takes a callback gives every element that the array had at the call to the callback exactly once, in order, even when the callback changes the array; and `a.extend(b)` appends the elements that `b` had at the call.  (The code does not: `fold`, `map`, `filter`, `collect` and `forall` read the element at the next position when they need it, so a callback that deletes skips elements, and one that appends is called for what it appended - without end if it always appends. Callbacks that leave alone what is ahead see exactly the elements that were there. `sort_with` copies first and is not affected. `extend` appends what `b` had, also with `b` the same object, but never ends if the two share one non-empty `bytearray`.)", "quantifier": "every array and type code, every callback: any effects on this and other arrays, exceptions and non-termination", "why_tests_cant": "What a callback may do to the array between two elements is unbounded; a test fixes one callback and cannot observe non-termination", "anchors": ["expression/collections/array.py: TypedArray.map, TypedArray.filter, TypedArray.fold, TypedArray.forall, TypedArray.collect, TypedArray.sort_with, TypedArray.extend, TypedArray.__iter__, TypedArray.insert, TypedArray.__delitem__"]}
{"id": "C134", "title": "Callbacks that raise StopIteration", "statement": "An exception that a callback raises comes out of the collection function that called it, whatever the exception is, and nothing is done after it.  (The code does this for every exception except StopIteration. A StopIteration of the callback of `map`, `mapi`, `filter`, `collect`, `choose` of a block or of `map`, `filter` of a typed array, and of `seq.filter`, `seq.scan`, `seq.mapi`, `seq.init_infinite`, is taken for the end of the collection: the results so far are returned without any error and the rest is dropped. From `seq.map`, `seq.choose`, `seq.collect`, `seq.unfold`, `seq.sum_by`, `seq.max_by`, `forall` and the like, RuntimeError comes out instead of it. From `seq.iter` and `Block.partition` it comes out unchanged.)", "quantifier": "every block, array and sequence source, every callback (any effects, exceptions, non-termination), every position at which it raises, every consumer of a sequence", "why_tests_cant": "A test has to think of this exception, and then fixes one function, one position and one consumer; the claim is about all callbacks, positions and consumers", "anchors": ["expression/collections/block.py: Block.map, Block.mapi, Block.filter, Block.collect, Block.choose, Block.forall, Block.partition, Block.unfold", "expression/collections/array.py: TypedArray.map, TypedArray.filter, TypedArray.collect, TypedArray.forall", "expression/collections/seq.py: map, mapi, filter, choose, collect, scan, unfold, init_infinite, sum_by, max_by, iter"]}
{"id": "C135", "title": "A typed array is a sequence like a list", "statement": "`x in a`, `a.count(x)`, `a.index(x, start, stop)`, `reversed(a)`, `a.clear()` and `a += b` do to a typed array what they do to the list of its elements, also when `==` of the elements is arbitrary code; a loop over `reversed(a)` is the loop over `reversed` of a list.  (The code does this except for one case: if the body of a loop over `reversed(a)` makes the array shorter than the current position, IndexError is raised where the loop over a list ends.)", "quantifier": "every array and type code, every equality (any effects that leave alone the elements ahead, exceptions, non-termination), all bounds, every loop body", "why_tests_cant": "All bounds and all equalities with effects, and all bodies that change the array between two elements, are not enumerable", "anchors": ["expression/collections/array.py: TypedArray (inherited from MutableSequence: __contains__, count, index, __reversed__, clear, __iadd__), TypedArray.__iter__, TypedArray.__getitem__, TypedArray.__len__, TypedArray.__delitem__"]}
{"id": "C136", "title": "Several tasks that go through one asynchronous sequence: every result goes to exactly one of them, and a cancelled wait ends it for all", "statement": "A sequence made by map, filter, choose, take, skip or tail of AsyncSeq may be asked for its next element by any number of tasks. In whatever order they ask, the source delivers, and tasks are cancelled: the results handed out, put together in order, are those that one loop over the delivered elements gives (nothing is lost, duplicated or reordered), every request comes to exactly one outcome or is the one being worked on, and an exception of the source or of a callback reaches a task that was waiting. A request made while another one is being worked on raises RuntimeError and does no other harm. Once the source has ended or raised, a callback has raised, or a waiting task has been cancelled (a timeout, say), everybody who asks later is told, silently, that the sequence has ended, and the source is not asked again: so the wish that cancelling one consumer costs the others nothing is false. As long as none of this happens the sequence stays alive.", "quantifier": "all bodies of the generators, all finite histories of requests by any number of tasks, deliveries, failures, the end of the source and cancellations", "why_tests_cant": "The histories are interleavings of any number of tasks with the source; a test runs one schedule, and the damage of a cancellation shows in another task, later, as a sequence that is merely short.", "anchors": ["expression/collections/asyncseq.py: AsyncSeq.map, filter, choose, take, skip, tail; map, filter, choose (generators)"]}
{"id": "C137", "title": "An option without a value is the object Nothing, unless it was copied or read", "statement": "The documentation says that Nothing is a singleton and can be tested for with `is`. Every option without a value that comes out of Some, Nothing, of_optional, of_obj, of_result, to_option, map, map2, apply, starmap, bind, or_else, or_else_with, filter, the searches of sequences, blocks, arrays and maps, the optional parser, an effect block, or validation from Python data is the object Nothing, whatever the order and nesting of the calls, provided that the callbacks and arguments are such options too. Calls of Option.Nothing(), copy, deepcopy, pickle and validation from JSON, however, make other objects without a value, for which `x is Nothing` is false; they pass unchanged through or_else, or_else_with, bind's callback and an await in an asynchronous effect block. x == Nothing and x.is_none() are right for every option.", "quantifier": "all programs made of these operations, of any length and nesting, for all callbacks and values", "why_tests_cant": "The claim is about every way an option may have come about; a test looks at the object one call returns, and the wrong answer arises only where an object went through a copy or through JSON somewhere before.", "anchors": ["expression/core/option.py: Option, Nothing, of_optional, of_obj, of_result, __get_pydantic_core_schema__", "expression/core/tagged_union.py: __copy__, __deepcopy__, __setstate__", "expression/collections/seq.py: try_pick, try_find_index", "expression/collections/maptree.py: try_pick, try_find"]}
{"id": "C138", "title": "An effect block returns a value of its own kind", "statement": "A function decorated with effect.option should return an Option, one with effect.result or effect.try_ a Result, one with effect.seq a sequence, the asynchronous ones likewise, or raise. What the code guarantees for every body: the call returns a value of that kind or the very value some EffectError raised in the body carried. So it is of the right kind if the body binds only values of the right kind and calls nothing that raises EffectError by itself. Otherwise it is not: Map.pick, Map.change and a loop over an option raise EffectError(Nothing) where there is no value, and in a body with a yield this makes a block of results, or of a sequence that has not yielded anything yet, return Nothing; a block of a sequence that has yielded something raises EffectError. In a body without yield the same EffectError is an ordinary exception.", "quantifier": "all bodies (any generator, with any effects, raising anything, or running for ever), for the five builders", "why_tests_cant": "The body is an arbitrary program and the wrong kind of value appears only on the path on which something deep in a call raises EffectError; a test checks the paths it thinks of.", "anchors": ["expression/core/builder.py: Builder.__call__, _send", "expression/core/async_builder.py: AsyncBuilder.__call__, _send", "expression/effect/option.py, result.py, seq.py, async_option.py, async_result.py", "expression/core/option.py: Option.__iter__", "expression/collections/map.py: pick"]}
{"id": "C139", "title": "Iterating over a sequence on a bounded stack gives its elements or raises RecursionError, and how much stack it needs", "statement": "However a sequence is made by seq (of, map, collect, concat and append, filter, scan, zip, unfold, skip, take, delay, pairwise, init_infinite), a loop over it on a stack with any number of free frames does what it does on an unbounded stack, or raises RecursionError. map, collect, concat, skip and take need two frames more than what they are made from, Seq(xs), unfold and delay one, filter, scan and zip none, and their callbacks are called with as many frames fewer; pairwise needs two more while its iterator is made and init_infinite needs one. A function under effect.seq that yields n values returns n - 1 nested concatenations: listing it works with 2 n - 1 free frames and raises RecursionError with fewer, before the first value. So the property one would like, that some stack is enough for every effect.seq block (the values of a block can be listed however many it yields), is false.", "quantifier": "all sequences made by these functions from any sources and callbacks (with effects, exceptions and non-termination), every number of free frames, every loop body; all bodies under effect.seq that end, with any number of yields", "why_tests_cant": "The depth is unbounded and depends on how the sequence was built; tests yield a handful of values, and the failure appears only with some hundreds.", "anchors": ["expression/collections/seq.py: SeqGen, Seq.__iter__, map, collect, concat, append, filter, scan, zip, unfold, skip, take", "expression/effect/seq.py: SeqBuilder.bind, SeqBuilder.combine", "expression/core/builder.py: Builder.__call__"]}
{"id": "C140", "title": "Listing the values of an effect.seq block takes linear time", "statement": "Listing what a function under effect.seq returns takes time proportional to the number n of values. (False of the code: the n - 1 nested concatenations pass every value through all the generators around it; generators are resumed exactly n*n + 3*n - 2 times.)", "quantifier": "all bodies under effect.seq that end, with any number of yields, every stack on which the values can be listed", "why_tests_cant": "Time as a function of the number of yields is a statement about all numbers; a test measures a few.", "anchors": ["expression/effect/seq.py: SeqBuilder.combine", "expression/collections/seq.py: concat, SeqGen", "expression/core/builder.py: Builder.__call__"]}
{"id": "C141", "title": "Composition, effect blocks, traversal and pipelines need a constant stack", "statement": "compose and pipe of any number of functions, effect blocks with any number of yields, traverse of any number of elements and pipelines of any number of functions need a number of free stack frames that depends only on what a single function needs; and when there are too few for compose or a pipeline, RecursionError is raised before any of the functions is called. (The first part is false of the code for pipelines: a pipeline of n functions needs n + 1 frames and those of making an Ok or Some, so one of a thousand functions cannot be called, although every function needs none.)", "quantifier": "all lists of functions, all bodies of effect blocks, all blocks, every number of free frames, functions with effects that raise or do not return", "why_tests_cant": "Tests compose a few functions; that the number of frames does not grow with them is a statement about all lengths.", "anchors": ["expression/core/compose.py: compose", "expression/core/pipe.py: pipe, PipeMixin.pipe", "expression/core/builder.py: Builder.__call__, Builder._send", "expression/extra/result/pipeline.py: pipeline", "expression/extra/option/pipeline.py: pipeline", "expression/extra/result/traversable.py: traverse"]}
{"id": "C142", "title": "Putting a block together takes linear time", "statement": "Prepending elements one after the other, concatenating blocks with block.concat, traverse and sequence of results, and repeating a parser with many copy a number of elements that is linear in the sizes of what they are given and return. (False of the code: every step copies the whole block so far. Prepending n elements copies n*(n+1)/2, also inside many; block.concat of n blocks of one element and traverse of n elements copy n*(n+1)/2 - 1. It is at most quadratic.)", "quantifier": "all lists of blocks, all blocks and functions to results, all parsers and inputs on which they are repeated any number of times", "why_tests_cant": "Time as a function of the size is a statement about all sizes; a test measures a few.", "anchors": ["expression/collections/block.py: Block.cons, Block.append, Block.__add__, concat", "expression/extra/result/traversable.py: traverse, sequence", "expression/extra/parser.py: parse_zero_or_more, many"]}
{"id": "C143", "title": "The text of a parser tells how it was made", "statement": "Two parsers with the same text (str or repr, as shown in a log or a debugger) were made by the same calls, up to the functions given to map and bind. (False of the code: many1(p) has the text of many(p), though one fails where the other succeeds, and the text of a value given to preturn is not quoted. The texts of and_then, or_else and bind lack the closing bracket; that does no harm: up to many1, and when the texts of values and messages can be told from what is around them, parsers with the same text were made by the same calls, and no text is the beginning of another.)", "quantifier": "all pairs of parsers made by any nesting of the library's functions from any arguments", "why_tests_cant": "That no two constructions share a text is a statement about all pairs; tests do not look at the texts.", "anchors": ["expression/extra/parser.py: Parser.__init__, Parser.__repr__, Parser.__str__, pchar, and_then, or_else, map, preturn, fail, many, many1, bind"]}
{"id": "C144", "title": "Making parsers takes time in proportion to the program", "statement": "The texts that are made when a program makes parsers, each from parsers made before, are together no longer than the program up to a constant factor, and making a parser that returns a value runs no code of the value. (False of the code: every parser's text contains those of its parts, so one pchar and n calls of between, each on the parser made last, make a text of 34 * 3**n - 24 characters: with twenty calls, more than 10**11. And preturn(x) calls str(x), which may raise or not return. The text is at most in proportion to the calls written out where they are used, and n calls make no more than 3**n times a constant.)", "quantifier": "all programs that make parsers of strings from parsers made before, all values given to preturn", "why_tests_cant": "A test makes a parser of a few calls and cannot see that the cost grows exponentially.", "anchors": ["expression/extra/parser.py: Parser.__init__, pchar, and_then, or_else, map, preturn, fail, bind, then_ignore, ignore_then, between"]}
{"id": "C145", "title": "A collection made from an iterable holds what the iterable gives", "statement": "Block(xs), Block.of_seq(xs), TypedArray(xs), TypedArray.of_seq(xs) and map.of_list(xs) iterate xs exactly once and hold the elements that this gives, in order; an exception of the iteration comes out, and if the iteration has no end, neither has the call. This holds for every class of xs. (False of the code for Block(xs), TypedArray(xs) and map.of_list(xs), which test `if xs` first: an object that is false although it has elements, such as a NumPy array of the number 0, makes an empty collection, and an object whose test raises, such as a longer NumPy array, makes them raise. of_seq does not test.)", "quantifier": "all iterable objects of any class, with any effects, exceptions or endless iteration, and any truth value or effect of testing it", "why_tests_cant": "Tests use lists and ranges, whose truth value says whether they have elements; the claim is about every class.", "anchors": ["expression/collections/block.py: Block.__init__, Block.of_seq, of_seq", "expression/collections/array.py: array_from_initializer, array_from_typecode, TypedArray.__init__, TypedArray.of_seq", "expression/collections/map.py: of_list"]}
{"id": "C146", "title": "An interrupt does not break a disposable", "statement": "Threads call dispose() on a disposable in any interleaving, also from inside the action, and any of these calls may be ended anywhere by an exception from outside (a KeyboardInterrupt). The action is started at most once, no call is left waiting for a lock that nobody gives back, nobody enters after a dispose() has returned, and when all calls are over and one of them has returned, the action has been started. (The last is false of the code: a call interrupted after it has marked the object as disposed and before it has called the action loses the action for good: every later dispose() returns without it. It holds exactly when no call was interrupted there.)", "quantifier": "all schedules of any number of threads and calls, with any number of interrupts at any point of any call", "why_tests_cant": "A signal can arrive at every bytecode; a test cannot interrupt a call at every point of every interleaving.", "anchors": ["expression/system/disposable.py: AnonymousDisposable.dispose, AnonymousDisposable.__enter__, Disposable.__exit__"]}
{"id": "C147", "title": "An interrupt does not break a cancellation source", "statement": "Calls of register, cancel and of the disposal of registrations are made in any interleaving, and any of them may be ended anywhere by an exception from outside (a KeyboardInterrupt) or, in cancel, by a BaseException of a listener. No listener is called twice, and only listeners that were stored are called, in the order of registration and not before a cancel began; disposing a registration never raises KeyError; no call waits for a lock that nobody gives back; a register that begins after a cancel has returned does not succeed. A listener whose registration returned before any cancel began has been called when a cancel has returned and all are over, and one whose registration was disposed before is never called. (The last sentence is false of the code: a cancel interrupted after it has set the flag loses the listeners it still had to call, and later cancels return without calling them; a disposal interrupted after it has marked the registration leaves the listener, and later disposals return without removing it. It holds exactly for the listeners of which no call was lost, and for the registrations of which no removal was.)", "quantifier": "all schedules of any number of calls, with any number of interrupts at any point of any call", "why_tests_cant": "A signal can arrive at every bytecode and a listener may raise anything; a test cannot interrupt a call at every point of every interleaving.", "anchors": ["expression/system/cancellation.py: CancellationTokenSource.dispose, CancellationTokenSource.cancel, CancellationTokenSource.register_internal, CancellationToken.register", "expression/system/disposable.py: AnonymousDisposable.dispose"]}
{"id": "C148", "title": "An interrupted post does not break a mailbox", "statement": "Threads post to a mailbox whose event loop runs in another thread, in any interleaving, and any of these calls may be ended anywhere by an exception: a KeyboardInterrupt, or the RuntimeError of an event loop that was closed. The message of such a call is in the mailbox or it is not; no message is delivered twice, overtakes another or is dropped, no lock is kept, and when all is quiet no receive waits while a message is in the mailbox. (The last is false of the code: a post interrupted between queueing its message and waking the event loop leaves the message in the queue while a receive waits for one. It stays there until the next post, which wakes the receive; so exactly messages of interrupted posts can be left over, and none is if the last post was not interrupted.) If other threads also ask with post_and_async_reply and are interrupted, no more messages are lost than without interrupts.", "quantifier": "all schedules of any number of threads, calls, receives and callbacks of the event loop, with any number of interrupts at any point of any call outside the thread of the event loop", "why_tests_cant": "A signal can arrive at every bytecode; a test cannot interrupt a call at every point of every interleaving.", "anchors": ["expression/core/mailbox.py: MailboxProcessor.post, MailboxProcessor.post_and_async_reply, MailboxProcessor.receive, MailboxProcessor.__process_events"]}
{"id": "C149", "title": "The error of a parser tells what was expected", "statement": "Write a recursive grammar with the combinators (pchar, pstring, and_then, ignore_then, then_ignore, |, opt, many, sep_by, between, map, fail). When its parser fails, the error tells a character that was expected at the farthest position to which the reading came. (False of the code: of two alternatives that fail only the error of the second is kept, however far the first one came - so any_of, and with it a missing digit, names the last of its characters only - and what made a repetition or an optional part stop is forgotten.) What holds: the error is exactly the complaint of the last comparison that failed on the path that was taken back to the start, and so it is always true - the character it names was looked for and is not where it was looked for, or the text ends there, or a fail() was reached - and without alternatives, optional and repeated parts it does tell the farthest.", "quantifier": "all grammars, all expressions of them, all texts and positions", "why_tests_cant": "The error depends on the order in which alternatives are given up, over texts of every length and grammars of every depth; tests fix some.", "anchors": ["expression/extra/parser.py: pchar, pstring, or_else, choice, any_of, and_then, ignore_then, then_ignore, opt, many, many1, sep_by, sep_by1, between, map, fail"]}
{"id": "C150", "title": "A failure of any kind inside traverse is its outcome", "statement": "traverse(fn, xs) and sequence(xs) return a Result whatever fn does: fn may return a Result or an Option, may look into an option or a result that has no value (which raises EffectError), and may raise anything else. (False of the code: if the first element to fail fails with Nothing, then Nothing is returned, which is no Result.) What holds for every fn: fn is called on the elements from the last to the first, up to the first exception that is no EffectError, and that exception leaves traverse (a StopIteration as the RuntimeError that Python makes of it in generators); if there is none, the outcome is Ok of the block of all values, or the failure of the first element that failed, Error(e) or Nothing, returned or raised alike. traverse itself never raises EffectError or StopIteration.", "quantifier": "all functions with any effects, exceptions and divergence, and all blocks; payloads of EffectError are Nothing and Error(e), the ones with which the library raises it", "why_tests_cant": "A test uses functions that return results; each way to fail at each position, with every combination of failures at other positions, is a different case.", "anchors": ["expression/extra/result/traversable.py: traverse, sequence", "expression/core/builder.py: Builder._send, Builder.__call__", "expression/effect/result.py: ResultBuilder", "expression/core/option.py: Option.__iter__", "expression/core/result.py: Result.__iter__", "expression/collections/seq.py: fold_back"]}
{"id": "C151", "title": "A callback that raises never shortens an asynchronous sequence", "statement": "Whatever the callback of map, filter, choose, collect or scan of an asynchronous sequence raises, a loop over the result does not end there as if the sequence had ended: it sees the elements before, and then an exception comes out. That is the exception itself, or RuntimeError if it is StopIteration or StopAsyncIteration, the exceptions with which iterators say that they are exhausted. The same holds for fold and fold_back, out of which StopAsyncIteration comes unchanged. (In the synchronous collections such an exception does shorten the result: C134.)", "quantifier": "every source, every callback (any effects, exceptions, divergence), every position at which it raises, every loop over the result", "why_tests_cant": "The exceptions that mean the end of a sequence are those a test is least likely to raise, and the position and the rest of the source are arbitrary.", "anchors": ["expression/collections/asyncseq.py: map, filter, choose, collect, AsyncSeq.map, AsyncSeq.filter, AsyncSeq.choose, AsyncSeq.collect, AsyncSeq.scan, AsyncSeq.fold, AsyncSeq.fold_back"]}
{"id": "C152", "title": "Leaving a pipeline closes the generators it began", "statement": "Build a pipeline from functions of seq (map, filter, choose, collect, scan, skip, take, pairwise, zip, append, delay, Seq) over iterables whose iterators are generators with clean-up code (a finally or with statement). However a loop over it ends - exhausted, by break or return, by an exception of the body, of a callback or of a generator - every generator that the pipeline began has then ended or been closed, exactly once, so its clean-up has run. This includes the generator in a zip whose partner ended first, and one from which a take has enough. The clean-up apart, the elements, effects and exceptions of the loop do not depend on when generators are closed.", "quantifier": "every pipeline of any depth, all callbacks and generators (any effects, exceptions, divergence), every loop over it and every point at which it is left", "why_tests_cant": "The point at which a loop is left, and the place in the pipeline where an exception starts, are arbitrary; a test observes a few. (It is about CPython, where an object is finalized when its last reference goes.)", "anchors": ["expression/collections/seq.py: SeqGen.__iter__, Seq.__iter__, map, filter, choose, collect, concat, append, delay, scan, skip, take, pairwise, zip, head"]}
{"id": "C153", "title": "Leaving a pipeline does not close a generator that the caller keeps", "statement": "A caller makes a generator, keeps it, and loops over a pipeline of functions of seq that reads from it. If the loop is left early, the caller's generator is not closed: the elements not read yet can still be read from it. (False of the code: append and concat, and collect if its callback returns the generator, delegate to it with yield from, which closes it: after head(append(ys)(numbers)) nothing is left in numbers.) It holds for every pipeline in which no such generator is itself an argument of append or concat or returned to collect; it may be wrapped in a Seq, or mapped or filtered, first.", "quantifier": "every pipeline of any depth, all callbacks and generators (any effects, exceptions, divergence), every loop over it and every point at which it is left", "why_tests_cant": "Tests look at the elements that come out of a pipeline, not at what is left in its source; the pipeline and the point at which it is left are arbitrary.", "anchors": ["expression/collections/seq.py: SeqGen.__iter__, Seq.__iter__, map, filter, choose, collect, concat, append, delay, scan, skip, take, pairwise, zip, head"]}
{"id": "C154", "title": "An async for loop over an asynchronous sequence on a bounded stack gives its elements or raises RecursionError, and how much stack it needs", "statement": "However an asynchronous sequence is made by the functions of asyncseq (range, repeat, map, filter, choose, collect, take, skip, tail, scan, append, AsyncSeq(xs)), an async for loop over it on a stack with any number of free frames does what it does on an unbounded stack, or raises RecursionError. Every one of these functions needs exactly one frame more than what it is made from (scan: for the elements after its initial state, at most one more); choose needs at least two even if its source and its chooser need none; AsyncSeq(xs) needs one more only while the iterator is made. So a range to which n functions are mapped one after the other can be listed through AsyncSeq if n + 1 frames are free and not with fewer, and a sequence of n values that was made by appending them one at a time can be listed if n frames are free, and listing it raises RecursionError otherwise. fold, fold_back, head, length, sum, max and min, too, give what they give on an unbounded stack or raise RecursionError; one frame more than the sequence and their callbacks need is enough for them (sum needs at least two), and with fewer than one more than its first element needs they raise RecursionError. Callbacks are called with one frame fewer than what calls them.", "quantifier": "all asynchronous sequences made by these functions from any sources and callbacks (with effects, exceptions and non-termination), every number of free frames, every loop body; all lists of values appended one at a time", "why_tests_cant": "The depth is unbounded and depends on how the sequence was built; tests nest a handful of functions, and the failure appears only with some hundreds.", "anchors": ["expression/collections/asyncseq.py: AsyncSeq.__aiter__, AsyncSeq.map, AsyncSeq.filter, AsyncSeq.choose, AsyncSeq.collect, AsyncSeq.take, AsyncSeq.skip, AsyncSeq.tail, AsyncSeq.scan, append, range, repeat, map, filter, choose, collect"]}
{"id": "C155", "title": "Listing an asynchronous sequence of appended values takes linear time", "statement": "Listing an asynchronous sequence of n values that was made by appending them one at a time takes time proportional to n. (False of the code: every append passes all the values of the sequence before it through another generator; generators are resumed exactly (n*n + 7*n - 4) / 2 times.)", "quantifier": "all lists of values, every stack on which the values can be listed", "why_tests_cant": "Time as a function of the number of values is a statement about all numbers; a test measures a few.", "anchors": ["expression/collections/asyncseq.py: append, repeat"]}
{"id": "C156", "title": "Functions that run through a sequence on a bounded stack give their answer or raise RecursionError, and how much stack they need", "statement": "For every sequence made by the functions of seq, head, max, min, length, fold, fold_back, iter, sum, max_by, min_by, sum_by, try_pick and mapi do on a stack with any number of free frames what they do on an unbounded stack, or raise RecursionError; they never give another answer. Above what the sequence needs, head, max, min, fold_back and sum need one frame, length two, fold, iter, try_pick and mapi three, max_by and min_by four, and sum_by five; callbacks are called with as many frames fewer (by fold_back with two fewer). sum and, for a sequence with an element, fold_back need two frames in any case, and try_pick needs four. With fewer, RecursionError is raised.", "quantifier": "all sequences made by the functions of seq from any sources and callbacks (with effects, exceptions and non-termination), all folders, projections and actions, every number of free frames", "why_tests_cant": "A test runs with one depth of the stack; whether a swallowed or late RecursionError can turn into a wrong answer, and the exact number of frames, are questions about every depth.", "anchors": ["expression/collections/seq.py: head, max, min, length, fold, fold_back, iter, sum, max_by, min_by, sum_by, try_pick, mapi", "expression/core/curry.py: curry_flip"]}
{"id": "C157", "title": "Values of an ordered union compare with all the operators", "statement": "Values of a tagged union declared with order=True, and of its plain subclasses (such as Result and Try), can be compared with <, <=, > and >=: by the place of their cases first, then by payload, whichever of the classes they were made by and on whichever side they stand; a > b is b < a. Comparing values of unrelated unions, or of a union that is not ordered, raises TypeError.", "quantifier": "every union, any plain subclasses of it, all cases and payloads, both orders of the operands", "why_tests_cant": "Which operand Python asks, and for which method, depends on the two classes; payloads and hierarchies are arbitrary. (The code violates it: only __lt__ is made, so <= and >= always raise TypeError, as in Ok(1) <= Ok(2).)", "anchors": ["expression/core/tagged_union.py: tagged_union, __lt__", "expression/core/try_.py: Try", "expression/core/result.py: Result"]}
