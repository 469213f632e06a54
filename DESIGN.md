# Formal model of bytedance/matxscript: design

## Method

Each component of `/repo` is modelled as plain Lean 4 functions (or a labelled transition
system for concurrent code) that mirror the C++/Python branch by branch.  Every definition
carries a comment with the file and lines it models and the simplifications made.  Each
property is a theorem about those definitions against a small independent specification
(`List`, `Int.fdiv`, `Nat.gcd`, `List.Perm`, path existence, ...).  Where the code violates
the property, the violation is proved with a concrete witness (`..._refuted`) and the
strongest guarded version is proved with the suffix `_partial`.

Layout: `lean/Verif/<Component>.lean` (model + lemmas) and `lean/Verif/<Component>Props.lean`
(property theorems with non-vacuity `example`s); small components use a single file.

## Trusted base

* Lean 4.33.0 kernel, and the axioms `propext`, `Classical.choice`, `Quot.sound` only.
  No `sorry`, `admit`, `native_decide`, `bv_decide`, no new axioms.
* The correspondence between `/repo` and the Lean definitions: by reading; nothing of `/repo`
  is executed.
* C++ integers: 64-bit two's complement; `size_t` is 64 bits; where a model uses unbounded
  `Nat`/`Int` the comment says why no wrap-around can occur, or the theorem has a range
  hypothesis.
* Concurrency: sequentially consistent interleaving of the atomic steps (acquire/release
  annotations are not modelled).
* Not modelled: reference counting and object lifetime, allocation failure, the Python/C FFI,
  LLVM/C++ code generation, regex, JSON, float formatting, CUDA, IO.

## Plan per property

| id | modelled code | how proved |
|----|---------------|-----------|
| C01 | `fast_mod_i64_i64`, `fast_floor_div_i64_i64` on `BitVec 64`/`Int` | equality with `Int.fdiv`/`Int.fmod` |
| C02 | `TryConstFold` per operator on an integer expression type | evaluation preserved for all environments; refutation for `0/x` |
| C03 | `ExtendedEuclidean` loop | loop invariant, `Int.gcd`, Bezout |
| C04 | `WillOverflow` | iff with range membership |
| C05 | `slice_index_correction`, `get_slice` loop | equality with a filter/`range` specification |
| C06 | `List` methods as functions on Lean lists with error results | step-wise refinement and history induction |
| C07 | pdqsort on arrays with explicit out-of-bounds result | permutation, sortedness, no out-of-bounds |
| C08 | same with the non-strict comparator | refutation (out-of-bounds run); equality of runs without ties |
| C09 | heap helpers | heap invariant; refutation for `Heapify` |
| C10-C12 | UTF-8 encoder and table decoder | round trip; count agreement; refutation for truncated tail and overlong |
| C13-C19 | string/bytes searching, splitting, stripping | least/greatest index specs, round trips; refutations |
| C20 | base64 | round trip |
| C21-C22 | msgpack pack/unpack | round trip by induction on values; decoder totality; prefix rejection |
| C23 | dtype print/parse | round trip |
| C24 | escape functions + C literal reader | round trip |
| C25-C27 | Robin Hood table | invariant, refinement to finite map |
| C28 | hash/eq of scalars | refutation and guarded theorem |
| C29-C30 | ParallelForImpl chunking, task interleavings | partition; schedule independence |
| C31-C32 | pool transition systems | invariants; refutation for lock-free pool |
| C33 | Vyukov queue transition system | invariant by induction over steps |
| C34-C36 | Graph::topo_sort, BuildRunNodes, session run | induction; schedule independence |
| C37-C39 | CFG analyses | fixpoint theory over all graphs; C39 refuted on built graphs |
| C40 | CFG construction | executions against paths, by induction on statements; refutation for `try` and `while … else` |
| C41 | broadcast | equality with the NumPy rule on the accepted fragment; refutations |
| C42 | element-wise fusion (`Fuse`) | invariant of graphs; each fusion step keeps the relation "place has value" in both directions; termination by number of operators and unvisited nodes; graph construction by induction on the body |
| C43 | call counter of `dfs_visit` | exponential family; linear bound for chains |
| C44 | tuple heap and the moving unpack of multi-output nodes | refutation; prefix preservation for fresh tuples |
| C45 | `GlobalUniqueIndex` | invariant over call histories; pigeonhole |
| C47 | pdqsort | ties under adjacent exchanges; witnesses |
| C48 | kernel scalar arithmetic | congruences modulo the width; exact overflow condition for `%` |
| C49 | kernel comparisons, `not` | case analysis on the sign bit; exact conditions |
| C50 | kernel conversions | one lemma per pair of type codes |
| C51 | cedar double array (`Cedar`, all of `update`) | ghost tree of paths with positions; invariants of free rings, block lists and sibling chains; loop invariant of `_resolve` with pending children |
| C52 | `commonPrefixSearch`, `TrieNode` wrappers, UTF-8 | exact list of reported prefixes from the tree invariant; UTF-8 prefix property; refutations |
| C53 | `AssignOptimizerFilter/LastUsedAnalysis/Mutator` | simulation with the dead variables forgotten; refutations |
| C54 | `FuncArgsOptimizerFilter/Mutator`, `const T&` parameters | simulation between copies and references while the shared locations keep their values; refutation |
| C55 | `NDArray` views | one lemma per operation: the result is an injective re-indexing of the original; chains by composition; exact differences to NumPy; refutations |
| C56 | programs over all modelled NDArray operations (`NDArrayRunProps`) | invariant `Ok` (in bounds, injective addresses) kept by every statement; refutations |
| C57 | `ToList`, iteration, `Contiguous`, `as_type`, `==` | row-major walk = enumeration of indices; refutations |
| C58 | `set_item`, `set_slice`, `fused_set_item`, `Assign` | frame lemma for the cell loop; refutations |
| C59 | element-wise operators | strided loop with broadcast strides reads the broadcast index |
| C60 | `Concatenate`, `Stack` | loop invariant: sections written so far, disjoint by the axis coordinate |
| C61 | `Kernel_NDArray::make`, `FirstShape`, `FlatList` | meaning of nested lists (`HasShape`, `pyAt`) against the scan |
| C62 | `parser.py` statements and expressions, `if_bool.py`, `syntax_check.py`, printed C++ | Python and C++ semantics of the same source; simulation by induction over statements (`sim`), loops by induction on fuel |
| C63-C67 | `visit_BoolOp`, `visit_Compare`, `visit_AugAssign`, `visit_Assign`, `visit_For` | corollaries of the simulation; witnesses by running both semantics |
| C68 | `FunctionSyntaxCheck` | induction over statements |
| C69 | scopes of the parser | the value read from an unassigned variable does not influence the run |
| C70 | `string_core`, the operations of `String` | invariant on an explicit heap: owners of each buffer, kinds, counts, contents; simulation of value semantics |
| C71 | same | no operation fails in the checked heap; every live buffer has an owner |
| C72 | same, and `MoveFromCHost` | terminator in the invariant; witness for a string taken out of an Any |
| C73 | arguments that point into the string | reading the argument before and after the storage moves; witnesses for insert |
| C74 | `expandNoinit`, `reserve` | amortised: moves at most twice the capacity and three times the size |
| C75 | `FileReader::ReadLine`, `readLineFromBuffer`, `ReadLines`, `HasNext`/`NextView` loop | invariant: window of the buffer followed by the rest of the file is what is left to deliver |
| C76 | `FileReader::Read`, `ReadUnicode` | simulation of any sequence of calls by a list of bytes; characters counted by their first byte |
| C77 | the same, with `read(2)` delivering any amount | invariant on offsets; pointers carry the generation of the buffer |
| C78 | generator, init_genrand, init_by_array, seed (`Random`) | loop invariants against the recurrence of MT19937; the recurrence, the tempering and both passes of init_by_array are inverted |
| C79 | getrandbits, bits_in_digit, _randbelow, randint, random | values as functions of the recurrence's words; preimages counted as intervals |
| C80 | getstate, setstate | case analysis over all arguments |
| C81 | drawing under the object's lock, the store of seeding (`RandomRace`) | invariant over all interleavings; explicit schedules for the refutations |
| C82 | `ToJsonStruct`, `FromJsonStruct`, `Serialize`, `DeSerialize` on documents (`Pickle`) | mutual induction over values (`PickleProps`); refusals and functions by induction over "inside"; text for any writer and parser with laws (`PickleSave`), shown satisfiable (`PickleJson`) |
| C83 | `ToJson`, `FromJson`, `json_dumps`, `json_loads` (`Pickle`) | mutual induction over values and documents (`PickleJson`) |
| C84 | `string_to_int64`, `str(int)` (IntParse) | Python's grammar as an independent predicate with an inductive relation for the value of digits; decomposition of every text into blanks, sign, prefix, digits, blanks, both ways; `errno` is an explicit state |
| C85 | generator functions: labels, members, `next()` with `switch`/`goto` (Generator) | two small-step machines with continuations, Python's with iterators in the frames, the compiled one with members; the jump is CompCert's `find_label`; lockstep simulation, with the invariant that the continuation at a label is the one the yield was executed in (labels distinct) |
| C86 | `for` over a generator (GeneratorUse) | induction on the number of elements over the simulation of C85 |
| C87 | `RegexHelper::Split`, `RegexNode::Split` over an abstract `pcre_exec` (Regex) | the loop with fuel is related to an inductive scan; the scan to Python's by induction; reconstruction by slices |
| C88 | `SubHelper`, template compiler and its two passes (Regex) | as C87; a grammar of templates and induction on its tokens |
| C89 | `RegexHelper::Match`, `RegexNode::Match`, `RegexPattern::Load` (Regex, RegexUse) | case analysis; arithmetic of `bmod` and signed characters |
| C90 | `BFCArena`: Extend, AllocateRawInternal, FindChunkPtr, SplitChunk, Free, Merge, bins, regions, chunk list (Bfc) | an invariant over a ghost list of regions and their chunks in order of address (BfcInv), kept by every primitive (BfcSteps, BfcSplit), every free and allocation (BfcOps, BfcAlloc), so by all runs (BfcProps) |
| C91 | as C90 | the invariant also says that no two neighbours are free, so every gap is one chunk; search in sorted bins is best fit |
| C92 | as C90 | the handle of every place is that of a chunk or none |
| C93 | as C90 | sums over the ghost list |
| C94 | `DepsAnalysis.run`, `run_impl`, `topodeps`, the loop of `_passes` (Deps) | post-conditions of the depth-first search (DepsDfs: what is listed, marked, reached), an invariant of the rounds (one node per object, every node linked to the main node), a counting argument for termination (DepsProps) |
| C95 | as C94 | the search again, with a rank for graphs without cycles, and with the set of first dependencies in progress for all graphs |
| C96 | `generic_visit`, `visit_FunctionDef`, `visit_Name`, `visit_Attribute` (Deps) | induction over syntax trees against a scoped definition of what is used (DepsVisit) |
| C97 | `getallvars`, `ModuleAnalysis.run_impl`, `inspect.getclosurevars` (Deps) | cases over the five dictionaries (DepsVisit) |
| C98 | `PrintPackedFunctionMacro` (the generated function), `KwargsUnpackHelper::unpack`, `GetUniqueName` (CallArgs) | closed forms of the two loops by induction, a counting argument for unexpected keywords, against a declarative rule of binding (CallArgsBind) |
| C99 | `visit_Call`, `ir_call_wrapper`, `inspect.Signature.bind`, `generic_const` (CallArgs) | position by position against the same rule (CallArgsProps) |
| C100 | `ir_call_attr`, `BoundArguments.args`, C++ default arguments, `InheritencyConsistencyCheck` (CallArgs) | as C99 |
| C101 | the static array of defaults and the defaults written into calls (CallArgs) | induction over runs of calls |
| C102 | `RTValue` (copy, move, assignment, destruction), `IncRef`/`DecRef`, items of containers (Rc) | invariant: every count equals the number of owners (RcInv), preserved by every operation and by the recursive release; acyclic heaps without owners are empty (RcProps) |
| C103 | `PyObjectToMATXScriptAny`, `matx_script_api_return_switch_impl`, `MATXScriptRuntimeMake*` (Ffi) | mutual induction over values against a representation relation that is shown to be functional (FfiProps) |
| C104 | `PackedFuncBase` call, `MATXScriptFuncCall_PYTHON_C_API`, `op_kernel_call` (Ffi) | mutual induction over Python objects, with the invariant of C102 and a frame (FfiOwn) |
| C105 | `PythonClosureMATXScriptPackedCFunc`, `MATXScriptCFuncSetReturn` (Ffi) | as C104; the refutation holds for all functions and results |
| C106 | `ArithOps::gt/ge/lt/le`, `List`/`Tuple` `>` and `>=` (Order) | both the runtime and Python's definition are reduced to one comparison by mutual induction over values (OrderProps, OrderSort) |
| C107 | the same on numbers, over the exact model of doubles of C16 | case analysis; bounds on rounding for integers (OrderProps.ofInt_cmp) |
| C108 | `container_min`, `container_max` (Order.pick) | induction over the list, from transitivity of the comparison |
| C109 | `List::sort` with `ArithOps::lt` | the comparison is a strict weak order on the items, then C07 |
| C110 | `ArithOps::floormod`, `float_rem`, `fmod` (Order) | the remainder of doubles is a double (rep_mod); case analysis on signs (OrderMod) |
| C111 | `fp16_ieee_to_fp32_value` and the binary32 arithmetic it uses (Half) | masks and shifts become quotients (and_mask), each product and difference is shown exact (rnd_exact, toFloat_exact) |
| C112 | `fp16_ieee_from_fp32_value`, `AnyValue2ElementData(Half*)` | the magic sum rounds at the bit the half ends with (sum_eq); a multiple nearest among multiples is nearest among halves (nearest_round) |
| C113 | both conversions in a row | the nearest half is unique; rounding to binary32 and to halves is monotone (HalfStore) |
| C114 | the loop `VisitStmt_(const AutoForNode*)` prints for a list, `std::vector` growth (Iterate) | induction on the steps with the invariant that buffer and length are those at the start; the refutations are for all lists and appending or popping bodies |
| C115 | the loops it prints for zip and enumerate, iterator objects with `has_next` flags | the flags are exact while iterators are distinct (take_agree); only Python's last, failing step differs (take_stop) |
| C116 | `build_AnyCompLoopStack`, `build_AnyCompNestedFor`, `visit_ListComp`, `VisitStmt_(const ForNode*)` | each loop agrees from some fuel on when its body does (gen_agrees); induction on the generators (run_agrees) |
| C117 | `nfd_nfkd`, `get_decomp_record` with all tables (Normalize, NormalizeData) | decomposition by depth (unwind_full), sorting reaches and keeps the canonical order, exchanges do not change what sorting gives (order_unique); the bound of the stack is checked for every entry of the table |
| C118 | `nfc_nfkc` with `skipped`, `find_nfc_index` | indices are removed (comp_live), the loop is the algorithm D117 (compL_compose), which keeps the decomposition (compose_full) |
| C119 | `is_normalized_quickcheck`, `is_normalized`, `normalize` | the parts of a composite and the marks after it interleave (Inter) such that all parts are composed again; laws of the tables checked for every entry |
| C120 | `TokenizeImplWithPrefix` with its buffer (bytes not written yet are none), `TokenizeImplNoPrefix`, `PrefixSearch` (WordPiece) | the buffer holds prefix and rest (loopP_ok), one search is the inner loop of the reference (search_cut), bytes to code points by prefixes (cut_bytes) |
| C121 | the constructor, `std::map::emplace`, the loops over sentences | membership in the map of lines (mem_readVocab), independent of the order of insertion |
| C122 | `Filter`, `Replace`, `CheckPos` and the registered methods (Emoji) | strong induction on the length against a left-to-right segmentation; no text code begins with a continuation byte (longest_inside) |
| C123 | the task stack and the two maps of `SEqualHandlerDefault::Impl`, arrays, kinds of nodes (StructEq) | the machine refines a recursive comparison (todo_does), which is complete for every one-to-one relation by lockstep with a traversal (cmp_complete) and sound by the invariant that every mapped pair is compared (cmp_sound) |
| C124 | as C123 | composition and inverse of renamings; the traversals of equal objects correspond (walk_sync) |
| C125 | the array overload without tracing as a heap with inlined arrays (`expand`) | `Sim` and the traversal are the same in both heaps (sim_expand, walk_expand) |
| C126 | `DeepCmpSEqualHandler` (deep) | induction on addresses in both directions |
| C127 | the task stack, result stack, memory and counters of `SHashHandlerDefault::Impl` (StructHash) | the machine refines a recursion that remembers renamed nodes only, since the hash of any other node is determined by them (hgo_quiet, todo_hash); two recursions run in lockstep along a renaming (hgo_lock) |
| C128 | the expression printer and, as specification, a recursive-descent parser of Python's expression grammar (DocPrint) | the parser is monotone in its fuel, hence deterministic; printed text of level m is read at every level up to m before a token that does not continue it, by induction on the expression (claim_pr) |
| C129 | DFSSaveOp, BundlePath, FileUtil::Copy, Save, CreateOp, Load (SaveLoad); runs as in Session | invariant of the traversal: a destination is untouched or has the content of its source, visited operators are listed after their sub-operators; loading in that order finds every sub-operator with the behaviour of the live one |
| C130 | `path_prefix`, `cache_str`, `build_dso` in sequence (SoCache) | total length of the joined texts changes by a multiple of the change of the file, otherwise texts are aligned (concat_ne); induction over the sequence |
| C131 | `build_dso` with `UnixFileLock` as a transition system over any number of processes, with kills (SoCache) | invariants Base (lock holder = process inside, compiler at work = partial file) and Good (a partial file has a compiler, who is past the check has a complete file) |
| C132 | `PathGuesser`, `JsonPathGetter`, `JitObject::Bundle` and `Init` on nested values, with shared containers (BundleArgs) | paths read back as written (parse_render); a path changes one leaf (fold_inside, fold_val by mutual induction over values) |
| C133 | submit, get and parallel map on several pools as a transition system, calls are trees (Nested) | a size that falls with each step; progress by an extreme task: the last pool that has unfinished tasks, and in it the earliest unfinished task |
| C134 | the rules for common types, loop variables and acceptance, on trees of types with an oracle for shared nodes; values and membership as an independent semantics (TypeJoin) | mutual induction over types and fields; references are peeled off first |
| C135 | warmup as a transition system: callers, one queue, threads with a barrier (Warmup) | tasks of a warmup are conserved; a thread that arrived stays at the barrier until the count is full, so no thread takes two |
| C136 | the pool of handlers on top of the queue of C33, one memory access per step (ObjPool) | every object has exactly one place (queue, thread, lost), an invariant over all steps; an object whose return must fail is never the only one left |
| C137 | split of a batch into tasks on top of the execution of ParallelFor; flags; test for JPEG (VisionBatch) | the tasks form a chain over the batch, then the invariant of C30 for any schedule; case analysis on the bytes |
| C138 | `UnicodeHelper::Format` on encoded bytes, the text of a value (StrFormat) | induction over the parts of a format string; bytes of long characters are never braces; strong induction for the converse |
| C139 | the registry of names in a library, tables of classes, name rules (FuncReg) | round trip by induction over the names; lookups as association lists; a prefix argument for uniqueness; a closed form of the lookup of function objects |
| C140 | options and pools of the sessions of one name, the op in their cache, the two phases of a fork (ForkPools) | closed form of a fork by induction over the sessions; invariants over all sequences of actions |
| C46 | msgpack integers | range of each header against the encoder's cases |

Every property above can be expressed; the status of each is in MANIFEST.json.

## Findings

Places where the code, as modelled, does not do what the property says.  Each is a theorem
(named `..._refuted`) with a concrete witness unless marked "not modelled".

* C02 constant folding: `0//x`, `0%x`, `0*f()`, `f() and False`, `f() or True` drop exceptions;
  `x or -1` aborts the compilation; `(5 or x) == True` folds to `False`; `uint32` literals are
  not reduced modulo 2^32; an `int32` cast of 2^40 keeps the literal.  Not modelled: `0.0*x -> 0`
  is wrong for NaN and infinities.
* C04 `WillOverflow` for multiplication: `INT64_MIN * -1` evaluates `INT64_MIN / -1`.
* C03 `ExtendedEuclidean`: sign of the result for negative arguments.
* C05 slices: a step near `INT64_MAX` gives a wrong buffer size; `bytes[i]` is signed.
* C06 lists: slice assignment from itself, negative or reversed bounds; `index` truncates to 32
  bits.
* C10-C12 UTF-8: a truncated tail swallows ASCII bytes, overlong 3/4-byte forms and values above
  U+10FFFF are accepted.
* C13-C18 strings: `find` with a negative start, `count` past the end and of the empty string,
  `replace` of the empty string, `split` drops a trailing empty piece, `startswith`/`endswith` of
  an empty affix at the end.
* C20 base64: 32-bit length counters (4 GiB encode to nothing, 2^31 characters are read past the
  end); the decoder stops at the first foreign character.
* C23 data type names: handle lanes, zero-bit types, `int288` parses as `int32`.
* C24 literals: trigraphs in byte literals under `-std=c++14`.
* C31-C32 pools: the lock-free pool loses a dequeued task and abandons its queue on shutdown.
  Not modelled: `LockBasedRunnable::Done` reads a plain `bool` without the lock (data race); a
  pool of zero threads.
* C36 sessions: the multi-threaded run of a pipeline that only passes inputs through returns
  nothing; the reported exception may differ.
* C43 `dfs_visit` has exponential cost on shared nodes.
* C44 unpacking a multi-output result empties the tuple object even if the caller holds it.
* C21 msgpack: tuples come back as lists, so a dict with tuple keys cannot be loaded; a foreign
  `uint64` >= 2^63 comes back negative; of duplicate keys the first wins; the length of a set or
  NDArray of 4 GiB is cut to 32 bits; NDArray sizes are computed modulo 2^64.
* C22 msgpack: a timestamp extension keeps the type code of the value before it (type confusion).
  Not modelled: `reserve(n)` with `n` from the input; nested sets recurse with large frames.
* C25 hash table: the probe length is bounded by the logarithm of the size, so `lim + 1` integer
  keys chosen against the fixed multiplier force an array of more than `2 ^ lim` slots (41 keys:
  a terabyte).  Not modelled: an exception thrown by the allocator in the middle of a rehash
  (the elements already moved are lost).
* C26 Dict construction: the first of two equal keys wins.
* C27 `s.difference_update(s)`: erasing shifts the next element under the iterator, which then
  reads a destroyed value and skips elements.  `s = {0, 2}` is enough.
* C08 `sort(reverse=True)` compares with `>=`, which is not a strict weak order: on 24 or more
  equal elements the first scan of `partition_right` never stops inside the list.  FTList has
  the same comparator.
* C47 the sort is not stable from 24 elements on; the reverse sort never is.
* C09 `heapify(h)` without a comparator calls `std::make_heap` with less-than, which builds a
  max-heap; `heap_replace` and `heap_pushpop` maintain a min-heap.  With a comparator the list is
  sorted, so the calls agree.  Not modelled: `NthElement` uses `begin + n - 1` without a range check.
* C28 number equality is "within 4 ulp": `1.0` equals its successor but hashes differently; `inf`
  equals every finite number but not itself; two floats whose sum overflows are equal; equality is
  not transitive (`2**53 == 2.0**53 == 2**53 + 1`); `2**61` and `2.0**61` are equal with different
  hashes, because integers are hashed unreduced and floats modulo `2 ^ 61 - 1`.
* C33 `enqueue_bulk` checks the sequence number of the first cell only: it overwrites items not yet
  consumed, and a dequeue then spins for ever.  Nothing in the repository calls it.
* C40 `try`: the ends of a `try` body are linked to the first handler only, and the list of ends is
  then empty.  The execution without an exception is therefore not a path of the graph, later
  handlers and the statement after the `try` get no link from the body, and blocks in the middle of
  the body have no link to any handler.  A name assigned in the body and in the handler and read
  after the `try` is reported not live-out in the body (`try_refuted`).  By reading only, not
  modelled: `lookup_or_alloca` (parser.py 593-640) uses that report to decide that a rebinding to
  another type may get a variable of its own in the inner scope.
* C40 `while … else`: `build_While` appends a list to the list of tails, so any statement after the
  loop makes the construction raise `AttributeError` (`while_else_refuted`).
* C39 blocks made by `separate_block` and handler labels are not registered with their scope and keep
  the empty dominator set, so every block in or after a loop that is preceded by other statements
  loses its dominators (`dom_exact_refuted`).  The sets never contain a false dominator (`dom_sound`).
* By reading only: `build_For` returns `func_tail` where `func_tails` is meant; `_find_idom` queues a
  block once per link, which is exponential in the number of successive branches before a separated
  loop; `visit_For` and `visit_While` of the parser do not look at `orelse`.
* C41 `is_scalar_shape` looks at the first axis only, so `(1, 3)` counts as a scalar: `(1, 3)` with
  `(2, 1)` gives `(2, 1)`, `(1, 3)` with `(4, 5)` is accepted.  Axes of one elsewhere are not
  stretched: `(2, 1)` with `(2, 3)` raises.  The empty shape raises `IndexError`.
* C48 `True` takes part in arithmetic as minus one (`5 + True` is 4); `//` and `%` on unsigned types
  are signed operations; `%` adds the divisor to the truncated remainder, which overflows
  (`int8(100) % int8(120)` is -36).
* C49 order comparisons of unsigned types are signed; `nan != nan` is false (predicate `one`);
  `not x` on a number is `x ^ 1`.
* C50 `True` becomes -1 in signed types, `int8(-1)` becomes 255 in `uint16`, `2` becomes `False`.
* By reading only: `a < b < c` in a kernel compares the truth value of `a < b` with `c`.
* C42 The copy made for an input that both fused operators read keeps its `copy_from` when that input
  is fused away later, so `t = a + b; y = t * c; return y + t` ends in a graph that reads a scalar
  nobody computes.  `a + a` raises `IndexError`, as the dictionary of inputs has one entry.  A computed
  scalar used by two fused operators gets a copy of itself as a second source, and `_check_src_op`
  raises `SyntaxError`.
* C51 `update` on a key that is there adds the new index to the old one, where the documentation says
  "insert a word and corresponding id" (`update_overwrites_refuted`).  The empty key calls `exit`.
* C52 a key with the default index -1 is not found; index -2 ends the search; more than 64 matches
  are read from an array of 64; a NUL in the text takes the value of the key before it for a
  position and reads outside the array; a NUL in a key overwrites the root and loses other keys.
* C53 `def keep(self, x: NDArray): self.x = x; return x` returns a moved-from (null) NDArray: the store
  is the last use of `self`, and the pass moves the right-hand side of any statement that is the last
  use of some parameter, not of the parameter on the right.  Likewise `a = b; c = b` with both assigned.
* C54 `self.g(self.xs)` where `g(self, xs)` runs `self.xs = []; return xs` returns the new list, as `xs`
  is a reference to the attribute.
* C55 `reshape` with `-1` divides without looking at the remainder: 7 elements reshaped to `(2, -1)` give
  a `(2, 3)` view without the last element.  `squeeze` compares the given axes with non-negative
  ones, so a negative axis always raises.
* C56 `get_item`, `set_item` and `as_type` read `shape[0]` and `strides[0]` of arrays without dimensions.
* C57 `to_list` of an array without dimensions is `[]`.  `==` compares from `data` without `byte_offset`,
  so different slices of one array can be equal.
* C58 assignments between overlapping views copy while they overwrite, or call `memcpy` on overlapping
  memory; `a[i][j][k] = v` with too many indices reads past the shape; an empty slice accepts any
  right-hand side.
* By reading only: boolean NDArrays can be made, but every later `MATX_NDARRAY_TYPE_SWITCH` raises.
* C62 arguments of a call are arguments of a C++ call: `f(g(), h())` may run `h` first.  A variable keeps
  the type of its first assignment, so `x = 1; x = True; return x` gives 1.  `not xs` for an object is
  `TypeError` outside `if` conditions.  A list may be grown through another name while it is iterated.
* C63 `x and y` with operands that are not both bool is `ArithOps::And(x, y)`: `y` is evaluated always,
  so `xs and xs[0] > 1` raises for an empty list unless it is the condition of an `if`.
* C64 `f() < g() < h()` calls `g` twice; `a < b in c` is `b in c`.
* C65 `a[f()] += 1` calls `f` twice; `xs += ys` leaves other names of the list unchanged.
* C66 `a, b = a` with `a` a list reads `a` again after the first assignment; a wrong length raises
  AssertionError.
* C67 `for i in range(n)` reads `n` in every iteration; a step of 0 with start below stop never ends.
* C68 `visit_While`, and `visit_For` for anything but names, do not descend: `else`, `finally` and
  `except T` in such bodies are accepted and dropped.
* C72 `MoveFromCHost` copies only the characters of a short string, so `c_str()` of a string taken out of
  an Any is not terminated unless it is empty or full.
* C73 `s.insert(pos, s.view())` expands the string before it reads the view: the characters have moved,
  or the storage has been freed.
* By reading only: items of bytes are signed.  `StringHelper::GetItem` and `Next`/`NextView` of the
  iterator return the `char` as it is, `Next(bool*)` casts to `unsigned char`, so `b"\xff"[0]` is -1
  and iteration gives -1 or 255.
* C75 `HasNext` only looks at `_last_line`, which a line found while filling the buffer does not set:
  `for` sees an empty line after the line of a one-line file, and one in an empty file.
* C75 the prefetch of `ReadLine` reads the next bytes to the front of the buffer before the caller has
  copied the line.  With line ends kept, the second line that ends at the end of the window is
  overwritten; without them (vocabularies) the first byte of the first such line is.
* C76 `ReadUnicode(-1)` never enters its loop: `read()` of a text file is "".
* C76, C77 `Read` appends `size` instead of `remaining` bytes of the last buffer, so `read(n)` with
  n above the capacity returns up to twice the bytes, or reads outside the buffer.
* C76 the last line without a newline stays in the buffer; `read()` returns it again.
* C77 after `read(capacity)` a line as long as the buffer makes `ReadLine` replace the buffer and
  return a pointer into the old one.
* C78 for |n| ≥ 2^32 `random_seed` passes `[high, low]` on little-endian machines where Python
  passes `[low, high]`, so the sequence is not Python's unless both halves are equal; `seed(2^32)`
  gives the sequence of `seed(1)`. (Python's key has collisions of the same kind, at other seeds.)
* C79 `getrandbits(64)` is returned as `int64_t` and can be negative; `getrandbits(2^32 + 8)` is
  `getrandbits(8)`; `randint(0, 2^63 - 1)` raises ValueError; `randint(2^63 - 1, -2^63)` returns a
  number (the differences overflow, modelled as wrapping).
* C80 `setstate` stores `gauss_next` before it checks the words; a word or index equal to -1 makes it
  return without an error and without restoring (the check of `PyErr_Occurred` is gone).
* C81 `random.seed` and `random.setstate` hold a global mutex that drawing does not take, and drawing
  holds the object's lock that seeding does not take; `random()` locks once per word. Also
  `random.seed()` without an argument keeps `gauss_next` (505-507; by reading).
* C82 `ToJsonStruct` saves a function as its address under the name "MATXFunctionHandle", which
  `Str2TypeIndex` does not know: a pipeline with such an attribute saves and never loads. An array document
  with fewer numbers than its shape loads with uninitialised memory. The writer validates UTF-8, so a
  string with a surrogate cannot be saved. rapidjson (not in the repository) is called without
  `kParseFullPrecisionFlag`; its documentation says floats may then be off in the last place, so that
  the law `fl` of the text layer does not hold for all floats (by reading, not modelled).
* C83 `JsonUtil::ToString` returns a top-level string without quotes and None as the empty text:
  `json.dumps("[1]") == json.dumps([1])`. A top-level float is printed by `%.16g`: `1.0` becomes `1`, an
  integer (by reading). With `indent`, `PrettyWriter` lacks the NaN flag, so NaN raises (by reading).
* C84 `string_to_int64` checks with `AsciiIsDigit`, which knows no letters: `int("ff", 16)` raises.
  The end pointer of `strtoll` is only compared with the start: `int("19", 8)` is 1. `errno` is compared with
  ERANGE without being cleared before: one `int("9223372036854775808")` makes all later calls of the thread raise,
  until some other code stores into `errno`. `float()` has the same test and also does not compare the end
  pointer with the end of the text, so `float("1abc")` is 1.0 (by reading). Texts are ASCII here; Python also accepts
  other decimal digits and blanks of Unicode and single underscores between digits, which the code refuses.
* C85 `next()` has no case for state -1: a call after the end falls out of the `switch` into the start of the body, so a
  second `for` loop over the same generator object repeats it (Python: no elements). `return` in a generator is compiled
  to a `return` of `next()` that leaves `generator_state__` and `generator_value__` alone: the caller sees the previous
  value again, for ever. An exception leaves the state as it was (or at the label of the `yield` whose expression
  raised), Python's generator is finished. `RemoveVarDefine` does not visit the bodies of `for` loops: an inner `for`
  keeps `yield_mode` off and `AllocVarID` fails, and a declaration left in the body makes `goto` ill-formed. `yield` in
  a `try` block is not valid C++ (by reading).
* C86 the loop over a generator is `x = *it; ++it; body`, so the generator has computed the next element when the body
  runs; `break` loses it, and side effects of generator and body happen in another order than in Python.
* C87 `split` drops the empty piece after a separator at the end ("a," gives ["a"]), for every separator and text; a
  failing match (backtracking limit) gives [] and the text is lost. After an empty match the scan goes on one byte, not
  one character, further: the empty pattern cuts "é" into two invalid bytes. A second, longer match at the place of an
  empty one (`|a`) is missed.
* C88 every error of a template is silent: `$name`, `${name}`, a `$` at the end return the text unchanged.
  `$9223372036854775808` is the whole match (twice the number wraps). By reading: `RegexNode::Replace(Any, Any)` looks
  only at the type of the input and takes the replacement by `AsNoCheck`, so bytes input with a str replacement reads a
  wide string as bytes.
* C89 `match` passes PCRE_CASELESS, PCRE_DOTALL and PCRE_EXTENDED to `pcre_exec`, which refuses them
  (PCRE_ERROR_BADOPTION; pcre_exec.c 6410, pcre_internal.h PUBLIC_EXEC_OPTIONS): with ignore_case, dotall or extended it
  always returns ([], {}). The name table is read as signed characters. By reading: all calls pass PCRE_NO_UTF8_CHECK,
  so bytes that are not UTF-8 are undefined behaviour in PCRE.
* C90 the size of the next region is doubled at every extension, also when the device then refuses; it was a checked
  integer and is now a plain `size_t` (bfc_arena.h 471-472), so after 44 refusals (from 1 MiB) it is 0, and
  `while (bytes > curr_region_allocation_bytes_)` never ends, with the lock held. `CPUDeviceAPI::Alloc` ignores the
  alignment: blocks are at multiples of 256 from memory that the CPU allocator aligns to 32, arrays ask for 128. Requests
  of 2^64-255 bytes or more are rounded to 0 and succeed. By reading: on CUDA the text of the exception does not contain
  "cudaMalloc", so the smaller retries never happen; on the CPU a refusal aborts the process; all CPU arrays together are
  limited to 4 GiB; a configured waste of 0 or less would split off empty chunks.
* C92 a pointer into the first 256 bytes of a live block frees the block; for a pointer outside of all regions
  `RegionFor` gives a null pointer or the wrong region and the table is read out of bounds.
* C95 `dfs_visit` lists a node as soon as it meets it again, before the rest of its dependencies: a recursive function
  (1) that then calls another (2) is compiled before it. With a base class that uses its derived class (and the derived
  class met first), `class_analysis.py` looks up the base in the nodes analysed so far, whose `context` is still `None`.
* C96 `visit_FunctionDef` hides the parameters also in annotations, and clears all hidden names after a nested function;
  a parameter or variable called like a function of the module makes that function a dependency, which then has to
  compile.
* C97 for a class the dictionary of the nearest frame that knows the class is used after the one of its own module, so
  with `from lib import Foo` a helper of `lib` used by a method of `Foo` is replaced by a helper of the same name in the
  importing script. The loop meant to repair this for every method stops at its first step: `inspect.getmembers` gives
  pairs, and `func.__name__` raises into an `except: pass`.
* C98 `unpack` runs its first loop to the number of positional arguments without comparing it with the number of
  parameters: `f(1, 2, 3, x=4)` for `def f(a, b)` reads `arg_names[2]` and writes `pos_args[2]` on the stack. The names
  compared with the keywords are the C++ identifiers, so a parameter `default`, `long`, `short`, `double`, `char`… is
  called `default1` there.
* C99 `zip(node.args, func.arg_types.values())` in `visit_Call` drops positional arguments behind the last parameter
  before `Signature.bind` can reject them; they are not even evaluated.
* C100 `method_wrapper` reads `binds.args` before `apply_defaults`, and `binds.args` ends at the first parameter without
  an argument: `obj.m(b=7)` for `def m(self, a=1, b=2)` compiles to `obj->m()`.
* C101 in the part for keywords the defaults are a `static` array, in the other part they are written into the call.
* C102 `RTValue::operator=(RTValue&&)` destroys the old value before it reads the new one. Reference cycles are never
  collected. `RTValue::Assign` (unused) copies the pointer of a string without a reference.
* C103 `PyLong_Check` comes before any test for `bool`. The error of `PyLong_AsLongLong` is not looked at, nor is the
  null pointer of `PyUnicode_AsUTF8AndSize`. `PackedFuncBase.__call__` takes `kwargs` and never reads it. Also read but
  not modelled: a wrapper whose handle was released is passed as None; subclasses arrive as their base types and
  `frozenset` is not supported; the branch of `MakeDict` that copies steps by one item in place of two.
* C104 `MATXScriptAny` objects are passed without a reference and destroyed after the call; their own destructor does
  nothing. When `MakeDict` or `MakeSet` throws, the caller does not destroy the rest of its buffer.
* C105 `MATXScriptCFuncSetReturn` copies its argument (`*rv = RTView(...)`), and the caller treats it as moved.
* Also read: `__init_handle_by_constructor__` returns None with an error set, leaks results that are not objects and
  overwrites an old handle; `op_kernel_call` reads argument 0 before it looks at the number of arguments.
* C106 `ArithOps::gt(Any, Any)` calls `operator>=` for two tuples, so that every tuple is greater than itself and `t <= t` is False; lists that begin with equal tuples are not told apart by what follows; equal `None` items raise TypeError; `[..] < x` is True for every `x` of unknown type that is no list.
* C107 `ge` on floats is `almost equal or greater` and `lt` its negation: no finite float is less than `inf`, `inf < inf` is True, `nan` is less than everything, `1.0 < 1.0000000000000002` is False while `>` the other way is True.
* C108 `MXCHECK(iter_node || iter_node->HasNext())` never fails, so `min([])` reads behind the end; `min` starting from `inf` stays `inf`; `max` of equal tuples returns the last.
* C109 a list of 24 or more infinities makes the sort read outside the list, since the comparison holds between an item and itself.
* C110 `int % float` and `float % int` with an integer of known type use `fmod`: `-7 % 2.5` is `-2.0`; `int % 0.0` raises ValueError; `-1.0 % inf` raises ValueError.
* C112 a Python float is converted to binary32 before it becomes a half (`from.As<float>()`), and so rounded twice: `1 + 2**-11 + 2**-25` stored into a float16 array is `1.0`, where NumPy stores `1.001`.
* C114 `for x in xs` keeps raw `begin()`/`end()` pointers: appending to or popping from `xs` in the body reads freed or removed items.
* C115 `for a, b in zip(it, it)` over an iterator with an odd number of items dereferences the end: the `has_next` flag of the second argument is stale.
* C115 after `zip(it, ys)` with a longer `it`, Python has consumed one more item of `it` than the generated code.
* C116 the bounds of `range` in a comprehension are printed inside the C++ `for` and evaluated in every step: `[q.pop() for _ in range(len(q))]` gives half of the items. (A `for` statement binds them to temporaries.)
* C116 the size to reserve is computed before the loops: `[j for i in [] for j in range(0, n, s)]` raises ZeroDivisionError for `s = 0`, where Python gives `[]`.
* C116 `[y for x in a for y in y]` reads the outer `y`, where Python raises UnboundLocalError.
* C114-C116 not modelled: loops over dicts and sets that change, tuple targets of comprehensions, dict and set comprehensions (the same loops with another last statement), overflow of the loop counter.
* C117-C119 The tables in NormalizeData.lean are written by `scripts/normalize_data.py` from `py_unicodedata_db.h`: the two-level arrays are flattened to search trees, which is trusted. Not modelled: the old database 3.2.0 and the parsing of the name of the form.
* C120 `PrefixMapping::PrefixSearch` (prefix_mapping.cc 54-63) has an array of 64 results but loops over the number of all matches: a vocabulary with 65 entries nested in one another makes the tokenizer read outside of it (nested_refuted). With `skip_empty=False` an empty word is taken for a full match (0 == 0) and gives the token "" with the identifier -1 (empty_word_refuted).
* C121 `unk_token=None` is allowed by the checks (wordpiece_tokenizer.cc 88-90, 118) but `GetString` throws first (none_unk_refuted); `unk_token=""` is accepted and `unk_id_` is never written (empty_unk_refuted); blank lines shift the identifiers and the first of two equal lines counts, while BERT's `load_vocab` counts every line and takes the last (line_number_refuted); `max_bytes_per_token` is narrowed to `int` (max_bytes_refuted).
* C122 `check_pos` on a `str` encodes `us.size()` code points starting at `us.data() + pos` (emoji_filter.cc 219), reading `pos` code points behind the end (checkPos_str_refuted); `user_emojis=[""]` ends the process (empty_code_refuted); removing a code can make another one (clean_refuted).
* C123 `HLOYieldNode::SEqualReduce` (stmt.h 783-791) answers true when symbol and label are the same objects, without asking whether the symbol has been renamed: fn(x, y) { yield x } and fn(y, x) { yield x } compare equal (yield_refuted). Not modelled: maps (an unmapped object key is not equal to itself), the pointer shortcut of class types, mismatch paths.
* C124 Floats are compared with a tolerance of 1e-9 (structural_equal.h 44-55): 0, 2^-30 and 2^-29 are equal in pairs but not all (float_refuted); NaN is not equal to itself.
* C125 A null array has size 0 in the comparison without tracing and is an undefined object with tracing (null_array_refuted).
* C126 `MarkGraphNode` does nothing in deep_equal.cc, so f(g, g) is deep equal to f(g1, g2) (deep_refuted).
* C127 The hash of a float is that of its bits, so constants that are equal within the tolerance, and 0.0 and -0.0, have different hashes (float_hash_refuted); yields are counted as graph nodes by the hash but not by the comparison (yield_hash_refuted).
* C128 `(a < b) < c`, `(a < b) in c`, `(a in b) in c` and `a in (b < c)` print without parentheses and are read as chains (chain_refuted, chain_right_refuted); `(x if c else y) if d else z` prints as `x if c else y if d else z` (cond_refuted); a negative literal counts as an atom, so `(-2) ** b` prints as `-2 ** b` (negpow_refuted) and `(-1.5).real` as `-1.5.real` (negattr_refuted); `1.real` is not Python (intattr_refuted); the empty set prints as `{}` (emptyset_refuted). Seen but not modelled: the conditions of a comprehension are joined without `if`, an assignment to a one-element tuple loses the comma, `orelse:` is printed for the else of a try, infinite floats print as `inf`.
* C129 Loaded operators are looked up by class and name, first among the session's own and then in a scope that all loaded sessions share (Load is called without a version, and the scope is named after the saved session's name, which is the same by default). Operators of classes registered as thread-safe (the default) and compiled objects with `share=True` are entered in that scope. Names of compiled objects are class name, hash of three counts and a counter, names of other operators hash their attributes but not the content of their files. So two models saved by two runs of one script have operators of the same names, and loading the second while the first is alive gives the operators of the first (shadowed_refuted, second_model_refuted); sessions without shared operators do not interfere (load_isolated_partial). Resource files are copied by base name into the directory of the operator and only replace older files: two files of one operator with the same base name become one (basename_refuted), saving again into a folder keeps a file that is newer than the new source (resave_refuted), and operators `x` and `A_x` of class `A` share a directory (dir_refuted).
* C130 Values of global and free variables (numbers, strings) are compiled in as constants, but the name of the library is made of file, line, name and texts of the files only. So `def make(n): def f(x: int) -> int: return x + n; return matx.script(f)` gives the same library for `make(1)` and `make(2)`, and `make(2)(10)` is 11; the same happens with constants imported from another module or read from the environment (const_refuted, for all programs). Texts are joined without separators (boundary_refuted).
* C131 The compiler writes the library in place and `hit_cache` only asks whether the file exists: a process killed while the compiler works leaves a partial library that all later processes load (killed_refuted). Libraries are loaded after the lock is released, so with MATX_USE_SO_CACHE=false a process can load what another one is just writing (nocache_refuted).
* C132 `Bundle` and `Init` copy the vector of arguments but not lists and dicts inside, and write through them: after `save`, a list of file names that the living object keeps (`self.paths = paths`) holds names like `JitObject_x/words.txt`, and a second `save` fails because this file is not there (saved_twice_refuted); a loaded object of this kind cannot be saved, since the folder is put before the names twice (save_loaded_refuted). Keys with a dot, a bracket, empty keys and keys that are numbers are written into the path as they are and not found again, so saving fails (dotted_key_refuted, number_key_refuted). File names in tuples are not found.
* C133 A thread of a pool runs calls to its own pool itself, but it blocks on calls to other pools. `matx.pmap` uses the compute pool of the session and `matx.apply_async` the scheduling pool, so an op on a scheduling thread that maps in parallel a function that calls `apply_async` and waits stops for ever when all scheduling threads do so (two_pools_refuted, with one thread in each pool). The same holds for two `ThreadPoolExecutor`s. A lock-based `ThreadPoolExecutor` with 0 threads takes calls and never runs them (no_threads_refuted).
* C134 Equality of file types ignores the mode, so the common type of a text file and a binary file is the type of whichever comes first, and the loop variable over it gets the wrong type (files_refuted). The common type of two classes and UserData depends on the order (order_refuted). A signed integer type is accepted where an unsigned one of the same width is expected (unsigned_refuted). `InferIteratorValueType` compares the first field of a tuple with the array of the fields, not with the other fields, so a loop over a tuple with equal fields has no static type (tuple_loop); this is imprecise, not wrong.
* C135 A task of a warmup counts itself only after the pipeline has run without exception, and the others wait for the full count: if an op throws on some of the threads only, the rest waits for ever, and so do `Warmup` and the pool (throw_refuted). `EnqueueBulk` puts tasks into the queue one by one, so two warmups at once on a shared pool can take some of the threads each and wait for the rest (two_warmups_refuted). Read in the code but not modelled: when the run in the calling thread throws, `Warmup` leaves while its tasks still use its local mutex and counter.
* C136 The queue of the pool has exactly as many cells as there are handlers, and `enqueue` fails when its cell is still being emptied by a slower thread. `ObjectDeleter` ignores this result, so the handler is never borrowed again (lost_refuted): a thread suspended between taking its ticket and releasing the cell is enough, and repeating this the pool shrinks down to one handler (shrinks_refuted), though not to none (one_left). `BoundedObjectPool` with one object aborts the process, as the queue wants at least two cells; the ops reject that size beforehand (one_object_refuted).
* C137 `ImencodeNoExceptionOp` on the CPU raises when the encoder or the conversion of an image raises: `CpuImageEncodeTask` has no `try`, unlike the tasks of the GPU op and of decoding (encode_flags_refuted). On the GPU `is_jpeg` computes all its tests whatever the size, so an empty image, and the single byte 0xff, are read out of bounds, in the variant without exceptions too (jpeg_refuted). A failed image is `None` from the CPU op and an uninitialised 8 by 8 image from the GPU op (decode_cpu_flags, decode_gpu_flags).
* C138 `"{}".format(None)` is "nullptr", `"{}".format(True)` is "1" (none_refuted), bytes are inserted without quotes, and bytes that end in the middle of a character swallow the text that follows, since the whole result is decoded at the end (bytes_refuted).
* C139 `LookupFuncRegistryName` still reads the old format of the registry: it takes the first byte, now a decimal digit, for the number of names and the rest of the digits for the first name. The index it gives is one too large for every function (lookup_refuted), so a function object keeps the next function of the library, or for the last function whatever lies behind the array (single_refuted); from about the 50th function on, the name is not found at all. It is used when a function object is called as a value; the op of a pipeline takes its function from the module, which is right (library_get). Separately, method `m` of class `A__F` and method `_F_m` of class `A` get the same C++ name (names_refuted), and a method `__init___wrapper` is missing from its object (wrapper_refuted).
* C140 `SetSchedulingThreads` and `SetOpComputeThreads` remove the op of the pool from the cache of the session name before they make a new one, also when the session does not share, so two sessions never use one pool (share_refuted). A session that shares and is followed by another one of its name has after a fork the other's number of threads (count_refuted), or, if the other does not share (the default), no pool at all but an executor made from a null pool (lost_refuted). A session made with the pool disabled keeps the default number in its options and gets a pool of two threads at the first fork (off_refuted). A rejected number of threads stays in the options and is used at the next fork (rejected_refuted). The op of a closed session keeps its pool running through a fork if another session of the name exists (quiet_refuted). `unregister_at_fork` removes the last task when the handle is not registered (unregister_refuted); sessions do not call it that way.
