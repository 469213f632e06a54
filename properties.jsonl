{"id": "C01", "title": "Integer floor division and modulo obey Python's law", "statement": "For 64-bit integers a and b != 0 (other than the single overflowing pair INT64_MIN // -1), `a // b` and `a % b` satisfy a == (a // b) * b + a % b, and a % b is 0 or has the sign of b with |a % b| < |b|; no intermediate machine operation overflows in a way that changes the result. b == 0 raises ZeroDivisionError for both.", "quantifier": "all pairs of 64-bit signed integers (2^128 pairs), including INT64_MIN and mixed signs", "why_tests_cant": "The domain has 2^128 pairs and the implementation computes on unsigned absolute values with wrap-around, where mistakes only show at boundary values; tests sample.", "anchors": ["src/runtime/builtins_modules/_longobject.cc: fast_mod_i64_i64, fast_floor_div_i64_i64"]}
{"id": "C02", "title": "Compiler constant folding preserves integer expression values", "statement": "When the compiler folds or simplifies an arithmetic/comparison/logical expression at construction time, the replacement evaluates to the same value as the original expression would at run time, for every assignment of the free variables for which the original is defined, and does not make a raising expression stop raising.", "quantifier": "all binary operators handled by the folder, all operand expressions, all variable assignments", "why_tests_cant": "The rewrite must be right for every operand value (0, 1, negative, overflow); tests only check selected rewrites syntactically.", "anchors": ["src/ir/const_fold.h: TryConstFold", "src/ir/prim_ops.cc: add, floordiv, logic_and"]}
{"id": "C03", "title": "Extended gcd returns the gcd and valid Bezout coefficients", "statement": "ExtendedEuclidean(a, b) terminates, returns gcd(|a|, |b|) up to sign handling of the code, and sets x, y with x*a + y*b equal to the returned value; LeastCommonMultiple(a, b) is the least common multiple for positive arguments and ZeroAwareGCD treats 0 as neutral.", "quantifier": "all integer pairs in the non-overflowing range", "why_tests_cant": "Loop invariant of unbounded iteration count; tests sample pairs.", "anchors": ["src/ir/int_operator.h: ExtendedEuclidean, ZeroAwareGCD, LeastCommonMultiple"]}
{"id": "C04", "title": "Overflow predicates are exact", "statement": "WillOverflow reports true for an add/sub/mul exactly when the mathematical result lies outside the [min, max] range given, and for division/modulo exactly when the divisor is zero.", "quantifier": "all operand pairs and all ranges containing zero in the middle (min < 0 < max)", "why_tests_cant": "Exactness is an iff over an unbounded numeric domain, tests only sample.", "anchors": ["src/ir/int_operator.h: WillOverflow"]}
{"id": "C05", "title": "Slices select exactly the elements Python selects", "statement": "For every list/str/bytes of length n and every begin, end and step > 0, `s[begin:end:step]` is the sequence of s[i] for i = b, b+step, ... < e where b, e are begin, end normalised and clamped by Python's rules, and no position outside the sequence is touched.", "quantifier": "all sequences of any length, all 64-bit begin/end (negative, huge), all positive steps", "why_tests_cant": "Clamping arithmetic must hold at every boundary and length; tests sample.", "anchors": ["include/matxscript/runtime/container/container_slice_helper.h: slice_index_correction, index_correction", "src/runtime/container/list_ref.cc: List::get_slice", "src/runtime/container/string_helper.cc: GetSlice", "src/runtime/container/unicode_helper.cc: get_slice"]}
{"id": "C06", "title": "List operations refine the Python list model", "statement": "Any history of append/extend/insert/pop/remove/reverse/set_item/set_slice/index/count/repeat/concat/clear on a List yields the same contents, return values and errors as the same history on a mathematical sequence (Python semantics).", "quantifier": "all histories of operations with all arguments", "why_tests_cant": "Unit tests run fixed histories; the claim quantifies over all histories and index values.", "anchors": ["src/runtime/container/list_ref.cc", "include/matxscript/runtime/container/list_private.h"]}
{"id": "C07", "title": "list.sort returns a sorted permutation for every comparator that is a strict weak order", "statement": "Sorting any list with a comparator that is a strict weak order terminates, never reads or writes outside the list, and leaves a permutation of the original that is non-decreasing.", "quantifier": "all list lengths and contents and all strict weak orders", "why_tests_cant": "Pattern-defeating quicksort has unguarded loops that rely on sentinels left by earlier partitions, plus a heap-sort fallback reached only by adversarial inputs; tests rarely reach them.", "anchors": ["include/matxscript/runtime/_pdqsort.h", "src/runtime/container/list_helper.cc: ListSort", "src/runtime/container/list_ref.cc: List::sort"]}
{"id": "C08", "title": "list.sort(reverse=True) is memory safe and sorts in descending order", "statement": "list.sort(reverse=True) (and with a key) never accesses memory outside the list and leaves the elements in non-increasing order, in particular when many elements compare equal.", "quantifier": "all lists, including lists of 24 or more equal elements", "why_tests_cant": "Failure needs a long list with ties and shows as an out-of-bounds read, which tests need not notice.", "anchors": ["src/runtime/container/list_ref.cc: List::sort", "src/runtime/container/list_helper.cc", "include/matxscript/runtime/_pdqsort.h: partition_right, unguarded_insertion_sort"]}
{"id": "C09", "title": "heapq helpers agree on one heap order", "statement": "heapify(h) establishes the heap invariant that heapreplace and heappushpop rely on: after heapify and any sequence of these calls each returns the smallest element (of the heap, or of heap plus item), the invariant is kept, and the contents are the multiset of inserted minus removed elements.", "quantifier": "all heaps and all histories of heap calls", "why_tests_cant": "Invariant over unbounded histories.", "anchors": ["src/runtime/container/list_helper.cc: Heapify, ShiftDown, HeapReplace, HeapPushPop"]}
{"id": "C10", "title": "UTF-8 round trip", "statement": "Decoding the UTF-8 encoding of any str gives back the same str (code points up to U+10FFFF), so `s.encode().decode() == s`.", "quantifier": "all finite sequences of code points 0..0x10FFFF", "why_tests_cant": "1.1 million code points times all sequences (adjacency matters for a greedy decoder).", "anchors": ["src/runtime/utf8/utf8_greedy_encoder.cc", "src/runtime/utf8/utf8_greedy_table_decoder.cc", "include/matxscript/runtime/utf8/utf8_greedy_table_decoder.h", "src/runtime/utf8_util.cc"]}
{"id": "C11", "title": "UTF-8 decoding is total, bounded and consistent with its length count", "statement": "Decoding any byte string terminates without reading past the input, consumes at least one byte per produced character, and the code-point count computed in advance (used to size the output buffer) equals the number of code points the conversion actually writes.", "quantifier": "all byte strings, valid or not", "why_tests_cant": "Buffer sizing must agree with conversion on every malformed input; tests use a handful.", "anchors": ["src/runtime/utf8/utf8_greedy_table_decoder.cc: CountUnitSize, Convert", "include/matxscript/runtime/utf8/utf8_greedy_table_decoder.h"]}
{"id": "C12", "title": "UTF-8 decoding replaces malformed bytes without losing well-formed text around them", "statement": "When decoding malformed input, every well-formed character of the input outside the malformed sequence appears in the output (U+FFFD stands for the malformed bytes only), and overlong or out-of-range sequences are never decoded into ordinary characters.", "quantifier": "all byte strings", "why_tests_cant": "Ranges over all malformed inputs.", "anchors": ["src/runtime/utf8/utf8_greedy_table_decoder.cc: Convert"]}
{"id": "C13", "title": "find/rfind return the first/last occurrence", "statement": "bytes/str find returns the least index at which the needle occurs inside [start, end), rfind the greatest, and -1 exactly when there is none, with Python's negative-index normalisation of start/end.", "quantifier": "all haystacks, needles, start/end values", "why_tests_cant": "Search loops with quantified minimality; tests sample.", "anchors": ["src/runtime/container/string_view.cc: find, rfind", "src/runtime/container/string_helper.cc: Find", "src/runtime/container/unicode_view.cc", "src/runtime/container/unicode_helper.cc"]}
{"id": "C14", "title": "count counts non-overlapping occurrences within the range", "statement": "s.count(x, start, end) terminates and equals the number of non-overlapping occurrences of x found scanning s[start:end] left to right.", "quantifier": "all s, x, start, end", "why_tests_cant": "Quantifies over all inputs including termination for the empty needle.", "anchors": ["src/runtime/container/string_helper.cc: Count", "src/runtime/container/unicode_helper.cc: Count"]}
{"id": "C15", "title": "replace substitutes every non-overlapping occurrence and nothing else", "statement": "s.replace(old, new, count) terminates and equals s with the first `count` (all, if negative) non-overlapping left-to-right occurrences of old replaced by new.", "quantifier": "all s, old, new, count", "why_tests_cant": "Quantifies over all inputs including termination.", "anchors": ["src/runtime/container/string_helper.cc: Replace", "src/runtime/container/unicode_helper.cc: Replace"]}
{"id": "C16", "title": "split by separator is inverted by join", "statement": "sep.join(s.split(sep)) == s for every s and non-empty sep, no piece contains sep, and with maxsplit at most maxsplit splits are made.", "quantifier": "all strings, separators and maxsplit values", "why_tests_cant": "Round trip over all strings.", "anchors": ["src/runtime/container/string_helper.cc: Split, Join", "src/runtime/container/unicode_helper.cc: Split, Join"]}
{"id": "C17", "title": "strip removes exactly the maximal prefix/suffix of the given characters", "statement": "lstrip/rstrip/strip return the substring of s left after removing the longest prefix/suffix made of the given characters.", "quantifier": "all strings and character sets", "why_tests_cant": "Maximality over all inputs.", "anchors": ["src/runtime/container/string_helper.cc: LStrip, RStrip, Strip", "src/runtime/container/unicode_helper.cc"]}
{"id": "C18", "title": "startswith/endswith decide prefix/suffix of the slice", "statement": "s.startswith(p, start, end) is True iff s[start:end] begins with p (and likewise endswith) with Python index normalisation.", "quantifier": "all strings, affixes and ranges", "why_tests_cant": "iff over all inputs.", "anchors": ["src/runtime/container/string_helper.cc: StartsWith, EndsWith", "src/runtime/container/unicode_helper.cc"]}
{"id": "C19", "title": "Whitespace split yields exactly the maximal non-blank runs", "statement": "s.split() returns, in order, the maximal runs of non-whitespace characters: no piece is empty or contains whitespace, and joining the pieces gives s with whitespace deleted.", "quantifier": "all strings", "why_tests_cant": "All inputs.", "anchors": ["src/runtime/container/string_helper.cc: Split", "src/runtime/container/unicode_helper.cc: Split"]}
{"id": "C20", "title": "base64 decoding inverts encoding", "statement": "b64decode(b64encode(x)) == x for every byte string, the encoded text has length 4*ceil(n/3) and only alphabet characters plus trailing padding, and decoding never writes outside its buffer.", "quantifier": "all byte strings of any length", "why_tests_cant": "All byte strings; group/padding cases by length mod 3 for every byte value.", "anchors": ["src/runtime/builtins_modules/_base64_util.cc"]}
{"id": "C21", "title": "msgpack deserialisation inverts serialisation", "statement": "unpacking the packed form of any value built from None, 64-bit ints, floats, bytes, str, lists and dicts (nesting within the limit) returns an equal value, at every size-class boundary (fixint/8/16/32/64, fixstr/8/16/32, fixarray/16/32, fixmap/16/32).", "quantifier": "all nested values, all lengths below 2^32", "why_tests_cant": "Recursion and size-class boundaries (65536-element containers); tests sample.", "anchors": ["src/runtime/msgpack/msgpack.cc", "src/runtime/msgpack/pack_template.h", "src/runtime/msgpack/unpack_template.h", "src/runtime/msgpack/unpack.h"]}
{"id": "C22", "title": "msgpack decoding is safe on arbitrary bytes", "statement": "Unpacking any byte string terminates, never reads past the end of the input, and either returns a value or raises; a strict prefix of a valid encoding always raises and trailing bytes always raise.", "quantifier": "all byte strings", "why_tests_cant": "Adversarial inputs; all truncation points.", "anchors": ["src/runtime/msgpack/unpack_template.h: unpack_execute", "src/runtime/msgpack/msgpack.cc"]}
{"id": "C23", "title": "dtype strings round trip", "statement": "Parsing the printed name of any data type (code, bits, lanes) yields the same data type.", "quantifier": "all type codes int/uint/float/bfloat/handle/bool/void and all bits and lanes representable", "why_tests_cant": "All 2^24 bits/lanes combinations, decimal printing/parsing of any value.", "anchors": ["src/runtime/data_type.cc: String2DLDataType, operator<<, DLDataType2String"]}
{"id": "C24", "title": "Escaped string literals denote the original bytes", "statement": "The text produced by escaping a byte string for a double-quoted C literal, when read back by the C escape rules, denotes exactly the original bytes; hence escaping is injective and its output contains no unescaped quote, backslash or control byte.", "quantifier": "all byte strings (including a \\x escape followed by a hex digit)", "why_tests_cant": "Adjacency issues (maximal munch of hex escapes) quantify over all pairs of neighbouring bytes.", "anchors": ["src/runtime/str_escape.cc: BytesEscape, UnicodeEscape"]}
{"id": "C25", "title": "Dict behaves as a finite map", "statement": "After any history of set/get/pop/clear/contains/reserve/len on a Dict, every observation equals that of a mathematical finite map under key equality, including through growth, displacement and backward-shift deletion; iteration visits each entry exactly once.", "quantifier": "all histories, all keys, all hash functions (including adversarial collisions up to the growth bound)", "why_tests_cant": "Robin Hood displacement chains, growth during insertion and deletion shifts occur only for particular hash layouts.", "anchors": ["include/matxscript/runtime/container/_flat_hash_map.h: sherwood_v3_table", "include/matxscript/runtime/container/dict_private.h", "src/runtime/container/dict_ref.cc"]}
{"id": "C26", "title": "Dict construction keeps the last value of a duplicate key", "statement": "Building a Dict from a sequence of pairs gives each key the value of its last occurrence (as Python's dict does).", "quantifier": "all pair sequences", "why_tests_cant": "All sequences with duplicates.", "anchors": ["src/runtime/container/dict_ref.cc: Dict::Dict", "include/matxscript/runtime/container/dict_private.h"]}
{"id": "C27", "title": "Set operations are mathematical set operations", "statement": "add/discard/union/difference/update/difference_update/contains/len/== on Set agree with the mathematical set operations for any history.", "quantifier": "all histories and arguments", "why_tests_cant": "All histories.", "anchors": ["src/runtime/container/set_ref.cc", "include/matxscript/runtime/container/set_private.h"]}
{"id": "C28", "title": "Equal keys hash equally", "statement": "If two hashable values compare equal then they have the same hash, so that dict/set lookup finds them; equality is an equivalence relation.", "quantifier": "all pairs/triples of hashable values (ints, floats, strings, tuples)", "why_tests_cant": "Pairs of values; floating-point tolerance makes it fail only for special neighbours.", "anchors": ["src/runtime/runtime_value.cc: Any::Hash", "include/matxscript/runtime/generic/generic_hlo_arith_funcs.h: ArithOps::eq", "include/matxscript/runtime/_almost_equal.h", "src/runtime/py_commons/pyhash.cc"]}
{"id": "C29", "title": "ParallelFor splits the input into an exact partition", "statement": "For every input size, group size dividing it and thread count, the tasks produced by ParallelFor are consecutive, disjoint, cover every index exactly once, are each a multiple of the group size, and there are at most `threads` of them.", "quantifier": "all input sizes, group sizes, thread counts", "why_tests_cant": "The last-step adjustment uses a divisibility trick that must work for every (n, g, T).", "anchors": ["src/runtime/threadpool/thread_pool_executor.cc: ParallelForImpl"]}
{"id": "C30", "title": "Parallel map gives the sequential result under every schedule", "statement": "ParallelFor/ParallelStarMap over a list returns, for every interleaving of worker threads, the list of op(x) in input order.", "quantifier": "all inputs, thread counts and all interleavings of task steps", "why_tests_cant": "Schedules cannot be enumerated by tests.", "anchors": ["src/runtime/threadpool/thread_pool_executor.cc", "src/runtime/threadpool/lock_based_thread_pool.cc"]}
{"id": "C31", "title": "The lock-based pool runs every submitted task exactly once", "statement": "Under every interleaving of submitters, workers and shutdown, each task enqueued before shutdown completes is executed exactly once, tasks are started in FIFO order, and no worker exits while tasks remain queued.", "quantifier": "all numbers of workers, submission histories and interleavings", "why_tests_cant": "All schedules.", "anchors": ["src/runtime/threadpool/lock_based_thread_pool.cc"]}
{"id": "C32", "title": "The lock-free pool does not lose tasks at shutdown", "statement": "Every task accepted by the lock-free pool is executed before the pool is destroyed, so waiting on it terminates.", "quantifier": "all interleavings of enqueue, dequeue and stop", "why_tests_cant": "Race window of two instructions.", "anchors": ["src/runtime/threadpool/lock_free_thread_pool.cc: ThreadEntry", "src/runtime/threadpool/lock_free_thread_pool.h"]}
{"id": "C33", "title": "The bounded MPMC queue neither loses, duplicates nor reorders items", "statement": "For any number of producers and consumers and any interleaving, the items dequeued are exactly a prefix (by ticket order) of the items enqueued, each delivered once, and a slot is never overwritten before it is consumed.", "quantifier": "all capacities, thread counts and interleavings of the atomic steps", "why_tests_cant": "All schedules of a lock-free algorithm.", "anchors": ["src/runtime/threadpool/mpmc_bounded_queue.h"]}
{"id": "C34", "title": "Pipeline nodes are ordered topologically", "statement": "The node order computed for a traced pipeline contains every node reachable from the outputs exactly once and every node after all of its inputs.", "quantifier": "all finite acyclic dataflow graphs", "why_tests_cant": "All graph shapes.", "anchors": ["src/pipeline/graph.cc: Graph::topo_sort, dfs_visit"]}
{"id": "C35", "title": "Parallel levels respect dependencies and cover all nodes", "statement": "BuildRunNodes splits the nodes into levels such that each non-variable node is in exactly one level, all its inputs are variables or in strictly earlier levels, and it fails exactly when no such layering exists.", "quantifier": "all graphs (including cyclic or dangling)", "why_tests_cant": "All graph shapes.", "anchors": ["src/pipeline/tx_session.cc: BuildRunNodes"]}
{"id": "C36", "title": "Multi-threaded session run equals serial run", "statement": "For every acyclic pipeline of deterministic ops, every thread count, every chunking and every interleaving inside a level, TXSession's multi-threaded run returns the same outputs as the serial run.", "quantifier": "all graphs, thread counts, interleavings", "why_tests_cant": "All schedules and graphs.", "anchors": ["src/pipeline/tx_session.cc: RunImpl, RunImplMultiThread, TXSessionRunOneNode"]}
{"id": "C37", "title": "Live-variable analysis is the least sound solution and terminates", "statement": "The computed live-out set of each basic block contains exactly the variables for which some control-flow path from the block's end reaches a use before a redefinition, and the iteration terminates.", "quantifier": "all control-flow graphs", "why_tests_cant": "Paths are unbounded; all graphs.", "anchors": ["python/matx/cfg/model.py: Block.recompute_live_out_var", "python/matx/cfg/builder.py: CFG.compute_live_out_var, CFG.init_var_life_info"]}
{"id": "C38", "title": "Reaching definitions are exact", "statement": "The computed IN/OUT sets contain exactly the definitions that reach the block along some path without being killed, and the worklist terminates.", "quantifier": "all control-flow graphs", "why_tests_cant": "Paths are unbounded.", "anchors": ["python/matx/cfg/builder.py: CFG.compute_reaching_defines"]}
{"id": "C39", "title": "Dominators are exact", "statement": "For each block reachable from the function entry the computed dominator set is exactly the set of blocks on every path from the entry to it.", "quantifier": "all control-flow graphs", "why_tests_cant": "All paths, all graphs.", "anchors": ["python/matx/cfg/model.py: ScopeBlock.fill_dominates"]}
{"id": "C40", "title": "The control-flow graph over-approximates every execution", "statement": "Every execution of a function body (sequence, if, while, for, break, continue, return, try/except) follows a path of the constructed control-flow graph.", "quantifier": "all programs, all executions", "why_tests_cant": "All programs and executions.", "anchors": ["python/matx/cfg/builder.py: CFG.build_*"]}
{"id": "C41", "title": "Broadcast shape agrees with NumPy", "statement": "broadcast(shape1, shape2) returns the NumPy broadcast shape whenever NumPy accepts the pair, and raises otherwise.", "quantifier": "all pairs of shapes", "why_tests_cant": "All ranks and dimension values.", "anchors": ["python/matx/kernel/typing/broadcast.py", "python/matx/kernel/typing/utils.py"]}
{"id": "C42", "title": "Element-wise fusion preserves kernel results", "statement": "Fusing two adjacent element-wise operators produces an operator graph whose outputs equal those of the original graph for every input.", "quantifier": "all graphs and inputs", "why_tests_cant": "All graphs and inputs.", "anchors": ["python/matx/kernel/graphIR/graph_pass/fuse_element_wise.py"]}
{"id": "C43", "title": "Tracing cost is proportional to the graph", "statement": "Tracing a pipeline visits each node a number of times bounded by the size of the graph.", "quantifier": "all dataflow graphs", "why_tests_cant": "Growth rates need all sizes.", "anchors": ["src/pipeline/graph.cc: Graph::dfs_visit"]}
{"id": "C44", "title": "Running a pipeline leaves the fed values unchanged", "statement": "A session run does not modify the objects passed as inputs, so running again with the same inputs gives the same outputs.", "quantifier": "all pipelines, inputs and operators", "why_tests_cant": "All operators and aliasing patterns.", "anchors": ["src/pipeline/tx_session.cc: TXSessionRunOneNode", "src/runtime/container/tuple_ref.cc: Tuple::operator[]"]}
{"id": "C45", "title": "Operator names and entry keys are unique", "statement": "Within a process no two calls of gen_uniq_name return the same name and no two calls of gen_uniq_signature return the same signature, for any prefixes and seeds; the signature generator returns as long as fewer than 2^32 signatures exist.", "quantifier": "all call histories", "why_tests_cant": "All histories and all hash collisions.", "anchors": ["include/matxscript/pipeline/global_unique_index.h"]}
{"id": "C46", "title": "msgpack writes integers in the shortest form", "statement": "No byte string that deserialises to a given integer is shorter than the serialised form of that integer.", "quantifier": "all 64-bit integers and all byte strings", "why_tests_cant": "Compares with every other encoding; tests fix a few expected bytes.", "anchors": ["src/runtime/msgpack/pack_template.h: msgpack_pack_real_int64", "src/runtime/msgpack/unpack_template.h"]}
{"id": "C47", "title": "list.sort keeps the order of elements that compare equal", "statement": "As in Python, xs.sort() and xs.sort(key=f), with or without reverse=True, leave elements with equal keys in their original order.", "quantifier": "all lists, keys and lengths", "why_tests_cant": "Instability shows only on long lists with ties at particular positions.", "anchors": ["src/runtime/container/list_ref.cc: List::sort", "include/matxscript/runtime/_pdqsort.h"]}
{"id": "C48", "title": "Kernel integer arithmetic agrees with NumPy", "statement": "In a kernel, +, -, *, // and % on scalars and elements of integer types give NumPy's result in NumPy's result type.", "quantifier": "all pairs of integer types, widths and values", "why_tests_cant": "The values at which intermediate results overflow are a vanishing part of the domain.", "anchors": ["python/matx/kernel/codegen/graph_ir_printer.py", "python/matx/kernel/graphIR/ops.py"]}
{"id": "C49", "title": "Kernel comparisons and not agree with Python", "statement": "In a kernel, <, <=, >, >=, ==, != on numbers of one type and not give the truth values Python gives.", "quantifier": "all comparison operators, types and values, NaN included", "why_tests_cant": "All values of all types.", "anchors": ["python/matx/kernel/codegen/graph_ir_printer.py"]}
{"id": "C50", "title": "Kernel conversions between integer types agree with NumPy", "statement": "When a kernel converts a value from one integer or boolean type to another, the result is the one NumPy's astype gives.", "quantifier": "all pairs of types and values", "why_tests_cant": "All pairs of types and values.", "anchors": ["python/matx/kernel/codegen/graph_ir_printer.py"]}
{"id": "C51", "title": "Trie updates never disturb other keys", "statement": "After any sequence of update(key, index) calls on a Trie with non-empty keys without NUL, exactly the keys of these calls are stored, and each has the sum (in 32 bits) of the indices given for it, in whatever order and number the calls came.", "quantifier": "all histories of updates, keys and indices", "why_tests_cant": "A double-array trie moves nodes when keys collide; the layouts depend on the whole history.", "anchors": ["include/matxscript/runtime/algorithm/cedar.h: update, _follow, _resolve, _pop_enode, _push_enode, _find_place", "src/runtime/algorithm/trie_private.cc: TrieNode::Update"]}
{"id": "C52", "title": "Trie prefix search finds exactly the stored prefixes", "statement": "prefix_search(w, pos) returns the length and index of the longest stored key that is a prefix of w[pos:], or (0, -1); prefix_search_all(w, pos) returns all of them, shortest first. Lengths are in characters for str and in bytes for bytes.", "quantifier": "all tries, texts and positions", "why_tests_cant": "All sets of keys and texts.", "anchors": ["include/matxscript/runtime/algorithm/cedar.h: _find, commonPrefixSearch", "src/runtime/algorithm/trie_private.cc: PrefixSearch, PrefixSearchAll", "python/matx/runtime/trie.py"]}
{"id": "C53", "title": "Copying a parameter leaves it usable", "statement": "In a compiled function, `v = p` or `self.a = p` for a parameter p stores p's value and leaves p naming the same object for the rest of the body, so the function returns and does what the source says.", "quantifier": "all straight-line bodies, parameter lists, arguments and operators", "why_tests_cant": "The wrong value appears only for particular orders of uses of two parameters; all bodies.", "anchors": ["src/codegen/assign_optimizer.h", "src/codegen/codegen_c_host.cc: VisitStmt_(FunctionNode)"]}
{"id": "C54", "title": "A parameter names the object passed at the call", "statement": "Throughout the body of a compiled function a parameter that is not assigned names the object passed at the call, whatever the body and the functions it calls do to the caller's variables and attributes.", "quantifier": "all bodies with branches and loops, arguments and operators", "why_tests_cant": "All aliasing patterns between arguments and the attributes a callee may rebind.", "anchors": ["src/codegen/func_args_optimizer.h", "src/codegen/codegen_c.cc: PrintType(RefType)"]}
{"id": "C55", "title": "NDArray views address the elements NumPy's views address", "statement": "a[i], a[b:e:s], transpose, reshape, squeeze, unsqueeze and any chain of them give an array of the shape NumPy gives, each element of which is the very element of the original that NumPy's view shows; they raise where NumPy raises.", "quantifier": "all arrays with any strides and offsets, all operations and arguments, chains of any length", "why_tests_cant": "Shapes, strides, offsets and chains are unbounded; a wrong stride shows only through a particular chain.", "anchors": ["src/runtime/container/ndarray.cc: get_item, get_slice, transpose, reshape, squeeze, unsqueeze"]}
{"id": "C56", "title": "NDArray operations stay inside their buffers", "statement": "No program that builds arrays from lists, takes views, copies, converts, computes, joins and assigns reads or writes outside the memory of an array.", "quantifier": "all programs of any length over any number of arrays", "why_tests_cant": "All combinations of aliasing views, strides and shapes.", "anchors": ["src/runtime/container/ndarray.cc", "src/runtime/container/ndarray_helper.cc", "src/runtime/generic/generic_constructor_funcs.cc: Kernel_NDArray::make"]}
{"id": "C57", "title": "Copies and conversions of NDArrays keep the elements", "statement": "to_list, iteration, contiguous and as_type of any view give its elements in index order and leave all arrays unchanged; two arrays are equal exactly if shape, type and elements are.", "quantifier": "all arrays and views", "why_tests_cant": "All shapes, strides and offsets.", "anchors": ["src/runtime/container/ndarray.cc: ToList, Contiguous, as_type, operator==", "src/runtime/container/ndarray.h: iterators"]}
{"id": "C58", "title": "NDArray assignment changes exactly the addressed elements", "statement": "a[i] = v, a[i][j]... = v and a[b:e] = v store the elements of v at the indices NumPy's indexing addresses and leave every other element of every array as it was; they raise if the shapes differ or an index is out of range.", "quantifier": "all arrays, views, indices and right-hand sides", "why_tests_cant": "All aliasing views and strides; the frame condition speaks about all other memory.", "anchors": ["src/runtime/container/ndarray.cc: set_item, set_slice, fused_set_item, set_item_helper, Assign"]}
{"id": "C59", "title": "NDArray arithmetic broadcasts like NumPy", "statement": "a op b and a op number have NumPy's broadcast shape, and each element is the operator applied to the elements NumPy pairs, for operands with any strides and offsets; it raises exactly if the shapes do not broadcast, and changes no existing array.", "quantifier": "all shapes, strides, offsets and operators", "why_tests_cant": "All pairs of shapes and layouts.", "anchors": ["src/runtime/container/ndarray_helper.cc", "include/matxscript/runtime/container/ndarray_helper.h"]}
{"id": "C60", "title": "concatenate and stack place every element where NumPy does", "statement": "concatenate(arrays, axis) and stack(arrays, axis) have NumPy's shape and put each element of each array at the index NumPy puts it, converted to the element type of the first array; they raise exactly for no arrays, an axis out of range and shapes that do not match, and change no existing array.", "quantifier": "all numbers of arrays, shapes, layouts and axes", "why_tests_cant": "All numbers, shapes and strides of the arrays.", "anchors": ["src/runtime/container/ndarray_helper.cc: Concatenate, Stack"]}
{"id": "C61", "title": "NDArray construction reproduces the nested list", "statement": "NDArray(list, shape, dtype) has the shape of the nested list and its numbers at the same indices, a flat list is laid out in the given shape, one number fills it; a ragged list, a list with other things than numbers and a shape that does not fit raise; to_list gives the list back.", "quantifier": "all nested lists, shapes and types", "why_tests_cant": "All nestings and lengths; a ragged list may differ anywhere.", "anchors": ["src/runtime/generic/generic_constructor_funcs.cc: Kernel_NDArray::make", "include/matxscript/runtime/container/list_helper.h"]}
{"id": "C62", "title": "A compiled function does what Python does with its source", "statement": "A function of assignments, expressions, conditionals, loops, assertions, exceptions and returns that the compiler accepts returns the same value or raises the same exception as Python, with the same effects on the objects it uses in the same order, and terminates when Python terminates.", "quantifier": "all functions over any operations, arguments and initial states, nesting and iteration counts unbounded", "why_tests_cant": "All programs; a wrong translation shows only in particular combinations of constructs and effects.", "anchors": ["python/matx/script/parser.py", "python/matx/script/transforms/if_bool.py", "python/matx/script/analysis/syntax_check.py", "src/codegen/codegen_c.cc", "src/codegen/codegen_c_host.cc"]}
{"id": "C63", "title": "and / or evaluate the right operand only when needed", "statement": "x and y evaluates y only if x is true, x or y only if x is false; the value is that of the last operand evaluated.", "quantifier": "all operands and effects", "why_tests_cant": "All operand expressions; tests use operands without effects, on which eager evaluation is invisible.", "anchors": ["python/matx/script/parser.py: visit_BoolOp", "python/matx/ir/generic.py: op_and, op_or", "include/matxscript/runtime/generic/generic_hlo_arith_funcs.h: And, Or"]}
{"id": "C64", "title": "Comparison chains evaluate each operand once and all links count", "statement": "a < b <= c is a < b and b <= c with b evaluated once, c only if the first comparison holds; the same for links with in and not in.", "quantifier": "all chains of all lengths, operands and effects", "why_tests_cant": "All lengths and operand expressions.", "anchors": ["python/matx/script/parser.py: visit_Compare", "python/matx/ir/op.py: builtins_all"]}
{"id": "C65", "title": "Augmented assignment evaluates its target once and works in place", "statement": "a[i()] += e evaluates a and i() once, and x += e changes the object x names where its type supports this, so other names of the object see the change.", "quantifier": "all targets, operators and values", "why_tests_cant": "All target expressions and aliases.", "anchors": ["python/matx/script/parser.py: visit_AugAssign"]}
{"id": "C66", "title": "Tuple assignment assigns simultaneously", "statement": "a, b = e1, e2 evaluates all right-hand sides before it assigns any target, from left to right; a, b = e reads e once and raises ValueError if it does not have two items.", "quantifier": "all targets and right-hand sides", "why_tests_cant": "All overlaps between targets and right-hand sides.", "anchors": ["python/matx/script/parser.py: visit_Assign"]}
{"id": "C67", "title": "for over range runs the iterations of Python's range", "statement": "for i in range(a, b, s) runs the body for exactly the numbers of range(a, b, s) evaluated once before the loop, whatever the body assigns; s = 0 raises ValueError.", "quantifier": "all bounds, steps and bodies", "why_tests_cant": "All integers and bodies that assign to the bounds or the loop variable.", "anchors": ["python/matx/script/parser.py: visit_For", "src/codegen/codegen_c.cc: VisitStmt_(ForNode)"]}
{"id": "C68", "title": "Unsupported statements are rejected", "statement": "A function with a construct that has no translation (else of a loop or try, finally, except with a type) is rejected with an error and not compiled without it.", "quantifier": "all functions and nestings", "why_tests_cant": "All nestings.", "anchors": ["python/matx/script/analysis/syntax_check.py"]}
{"id": "C69", "title": "An accepted function never reads an unassigned variable", "statement": "In a function the compiler accepts, no run reads a local variable before it has been assigned.", "quantifier": "all functions, arguments and paths", "why_tests_cant": "All paths through all programs.", "anchors": ["python/matx/script/parser.py: visit_Name, lookup_or_alloca", "python/matx/script/context/scope_context.py"]}
{"id": "C70", "title": "Strings are values", "statement": "Whatever sequence of constructions, copies, moves, views, assignments, appends, inserts of other text, erasures, replacements, resizings and item assignments is applied to str or bytes variables, with positions inside the strings, each variable holds the characters it would hold if every variable had its own; changing one never changes another.", "quantifier": "all programs of any length over any number of variables, contents and sizes, and all size limits and allocation sizes", "why_tests_cant": "Long strings share buffers; a missed copy shows only for particular sizes and histories of sharing.", "anchors": ["include/matxscript/runtime/container/string_core.h", "src/runtime/container/string.cc", "src/runtime/container/unicode.cc"]}
{"id": "C71", "title": "String storage is safe and given back", "statement": "No such program reads or writes outside a string's storage or after it was freed, or frees it twice; every buffer belongs to a variable, and none is left when the last variable has gone.", "quantifier": "all programs of any length over any number of variables", "why_tests_cant": "A leak or a double free depends on the exact history of reference counts.", "anchors": ["include/matxscript/runtime/container/string_core.h: RefCounted, MediumBuffer", "src/runtime/container/string.cc"]}
{"id": "C72", "title": "c_str() is terminated", "statement": "data() of a str or bytes is followed by a null character, as c_str() promises to C callers.", "quantifier": "all programs and variables", "why_tests_cant": "The cell after the characters depends on how the string came to be.", "anchors": ["include/matxscript/runtime/container/string_core.h: c_str, MoveFromCHost, setSmallSize"]}
{"id": "C73", "title": "Strings accept parts of themselves as arguments", "statement": "append, assign, replace and insert with a view of the string itself use the characters it had before the call.", "quantifier": "all strings, parts and positions", "why_tests_cant": "Whether the storage moves between reading the size and reading the argument depends on sizes and capacities.", "anchors": ["src/runtime/container/string.cc: append, assign, replace, insert"]}
{"id": "C74", "title": "Building a string by appending takes linear time", "statement": "Appending pieces one after the other to an empty string moves at most three characters per character of the result; after reserve(n), appending up to n characters moves none.", "quantifier": "all sequences of pieces, sizes and capacities", "why_tests_cant": "A statement about all lengths; timing tests cannot separate it from allocator noise.", "anchors": ["include/matxscript/runtime/container/string_core.h: expandNoinit, reserve"]}
{"id": "C75", "title": "Reading a file by lines gives its lines", "statement": "readline(), readlines() and `for line in f` give exactly the lines of the file, in order, each once and with its line end; the native operators that load a vocabulary get the same lines without their ends.", "quantifier": "all files, line lengths and sizes, and all ways in which the system delivers a file", "why_tests_cant": "The result depends on where line ends fall relative to an 8 MiB buffer and on how much each system call delivers.", "anchors": ["src/runtime/file_reader.cc: ReadLine, readLineFromBuffer", "src/runtime/container/file_private.cc: ReadLineString, NextView, ReadLines", "src/codegen/codegen_c.cc: VisitStmt_(AutoForNode)", "src/pipeline/op_kernel.cc"]}
{"id": "C76", "title": "read(n) gives the next n bytes or characters", "statement": "read(n) returns the next n bytes (characters for a text file) or what is left, read() the rest; calls of readline, readlines and read in any order continue where the previous call stopped, so that nothing is lost or returned twice.", "quantifier": "all files, sizes and sequences of calls", "why_tests_cant": "Sequences and sizes are unbounded; characters may straddle any boundary.", "anchors": ["src/runtime/file_reader.cc: Read", "src/runtime/container/file_private.cc: ReadUnicode, ReadString"]}
{"id": "C77", "title": "Reading a file stays inside the buffer", "statement": "No sequence of reading calls on a file accesses memory outside the reader's buffer or a buffer that was given back.", "quantifier": "all files, buffer sizes, sequences of calls and deliveries by the system", "why_tests_cant": "The access depends on sizes around the capacity of the buffer.", "anchors": ["src/runtime/file_reader.cc"]}
{"id": "C78", "title": "A seed fixes the sequence of random numbers, and it is Python's", "statement": "After random.seed(n) the numbers drawn are the Mersenne Twister sequence of Python's random.seed(n), whatever was drawn before; different non-negative seeds give different sequences, and the generator never degenerates to zeros.", "quantifier": "all seeds, histories and numbers of draws", "why_tests_cant": "Sequences are unbounded, and two seeds can agree on any number of sampled draws.", "anchors": ["src/runtime/builtins_modules/_randommodule.cc: genrand_int32, init_by_array, random_seed"]}
{"id": "C79", "title": "Random numbers lie in their range and are uniform", "statement": "getrandbits(k) lies in [0, 2**k), random() in [0, 1), randint(a, b) in [a, b]; each possible value comes from equally many words of the generator; they are the numbers Python makes of the same words; an empty interval raises ValueError and nothing else does.", "quantifier": "all numbers of bits, int64 bounds and states of the generator", "why_tests_cant": "Ranges over the whole of int64; uniformity counts preimages over all words.", "anchors": ["src/runtime/builtins_modules/_randommodule.cc: _random_Random_getrandbits_impl, bits_in_digit, _randbelow_with_getrandbits, randrange, randint"]}
{"id": "C80", "title": "random.setstate restores what random.getstate saved", "statement": "setstate(getstate()) makes the later numbers those that followed the save; a state that is not valid raises and changes nothing.", "quantifier": "all states of the generator and all arguments", "why_tests_cant": "All states of 624 words and all malformed arguments.", "anchors": ["src/runtime/builtins_modules/_randommodule.cc: _random_Random_getstate_impl, _random_Random_setstate, getstate, setstate"]}
{"id": "C81", "title": "Threads can share the default random generator", "statement": "When threads draw from and seed the default generator at the same time, no call reads outside the generator, every word is used for one call, and the numbers are those of the calls in some order.", "quantifier": "all numbers of threads and all interleavings", "why_tests_cant": "Interleavings are unbounded and the failing ones are rare.", "anchors": ["src/runtime/builtins_modules/_randommodule.cc: genrand_int32, init_genrand, kernel_random_seed, kernel_random_random"]}
{"id": "C82", "title": "What is serialized deserializes to the same value", "statement": "deserialize(serialize(v)) == v, with the same types at every level, for every value that the runtime accepts as an operator attribute or constant of a saved pipeline; different values are saved as different texts; a value that cannot be saved raises when it is saved, not when it is loaded; a damaged file raises and never yields memory that was not written.", "quantifier": "all values of any depth and size, all documents", "why_tests_cant": "Values nest without bound; bytes, keys and arrays each have boundary cases that combine.", "anchors": ["src/pipeline/pickle.cc: ToJsonStruct, FromJsonStruct, Serialize, DeSerialize", "src/runtime/global_type_index.cc", "src/runtime/json_util.cc"]}
{"id": "C83", "title": "json.loads inverts json.dumps", "statement": "json.loads(json.dumps(x)) == x for every x of None, booleans, integers, floats, strings, lists and dicts with string keys; different such values are dumped as different texts; loading, dumping and loading again changes nothing.", "quantifier": "all values of any depth", "why_tests_cant": "Values nest without bound.", "anchors": ["src/pipeline/pickle.cc: ToJson, FromJson", "src/runtime/jsonlib/json.cc", "src/runtime/json_util.cc: ToString"]}
{"id": "C84", "title": "int() reads what Python reads, and str() back", "statement": "int(s, b) returns v exactly for the texts that Python reads as v (blanks, a sign, the prefix of the base, digits of the base, blanks), for every v of 64 bits, and raises for all others; int(str(n)) == n; different integers have different texts; a call does not depend on earlier calls.", "quantifier": "all texts, bases 0 and 2 to 36, all 64-bit integers, all earlier calls", "why_tests_cant": "The texts are unbounded, and the dependence on earlier calls needs a particular history.", "anchors": ["src/runtime/generic/generic_constructor_funcs.cc: string_to_int64, Kernel_Unicode::make(int64_t)"]}
{"id": "C85", "title": "A compiled generator yields what Python's yields", "statement": "Calling next() on the object that a compiled generator function returns gives the values that Python's generator gives, in the same order, with the same exceptions and the same side effects between the values, whatever the caller does between the calls; after the end or an exception it stays ended.", "quantifier": "all generator functions the compiler accepts, arguments, numbers of next() calls and callers", "why_tests_cant": "Generator bodies nest without bound and are resumed in the middle of loops and branches; each yield point needs the right continuation.", "anchors": ["src/codegen/yield_detect.h", "src/codegen/var_detect.h", "src/codegen/codegen_c_host.cc: AddYieldFunction, VisitStmt_(HLOYieldNode)", "src/codegen/codegen_c.cc: VisitStmt_(ForNode), VisitStmt_(AutoForNode)"]}
{"id": "C86", "title": "A for loop takes from a generator exactly the elements it runs on", "statement": "A compiled for loop over a generator runs on the elements Python's loop runs on, and afterwards the generator stands where Python's stands: after a break, the next element is the one after the last the loop ran on.", "quantifier": "all generator functions the compiler accepts, arguments and numbers of elements before a break", "why_tests_cant": "The number of elements and the position of the break are unbounded.", "anchors": ["include/matxscript/runtime/generator/generator.h", "include/matxscript/runtime/generator/generator_ref.h", "src/codegen/codegen_c.cc: VisitStmt_(AutoForNode)"]}
{"id": "C87", "title": "Regex.split cuts a text at the matches", "statement": "Regex(p).split(s) returns the texts between the successive matches that Python's re.split finds, in order; together with the matched texts they make up s; a text without a match is returned whole; characters are never cut; a failing match raises; every call ends.", "quantifier": "all patterns and subjects, of any length", "why_tests_cant": "Patterns and subjects are unbounded; empty matches, matches at the end and multi-byte characters combine.", "anchors": ["src/runtime/regex/regex_helper.cc: Split", "src/runtime/regex/regex_ref.cc: RegexNode::Split"]}
{"id": "C88", "title": "Regex.replace replaces each match by the template and nothing else", "statement": "Regex(p).replace(s, t) replaces every match that Python finds by t, where $$ is a dollar sign and $n or ${n} the text of group n, and leaves the rest as it is; replacing by $0 changes nothing; text with its dollar signs doubled is inserted literally; a bad template raises; no write leaves the buffer; every call ends.", "quantifier": "all patterns, subjects and templates, of any length", "why_tests_cant": "Templates form a grammar with unboundedly many texts, and the buffer is sized in one pass and written in another.", "anchors": ["src/runtime/regex/regex_helper.cc: SubHelper", "src/runtime/regex/regex_sub_helper.cc", "src/runtime/regex/regex_ref.cc: RegexNode::Replace"]}
{"id": "C89", "title": "Regex.match returns the groups of the match", "statement": "Regex(p, options).match(s, offset) returns the text of every group, the empty text for a group that took no part, and each named group under its name; it returns nothing exactly when the pattern does not match from the offset; this for all options and offsets, for bytes and str alike.", "quantifier": "all patterns, options, subjects and offsets", "why_tests_cant": "All combinations of options, offsets and numbers of groups.", "anchors": ["src/runtime/regex/regex_helper.cc: Match", "src/runtime/regex/regex_ref.cc: RegexNode::Match", "src/runtime/regex/regex_pattern.cc"]}
{"id": "C90", "title": "Array buffers that are live never overlap", "statement": "The memory given for arrays on a device (Alloc) is a block of at least the requested bytes inside memory that the device gave, disjoint from every other block that has not been freed, aligned as asked for; every Alloc returns, with a block or an error; every Free of a live block succeeds; no internal check fails and no invalid access happens.", "quantifier": "all sequences of allocations and frees, all sizes, all addresses and refusals of the device, all configurations", "why_tests_cant": "The sequences are unbounded and each step splits, joins and reorders chunks; an overlap appears only for particular histories.", "anchors": ["3rdparty/alloc/brt/core/framework/bfc_arena.cc: BFCArena", "3rdparty/alloc/include/brt/core/framework/bfc_arena.h", "src/runtime/cpu_device_api.cc: Alloc, Free", "src/runtime/cuda/cuda_device_api.cc"]}
{"id": "C91", "title": "Freed array memory is used again", "statement": "A request succeeds without new memory from the device whenever the memory held has a gap between live blocks that is large enough, whatever the history; the smallest such gap is taken, of equal ones the lowest; a request fails only when there is no such gap and the limit or the device does not allow more; memory that has been freed completely can be handed out whole.", "quantifier": "all sequences of allocations and frees, all sizes", "why_tests_cant": "Fragmentation depends on the whole history; tests see a few patterns.", "anchors": ["3rdparty/alloc/brt/core/framework/bfc_arena.cc: FindChunkPtr, FreeAndMaybeCoalesce, Merge, Extend"]}
{"id": "C92", "title": "Freeing a pointer that is not live is an error", "statement": "Free of a pointer that is not the start of a live block raises and changes nothing; in particular freeing twice is detected; freeing a null pointer does nothing.", "quantifier": "all reachable states and all pointers", "why_tests_cant": "All pointers in all states; the consequences of a wrong free are seen much later.", "anchors": ["3rdparty/alloc/brt/core/framework/bfc_arena.cc: Free, DeallocateRawInternal, FreeAndMaybeCoalesce"]}
{"id": "C93", "title": "The sizes and statistics of the allocator are exact", "statement": "For a live block RequestedSize is what was asked for and AllocatedSize at least that, rounded up to 256 or a block less than twice as large with less than the configured waste; bytes in use are the sum over the live blocks; memory held is the sum of what the device gave and never above the limit.", "quantifier": "all sequences of allocations and frees", "why_tests_cant": "The numbers are kept incrementally over unboundedly many calls.", "anchors": ["3rdparty/alloc/brt/core/framework/bfc_arena.cc: RequestedSize, AllocatedSize, FindChunkPtr, Extend"]}
{"id": "C94", "title": "Exactly what is needed is compiled, once", "statement": "matx.script(f) compiles f and every function and class that can be reached from it through dependencies, nothing else, each object once and f last; the search for dependencies ends whenever only finitely many can be reached, also with recursion and cycles.", "quantifier": "all dependency graphs, all sizes, with and without cycles", "why_tests_cant": "The graphs are unbounded and the search runs in rounds that create, share and reorder nodes; a missing or doubled node appears only for particular shapes.", "anchors": ["python/matx/script/analysis/deps_analysis.py: run_impl, run", "python/matx/script/context/ast_node.py: topodeps", "python/matx/script/__init__.py: _passes, _parser, _link_ir_module"]}
{"id": "C95", "title": "Dependencies are compiled before their users", "statement": "In the order in which functions and classes are analysed and put into the compiled module, everything comes after what it depends on, as far as there are no cycles through it; in particular a base class comes before its derived classes.", "quantifier": "all dependency graphs", "why_tests_cant": "The order depends on the shape of the whole graph and the order of names in the sources.", "anchors": ["python/matx/script/context/ast_node.py: topodeps", "python/matx/script/analysis/class_analysis.py", "src/codegen/codegen_c_host.cc: DefineUserStruct"]}
{"id": "C96", "title": "Every function and class that a source uses is found", "statement": "A function or class that the source of a compiled function or class refers to, by name or through modules, by the scoping rules of Python, is found and compiled; a parameter is never taken for a function or class of the module.", "quantifier": "all syntax trees and namespaces", "why_tests_cant": "Scopes nest without bound; each combination of parameters, nested functions and attribute chains behaves differently.", "anchors": ["python/matx/script/analysis/deps_analysis.py: visit_FunctionDef, visit_Name, visit_Attribute, generic_visit"]}
{"id": "C97", "title": "A name means in compiled code what it means in Python", "statement": "A global name, closure variable or builtin used by a compiled function or by a method of a compiled class stands for the object Python finds for it.", "quantifier": "all namespaces and functions", "why_tests_cant": "The outcome depends on which of five namespaces define the name; tests define each name in one of them.", "anchors": ["python/matx/script/analysis/module_analysis.py: getallvars, run_impl"]}
{"id": "C98", "title": "Arguments of a function object reach its parameters as in Python", "statement": "Calling a compiled function as an object (from Python, as an op, or through a variable) with positional and keyword arguments gives every parameter the value that Python's rules give it, converted to its declared type; a call that Python rejects raises TypeError for a mistake that is really in the call.", "quantifier": "all signatures, all positional and keyword arguments", "why_tests_cant": "The number of parameters, defaults and arguments and their names are unbounded; tests use a few combinations.", "anchors": ["src/codegen/codegen_c.cc: PrintPackedFunctionMacro", "src/runtime/container/kwargs_ref.cc: KwargsUnpackHelper::unpack"]}
{"id": "C99", "title": "Arguments of a call in compiled code reach the function as in Python", "statement": "A call f(...) of a function or class in compiled code passes to every parameter what Python passes; a call that Python rejects with TypeError is rejected.", "quantifier": "all signatures, all calls", "why_tests_cant": "As for C98; the compiler binds the arguments, and a wrong binding compiles silently.", "anchors": ["python/matx/script/parser.py: visit_Call", "python/matx/script/context/ast_node.py: ir_call_wrapper"]}
{"id": "C100", "title": "Arguments of a method call in compiled code reach the method as in Python", "statement": "A call obj.m(...) in compiled code passes to every parameter of the method what Python passes, also when the class of the object overrides the method; a call that Python rejects with TypeError is rejected.", "quantifier": "all signatures, all calls, all overriding signatures", "why_tests_cant": "As for C99; defaults come from C++ declarations and the signature from the class of the variable.", "anchors": ["python/matx/script/context/class_context.py: ir_call_attr", "python/matx/script/analysis/inheritence_consistency_check.py", "src/codegen/codegen_c_host.cc: DefineUserStruct"]}
{"id": "C101", "title": "A default value is the same object in every call", "statement": "As in Python, a parameter left to its default gets the same object in every call of a compiled function, in whichever way the other arguments are passed.", "quantifier": "all signatures, all sequences of calls", "why_tests_cant": "The outcome depends on the whole sequence of calls before.", "anchors": ["src/codegen/codegen_c.cc: PrintPackedFunctionMacro (default_args)", "python/matx/script/parser.py: visit_FunctionDef"]}
{"id": "C102", "title": "Values of compiled code are freed exactly once", "statement": "In compiled code and in native operators, assigning, moving, indexing, building and appending values never touches a freed object; when all variables are gone, every object they alone reached is freed.", "quantifier": "all sequences of operations on any number of variables", "why_tests_cant": "Sharing and the order of destruction are unbounded; a test sees a leak or a use after free only in the pattern it runs.", "anchors": ["src/runtime/runtime_value.cc: RTValue", "include/matxscript/runtime/object.h: DecRef"]}
{"id": "C103", "title": "A value given to a compiled function and its result are what Python sees", "statement": "None, int, float, bytes, str and lists, tuples, sets and dicts of them arrive in a compiled function as the same values, and its result comes back as the same value; reading an item of a returned container gives that item.", "quantifier": "all values, all functions", "why_tests_cant": "Nesting depth, sizes and contents are unbounded.", "anchors": ["python/matx/_ffi/_c_ext/fast_c_api.cc: PyObjectToMATXScriptAny", "python/matx/_ffi/_c_ext/fast_c_api.cc: matx_script_api_return_switch_impl"]}
{"id": "C104", "title": "A call from Python leaves no memory behind", "statement": "Calling a compiled function or an operator from Python frees everything made for the call and nothing else, whether the conversion of an argument fails, the function throws or returns; only the result is owned afterwards.", "quantifier": "all arguments, all functions, all heaps", "why_tests_cant": "Leaks and double frees show only in particular combinations of shared and nested arguments, and seldom in the result.", "anchors": ["python/matx/_ffi/_c_ext/fast_c_api.cc: PackedFuncBase_call", "src/runtime/c_runtime_api.cc: MATXScriptFuncCall_PYTHON_C_API", "src/runtime/c_runtime_api.cc: MATXScriptPipelineOpKernelCall"]}
{"id": "C105", "title": "A Python function called by the runtime leaves no memory behind", "statement": "When compiled code calls back a Python function, the arguments and the result are freed once nobody uses them.", "quantifier": "all arguments, all Python functions, all heaps", "why_tests_cant": "As for C104.", "anchors": ["python/matx/_ffi/_c_ext/fast_c_api.cc: PythonClosureMATXScriptPackedCFunc", "src/runtime/c_runtime_api.cc: MATXScriptCFuncSetReturn"]}
{"id": "C106", "title": "Values of unknown type are ordered as in Python", "statement": "Comparing integers, floats, bytes, text, lists and tuples of unknown type with <, <=, >, >= gives what Python gives, including the TypeError when they cannot be compared.", "quantifier": "all values, all nestings", "why_tests_cant": "Nesting and contents are unbounded, and a wrong relation shows only in ties and at particular positions.", "anchors": ["src/runtime/generic/generic_hlo_arith_funcs.cc: ArithOps::gt, ArithOps::ge", "src/runtime/container/list_ref.cc: List::operator>, operator>=", "src/runtime/container/tuple_ref.cc: Tuple::operator>=", "include/matxscript/runtime/generic/generic_hlo_arith_funcs.h: ArithOps::lt, ArithOps::le"]}
{"id": "C107", "title": "Numbers are compared exactly", "statement": "For any two numbers, integers of 64 bits and floats including infinities and nan, <, <=, > and >= are decided by their exact values as in Python.", "quantifier": "all pairs of numbers", "why_tests_cant": "There are 2^128 pairs of floats.", "anchors": ["include/matxscript/runtime/generic/generic_hlo_arith_funcs.h: ArithOps::gt, ge", "include/matxscript/runtime/_almost_equal.h: internal_almost_equals"]}
{"id": "C108", "title": "min and max return the first extreme item", "statement": "min and max of a non-empty iterable of comparable values return the first of its least, greatest items by Python's order; of an empty one they raise.", "quantifier": "all lists of values", "why_tests_cant": "Which of several equal items is returned depends on every comparison.", "anchors": ["src/runtime/generic/generic_funcs.cc: container_min, container_max"]}
{"id": "C109", "title": "Sorting values of unknown type puts them in Python's order", "statement": "list.sort of values that Python can compare with each other throws nothing, keeps the items and puts them in Python's order.", "quantifier": "all lists of comparable values of any length", "why_tests_cant": "Lengths and nestings are unbounded; the order must be consistent over all triples.", "anchors": ["src/runtime/container/list_ref.cc: List::sort", "src/runtime/generic/generic_hlo_arith_funcs.cc: ArithOps::ge"]}
{"id": "C110", "title": "Modulo with floats follows the sign of the divisor", "statement": "x % y with a float on either side is the exact remainder between zero and y, rounded once, with Python's exceptions.", "quantifier": "all integers and floats", "why_tests_cant": "There are 2^128 pairs of operands; the sign is wrong only for some of the overloads.", "anchors": ["src/runtime/generic/generic_hlo_arith_funcs.cc: ArithOps::floormod", "src/runtime/builtins_modules/_floatobject.cc: float_rem"]}
{"id": "C111", "title": "Reading an element of a float16 array gives its exact value", "statement": "For every 16 bits an element can hold, reading it gives exactly the number, infinity or nan that the IEEE 754 half-precision format assigns to the bits.", "quantifier": "all 2^16 elements", "why_tests_cant": "The conversion is a chain of word operations and float multiplications whose rounding has to be shown exact in every range of exponents.", "anchors": ["include/matxscript/runtime/half.h: fp16_ieee_to_fp32_value", "src/runtime/container/ndarray.cc: ElementData2AnyValue(const Half&)"]}
{"id": "C112", "title": "Writing a number into a float16 array rounds it to the nearest half", "statement": "A finite number becomes the nearest half, the one with the even mantissa when two are equally near, with the sign kept and 2^16 standing for infinity; infinities and nan remain.", "quantifier": "all binary32 numbers, all Python floats", "why_tests_cant": "There are 2^32 binary32 numbers and 2^64 Python floats; wrong ties are a small fraction of them.", "anchors": ["include/matxscript/runtime/half.h: fp16_ieee_from_fp32_value", "include/matxscript/runtime/container/list_helper.h: AnyValue2ElementData(Half*)"]}
{"id": "C113", "title": "Halves survive a round trip and writing keeps order", "statement": "Reading a half and writing it again gives the same bits; a larger Python float never becomes a smaller half, and no half lies strictly between a float and the half it becomes.", "quantifier": "all halves, all Python floats, all pairs of them", "why_tests_cant": "Order is about pairs of 2^64 floats and two roundings in a row.", "anchors": ["include/matxscript/runtime/half.h: fp16_ieee_to_fp32_value, fp16_ieee_from_fp32_value", "include/matxscript/runtime/container/list_helper.h: AnyValue2ElementData(Half*)"]}
{"id": "C114", "title": "A for loop over a list visits its items as Python does", "statement": "A loop `for x in xs` runs its body on the items Python would give it, in order, also when the body assigns to items, appends to or removes from the list; it reads no memory that is not an item.", "quantifier": "all lists, loop bodies and capacities", "why_tests_cant": "What goes wrong depends on the capacity of the list and the allocator; a test that appends may pass by luck.", "anchors": ["src/codegen/codegen_c.cc: VisitStmt_(const AutoForNode*)", "src/runtime/container/list_ref.cc: begin, end"]}
{"id": "C115", "title": "A for loop over zip or enumerate gives Python's tuples", "statement": "The body of `for a, b in zip(...)` and `for i, x in enumerate(...)` gets the tuples Python gives, in the same order, and iterators that were zipped have afterwards the items left that they have in Python.", "quantifier": "all numbers and kinds of arguments, lengths, bodies", "why_tests_cant": "The loop keeps look-ahead flags per iterator; which items are consumed matters only with shared or reused iterators.", "anchors": ["src/codegen/codegen_c.cc: VisitStmt_(const AutoForNode*)", "src/runtime/container/list_ref.cc: ListIteratorNode"]}
{"id": "C116", "title": "A comprehension is Python's comprehension", "statement": "`[elt for ... in ... if ...]` gives the list, the error and the side effects it has in Python, for any nesting of generators over ranges and containers, conditions and shadowed names.", "quantifier": "all generators, element and condition expressions, effects", "why_tests_cant": "Evaluation order and the number of evaluations show only with effects; names show only when shadowed.", "anchors": ["python/matx/script/parser.py: visit_ListComp, build_AnyCompLoopStack, build_AnyCompNestedFor", "src/codegen/codegen_c.cc: VisitStmt_(const ForNode*)"]}
{"id": "C117", "title": "NFD and NFKD are the full decomposition in canonical order", "statement": "`unicodedata.normalize` to NFD (NFKD) returns the string that Unicode defines: every character is replaced by its canonical (compatibility) decomposition until none is left, and combining marks are exchanged until they are in canonical order; there is only one such string. Whatever the input, decomposing never writes outside of its stack.", "quantifier": "all strings of any length, both forms, the whole character database", "why_tests_cant": "The stack has 20 places and the depth depends on the tables; a test samples a few characters and orders of marks.", "anchors": ["src/runtime/unicodelib/py_unicodedata.cc: nfd_nfkd, get_decomp_record", "src/runtime/unicodelib/py_unicodedata_db.h"]}
{"id": "C118", "title": "NFC and NFKC are Unicode's composition, idempotent and canonical", "statement": "`unicodedata.normalize` to NFC (NFKC) is the canonical composition algorithm applied to NFD (NFKD). Normalizing again changes nothing, and two strings have equal NFC exactly when they have equal NFD. Composing never writes outside of its array of skipped positions.", "quantifier": "all strings of any length, both forms, the whole character database", "why_tests_cant": "The loop jumps over marks and marks positions to skip; blocked marks, repeated composition and Hangul interact in ways that samples miss.", "anchors": ["src/runtime/unicodelib/py_unicodedata.cc: nfc_nfkc, find_nfc_index", "src/runtime/unicodelib/py_unicodedata_db.h"]}
{"id": "C119", "title": "The normalization quick check never changes a result", "statement": "When the quick check lets `normalize` return its argument, the full algorithm would return the same; `is_normalized` is true of exactly the strings that `normalize` does not change.", "quantifier": "all strings of any length, all four forms, the whole character database", "why_tests_cant": "The quick check bits, classes and composition tables are separate data that must agree for every sequence of characters.", "anchors": ["src/runtime/unicodelib/py_unicodedata.cc: is_normalized_quickcheck, is_normalized, normalize", "src/runtime/unicodelib/py_unicodedata_db.h"]}
{"id": "C120", "title": "WordPiece tokenization is the greedy longest match", "statement": "`WordPieceTokenizer.tokenize` cuts every word like the reference algorithm of BERT: repeatedly the longest entry of the vocabulary that the rest begins with (with the prefix for all pieces but the first), and the unknown token alone if some rest begins with no entry. Pieces of `str` words never end inside of a character, and without the prefixes they join to the word.", "quantifier": "all vocabularies, prefixes and words of bytes or str of any length", "why_tests_cant": "The pieces are cut in place in a buffer where the prefix is copied over consumed bytes, with tokens taken back when the end fails; which branch is taken depends on the whole vocabulary.", "anchors": ["text/wordpiece_tokenizer.cc: TokenizeImplWithPrefix, TokenizeImplNoPrefix, tokenize", "src/runtime/algorithm/prefix_mapping.cc: PrefixSearch", "python/matx/text/wordpiece_tokenizer.py"]}
{"id": "C121", "title": "WordPiece identifiers and counts belong to the vocabulary and the sentence", "statement": "The identifier of a token is the number of its line in the vocabulary file, the unknown token has the identifier of its line and must be in the file, words longer than `max_bytes_per_token` are unknown, and `tokenize_with_meta` gives for each word how many tokens it gave, summing to the number of tokens.", "quantifier": "all vocabularies, options and sentences", "why_tests_cant": "Tests use one vocabulary without duplicates, blank lines or edge values of the options.", "anchors": ["text/wordpiece_tokenizer.cc: WordPieceTokenizer, tokenize, tokenize_with_meta", "src/runtime/algorithm/prefix_mapping.cc: PrefixMapping"]}
{"id": "C122", "title": "The emoji filter removes exactly the leftmost longest codes", "statement": "`EmojiFilter.filter` removes from left to right the longest code at each place and nothing else; `replace` puts the replacement there, once for each code or once for each run if `keep_all` is False; `check_pos` is the length of the longest code at a place. On `str` nothing is found inside of a character.", "quantifier": "all sets of codes, texts of bytes or str of any length, replacements and positions", "why_tests_cant": "Overlapping and nested codes and codes that meet after a removal depend on the combination of text and codes.", "anchors": ["text/emoji_filter.cc: Filter, Replace, check_pos", "text/emoji_filter.h: CheckPos", "src/runtime/algorithm/prefix_mapping.cc: PrefixSearch"]}
{"id": "C123", "title": "Structural equality is equality up to a one-to-one renaming", "statement": "`structural_equal(a, b)` always ends with an answer, and the answer is yes exactly when some one-to-one renaming of the variables and graph nodes makes the two objects the same tree, where variables whose first occurrence is not a definition are only renamed if `map_free_vars` is set.", "quantifier": "all pairs of objects of any size and sharing", "why_tests_cant": "The comparison runs an explicit stack and fills two maps while it goes; which pairs are mapped when depends on the whole of both objects.", "anchors": ["src/ir/_base/structural_equal.cc: SEqualReduce, RunTasks, DispatchSEqualReduce, Equal", "src/ir/_base/cow_array_ref.cc: SEqualReduce", "python/matx/ir/base.py: structural_equal"]}
{"id": "C124", "title": "Structural equality is an equivalence", "statement": "`structural_equal` is reflexive, symmetric and transitive; equality without `map_free_vars` implies equality with it, and for objects without free variables they are the same; looking for the first mismatch gives the same answer.", "quantifier": "all objects", "why_tests_cant": "Transitivity and symmetry quantify over triples of objects with any sharing.", "anchors": ["src/ir/_base/structural_equal.cc: Equal, node.StructuralEqual, node.GetFirstStructuralMismatch"]}
{"id": "C125", "title": "Comparison with and without path tracing agree", "statement": "The comparison used inside the compiler, which does not trace paths and compares arrays on the spot, gives the same answer as the one called from Python.", "quantifier": "all pairs of objects", "why_tests_cant": "The two take different overloads for every array attribute and different orders of tasks.", "anchors": ["include/matxscript/ir/_base/structural_equal.h: SEqualReducer::operator()", "src/ir/_base/structural_equal.cc: StructuralEqual::operator()", "src/ir/_base/cow_array_ref.cc: SEqualReduce"]}
{"id": "C126", "title": "Deep equality of expressions never renames", "statement": "`expr_deep_equal(a, b)` holds exactly when the expressions are the same tree over the very same variables, and then `structural_equal` holds with either setting of `map_free_vars`.", "quantifier": "all pairs of primitive expressions of any size", "why_tests_cant": "It is a second implementation of the comparison with shortcuts for identical objects.", "anchors": ["src/ir/analysis/deep_equal.cc: DeepCmpSEqualHandler, ExprDeepEqual", "src/ir/_base/structural_equal.cc: Equal"]}
{"id": "C127", "title": "Equal objects have equal structural hashes", "statement": "`structural_hash` always ends with a value, and objects for which `structural_equal` holds have the same value with the same setting of `map_free_vars`.", "quantifier": "all objects of any size and sharing, all ways to hash the values", "why_tests_cant": "The hash numbers variables and graph nodes with counters in the order it meets them and remembers every object by address; the comparison has neither.", "anchors": ["src/ir/_base/structural_hash.cc: SHashReduce, SHashReduceFreeVar, ReduceHash, RunTasks, Hash", "include/matxscript/ir/_base/structural_hash.h: SHashReducer"]}
{"id": "C128", "title": "Printed expressions read back as themselves", "statement": "The Python text printed for an expression is accepted by Python's expression grammar and is read as the expression that was printed, with the same grouping of operators, conditionals, lambdas, calls with keyword arguments, indexing and displays; so two different expressions never print alike.", "quantifier": "all expressions of any size and nesting", "why_tests_cant": "Parentheses are decided locally from a table of precedences; whether they suffice depends on every combination of operators at every depth.", "anchors": ["src/ir/printer/doc_printer/python_doc_printer.cc: GetExprPrecedence, PrintChildExpr, PrintTypedDoc", "include/matxscript/ir/printer/doc.h: OperationDocNode"]}
{"id": "C129", "title": "A saved pipeline loaded again computes the same results", "statement": "Saving a traced pipeline to a folder succeeds when its resource files exist, and loading the folder gives a pipeline that returns, for every feed, what the saved one returns or the exception it throws: every operator has its attributes, the content of its resource files and its sub-operators, and outputs and names are kept. Loading the folder a second time gives the same pipeline again.", "quantifier": "all pipelines (any number of operators, resource files and depth of sub-operators), all contents of the file system, all operators alive in the loading process, all feeds", "why_tests_cant": "Whether the loaded operators are the saved ones depends on names: of copies of resource files, of sub-operators in attributes, and of operators already alive in the process; tests save and load one model in an empty folder.", "anchors": ["src/pipeline/tx_session.cc: DFSSaveOp, Save, Load, CreateOp", "src/pipeline/op_kernel.cc: BundlePath", "src/runtime/file_util.cc: Copy, BaseName", "src/pipeline/graph.cc: FromGenericList, ToGenericList"]}
{"id": "C130", "title": "A compiled function runs the code it was compiled from", "statement": "matx.script returns a function that runs the code of the function, its dependencies and the values of the global and free variables that it was given, not code compiled earlier from something else: when one of the files that take part is edited the function is compiled again, and in any sequence of compilations each one gets its own code.", "quantifier": "all programs, all edits, all sequences of compilations, all values of captured variables", "why_tests_cant": "The library is reused when a file of the same name exists; tests run in a fresh directory or do not look at which code a library holds.", "anchors": ["python/matx/toolchain.py: path_prefix, hit_cache, build_dso", "python/matx/script/analysis/source_analysis.py: run_impl", "python/matx/script/parser.py: visit_Name"]}
{"id": "C131", "title": "Processes that share the cache of libraries load complete libraries", "statement": "When any number of processes compile and load functions in the same directory, in any order and interleaving, each of them loads a completely written library of its function; a library is compiled by one process at a time and not again once it is complete; and no process waits for ever, even if others are killed.", "quantifier": "all numbers of processes, all interleavings, all points at which processes are killed", "why_tests_cant": "Races between processes and a kill in the middle of a compilation cannot be enumerated by tests.", "anchors": ["python/matx/toolchain.py: build_dso, hit_cache", "python/matx/contrib/_filelock.py: BaseFileLock.acquire, UnixFileLock", "python/matx/contrib/cc.py: create_shared"]}
{"id": "C132", "title": "Files named in constructor arguments travel with the model", "statement": "If an argument of the constructor of a scripted class, or a string inside lists and dicts in such an argument at any depth, names an existing file, then saving copies the file, and the constructor of the loaded object gets the same arguments with exactly these names replaced by the names of the copies below the folder of the model; saving leaves the living object as it was, and an object can be saved again, also after it was loaded.", "quantifier": "all argument values, all nestings, all keys of dicts, all folders", "why_tests_cant": "Names are found by one walk over the values and found again by reading back textual paths; tests use one level of nesting and simple keys, and save once.", "anchors": ["python/matx/toolchain.py: PathGuesser", "src/pipeline/jit_object.cc: JsonPathGetter_NextToken, JsonPathGetter, JitObject::Bundle, JitObject::Init", "src/pipeline/op_kernel.cc: BundlePath"]}
{"id": "C133", "title": "A parallel call returns, however deeply parallel calls are nested", "statement": "A function that is submitted to a thread pool, or mapped in parallel, may itself submit functions, map in parallel and wait for futures, at any depth, on its own pool or on other pools; every such call comes back, and when nothing can go on any more every submitted function has run to its end. This holds for pools with a lock and without, with any number of threads from one on and any capacity of queues.", "quantifier": "all trees of nested submissions and waits, all numbers of callers and threads, all interleavings, also if functions throw", "why_tests_cant": "Deadlocks depend on nesting, pool sizes and scheduling; tests nest once on a pool that is larger than the number of calls.", "anchors": ["src/runtime/threadpool/thread_pool_executor.cc: ParallelForImpl, ApplyAsync", "src/runtime/threadpool/lock_based_thread_pool.cc: ThreadEntry, Enqueue", "src/runtime/threadpool/lock_free_thread_pool.cc: ThreadEntry, Enqueue", "src/pipeline/tx_session.cc: ParallelFor, ApplyAsync"]}
{"id": "C134", "title": "The static type of a joined value or a loop variable holds every value that can occur", "statement": "Where a script joins two typed values (`dict.pop` with a default), the static type that the compiler chooses holds all values of both, and the compiler accepts both types for it; the static type of a loop variable holds everything that a loop over a value of the container's type yields, and the types of unpacked variables hold the parts.", "quantifier": "all types, nested to any depth, with references and shared nodes, all class hierarchies, all values of the types", "why_tests_cant": "The rules are recursive case distinctions over pairs of types; tests compare a few pairs of flat types.", "anchors": ["src/ir/type.cc: InferLiftType, InferIteratorValueType, InferNthItemType, IsTypeConvertible", "src/ir/adt.cc: IsBaseTypeOf", "python/matx/ir/op.py: object_pop", "python/matx/script/parser.py: visit_For"]}
{"id": "C135", "title": "Warming up runs the pipeline once on every thread and returns", "statement": "A warmup of a session with parallel execution runs the pipeline exactly once on each thread of its scheduling pool, whatever other work the pool has, and then returns.", "quantifier": "all numbers of threads, all other work on the pool, all interleavings", "why_tests_cant": "That each thread takes one task depends on a barrier among the tasks; tests see that the warmup returned, on an idle pool.", "anchors": ["src/pipeline/tx_session.cc: TXSession::Warmup, TXSessionWarmupRunnable", "src/runtime/threadpool/lock_based_thread_pool.cc: Enqueue, EnqueueBulk, ThreadEntry"]}
{"id": "C136", "title": "A borrowed handler belongs to one borrower and comes back", "statement": "Of the handlers that a GPU image op shares among its threads, each is used by at most one thread at a time, a handler given back can be borrowed again, and a borrow gets one whenever one is free.", "quantifier": "all pool sizes, all numbers of threads, all interleavings of the memory accesses of borrowing and giving back", "why_tests_cant": "Whether a handler is lost depends on a thread being suspended between two memory accesses of a lock-free queue; tests see the usual schedule, and a pool that has shrunk still answers.", "anchors": ["vision/src/utils/object_pool.h: BoundedObjectPool", "include/matxscript/runtime/threadpool/mpmc_bounded_queue.h: MPMCBoundedQueue", "vision/src/ops/cuda/image_decode.cc: VisionImdecodeOpGPU, ImageDecodeTask::RunImpl", "vision/src/ops/cuda/image_encode.cc: VisionImencodeOpGPU"]}
{"id": "C137", "title": "A batch of images gives what its images give one by one", "statement": "An image op on a batch gives, for every number of threads, the results of the images in their order, or the error of the first image that fails; the variants without exceptions never raise, and their flags tell exactly which images failed while the others are unaffected.", "quantifier": "all batches, all numbers of threads, all orders in which the tasks run, all contents of images", "why_tests_cant": "Tests decode batches of good images; where the split falls and which task fails first depends on sizes, threads and timing.", "anchors": ["vision/src/utils/task_manager.h: TaskManager::Execute", "vision/src/ops/cpu/image_decode.cc: ImageDecodeTask, VisionImdecodeOpCPU::process", "vision/src/ops/cpu/image_encode.cc: CpuImageEncodeTask, VisionImencodeOpCPU::process", "vision/src/ops/cuda/image_decode.cc: ImageDecodeTask, is_jpeg"]}
{"id": "C138", "title": "str.format inserts its arguments in order", "statement": "s.format(*args) accepts exactly the strings made of other characters, doubled braces and `{}` with at least as many arguments as fields, and gives the characters and single braces in order with each `{}` replaced by the text Python gives for the next argument; all other strings raise, and too few arguments raise an index error.", "quantifier": "all format strings and all lists of arguments, with characters of every encoded length", "why_tests_cant": "Tests format a few ASCII strings; which strings are accepted and how bytes of long characters and of arguments interact is a statement about all of them.", "anchors": ["src/runtime/container/unicode_helper.cc: UnicodeHelper::Format", "src/runtime/runtime_value.cc: operator<< for Any"]}
{"id": "C139", "title": "A compiled library gives each name its own function", "statement": "The names of the functions and methods of a compiled library are read back as written; looking up a function gives the code generated for it and nothing for other names; the methods of an object are exactly those of its class and its bases, the nearest definition winning; different functions have different names.", "quantifier": "all lists of functions, all classes, methods and chains of base classes, all names", "why_tests_cant": "Tests compile a few functions at a time; collisions of generated names and indices into a table depend on names and numbers of functions not tried.", "anchors": ["src/runtime/func_registry_names_io.cc: GenerateFuncRegistryNames, ReadFuncRegistryNames, LookupFuncRegistryName", "src/runtime/function_name_rules.cc", "src/runtime/library_module.cc: LibraryModuleNode", "src/runtime/container/user_data_ref.cc: InitFuncTable, JoinFuncTables", "src/pipeline/jit_object.cc: JitObject::Init"]}
{"id": "C140", "title": "Sessions keep their thread pools across a fork", "statement": "When a process forks, no thread of a session's pools exists at the moment of the fork, and afterwards every session has, in the parent and in the child, pools with as many threads as before; sessions of one name that ask for a shared pool use one pool.", "quantifier": "all sequences of creating, configuring and closing sessions and of forks, all numbers of threads", "why_tests_cant": "Tests fork once with one session in its default configuration; what happens depends on the history of all sessions with the same name.", "anchors": ["src/pipeline/tx_session.cc: SetSchedulingThreads, SetOpComputeThreads, AtForkBefore, AtForkAfterInParentOrChild", "src/pipeline/threadpool_op.cc", "python/matx/pipeline/_atfork_register.py"]}
