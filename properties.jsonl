{"id": "C01", "title": "Slice and slice-replacement agree and never leave the sequence", "statement": "For a.subseq/a.subseqto, s.substr/s.substrto and bytes.subseq/bytes.subseqto: for every sequence and every start and end (negative, reversed or out of range) the selected region is one contiguous block [i,j) with 0<=i<=j<=length; subseqto returns the elements before the block, then the replacement, then the elements after it; replacing a block by itself returns the original sequence; no call raises.", "quantifier": "all sequences of any length, all integers start and end, all replacements", "why_tests_cant": "Index arithmetic has infinitely many combinations of sign, order and range of start, end and length; tests sample a few.", "anchors": ["titus/util.py:negativeIndex", "titus/util.py:startEnd", "titus/lib/array.py:Subseq", "titus/lib/array.py:SubseqTo", "titus/lib/pfastring.py:Substr", "titus/lib/pfastring.py:SubstrTo", "titus/lib/bytes.py:SubseqTo"]}
{"id": "C02", "title": "Variables behave lexically at run time", "statement": "Reading a variable returns the value most recently given to it in the innermost enclosing block that declared it; 'let' never changes a variable of an outer block; one 'set' changes exactly the variables it names, each in the block that declared it, and changes nothing else.", "quantifier": "all nestings of scopes, all sequences of let/set/get, all sets of variables named by one set", "why_tests_cant": "The number of scope shapes and assignment sequences is unbounded; a set that mixes variables of different levels is easily missed.", "anchors": ["titus/util.py:DynamicScope", "titus/genpy.py:GeneratePython"]}
{"id": "C03", "title": "Bytes and their string form are interchangeable", "statement": "bytesToString followed by stringToBytes is the identity on every byte sequence, stringToBytes succeeds exactly on strings whose characters are all below 256, and the two are inverse to each other there.", "quantifier": "all byte sequences and all strings", "why_tests_cant": "Unbounded lengths and all characters.", "anchors": ["titus/util.py:bytesToString", "titus/util.py:stringToBytes"]}
{"id": "C04", "title": "Type acceptance is reflexive", "statement": "Every Avro type accepts itself, including recursive record types.", "quantifier": "all Avro types over all tables of named types, including recursive and mutually recursive records", "why_tests_cant": "Recursive types give infinitely many schema graphs.", "anchors": ["titus/datatype.py:AvroType.accepts", "titus/datatype.py:AvroType._recordFieldsOkay"]}
{"id": "C05", "title": "Type acceptance is transitive", "statement": "If type A accepts B and B accepts C then A accepts C.", "quantifier": "all triples of Avro types (with their named-type tables)", "why_tests_cant": "Ranges over all triples of arbitrarily nested types; promotion, union and record-default rules interact.", "anchors": ["titus/datatype.py:AvroType.accepts"]}
{"id": "C06", "title": "Acceptance is sound for data", "statement": "If type A accepts type B then every datum that conforms to B can be used where A is expected: widening it to A (numeric promotion, union wrapping, record projection with defaults) gives a datum conforming to A.", "quantifier": "all type pairs and all data values of any depth", "why_tests_cant": "Both the types and the data are unbounded.", "anchors": ["titus/datatype.py:AvroType.accepts"]}
{"id": "C07", "title": "JSON encoding then decoding preserves data", "statement": "For a datum v of type t, decoding the JSON encoding of v with the same type gives back v, with the same union tag.", "quantifier": "all types and all conforming data of any depth", "why_tests_cant": "Deeply nested data and unions whose branches overlap are unbounded in number.", "anchors": ["titus/datatype.py:jsonEncoder", "titus/datatype.py:jsonDecoder"]}
{"id": "C08", "title": "The JSON decoder only produces data of the requested type", "statement": "If jsonDecoder(t, j) returns a value, the value conforms to t (integers in range, enum symbols known, fixed sizes right, all record fields present, union tags legal); otherwise it raises AvroException.", "quantifier": "all types and all JSON documents", "why_tests_cant": "Arbitrary JSON input of unbounded depth.", "anchors": ["titus/datatype.py:jsonDecoder"]}
{"id": "C09", "title": "Input checking is sound and stable", "statement": "If checkData(v,t) returns w, then w conforms to t and checkData(w,t) returns w again; data that conform to t are returned unchanged.", "quantifier": "all types and all run-time data", "why_tests_cant": "Unbounded data; union branch resolution order matters.", "anchors": ["titus/datatype.py:checkData"]}
{"id": "C10", "title": "Comparison is a total order on every comparable type", "statement": "For data x, y, z of a type without maps, compare(t,x,y) returns -1, 0 or 1 without raising, compare(t,y,x) is its negation, it is transitive, and 0 is an equivalence (equality of data when no field is ignored).", "quantifier": "all types without maps, all triples of conforming data", "why_tests_cant": "Order laws quantify over triples of unbounded data; special floating point values break naive comparison.", "anchors": ["titus/datatype.py:compare"]}
{"id": "C11", "title": "Type declarations may be given in any order", "statement": "Whether a set of mutually referring type declarations is accepted, and which names they define, does not depend on the order of the declarations; resolution always terminates; on failure exactly the declarations that cannot be resolved are reported.", "quantifier": "all sets of declarations and all their orderings", "why_tests_cant": "n! orderings of any n declarations.", "anchors": ["titus/datatype.py:ForwardDeclarationParser.parse", "titus/datatype.py:AvroTypeBuilder"]}
{"id": "C12", "title": "Path read and path update obey the lens laws", "statement": "After updating a value at a path that exists, reading the path gives the new value, reading any path that diverges from it gives the old result, the container keeps its length and keys, and the original container is unchanged (update is functional). Paths that do not exist raise the documented errors.", "quantifier": "all nested arrays/maps/records, all paths", "why_tests_cant": "Unbounded nesting depth and path pairs.", "anchors": ["titus/genpy.py:get", "titus/genpy.py:update", "titus/pfaast.py:HasPath.walkPath"]}
{"id": "C13", "title": "Failed actions leave rollback cells and pools untouched", "statement": "If action or merge raises, every cell and pool declared rollback has exactly the contents it had before the call, for any sequence of cell and pool operations executed before the failure; cells without rollback keep every update made before the failure.", "quantifier": "all engine states, all programs of cell/pool operations, all failure points, all histories of previous calls", "why_tests_cant": "Every failure point in every interleaving of operations, over any history.", "anchors": ["titus/genpy.py:PFAEngine", "titus/genpy.py:Cell.maybeSaveBackup", "titus/genpy.py:Cell.maybeRestoreBackup", "titus/genpy.py:Pool.maybeSaveBackup", "titus/genpy.py:Pool.maybeRestoreBackup"]}
{"id": "C14", "title": "Action counters count calls", "statement": "After any history of action calls, actionsStarted equals the number of calls whose input passed checkData and actionsFinished the number that returned normally; actionsFinished never exceeds actionsStarted and neither decreases.", "quantifier": "all histories of action calls with any outcomes", "why_tests_cant": "Unbounded histories.", "anchors": ["titus/genpy.py:GeneratePython.commandsMap", "titus/genpy.py:GeneratePythonFold"]}
{"id": "C15", "title": "A fold engine computes a left fold over the successful inputs", "statement": "The tally after any history of action calls equals the left fold of the user's function over exactly the inputs whose action succeeded, in order; failing actions do not change the tally.", "quantifier": "all user functions, all histories, all failure patterns", "why_tests_cant": "Unbounded histories and failure patterns.", "anchors": ["titus/genpy.py:GeneratePythonFold", "titus/genpy.py:GeneratePythonFoldMerge"]}
{"id": "C16", "title": "Engine instances are isolated except for shared cells and pools", "statement": "Operations on one instance never change an unshared cell or pool of another instance, and an update of a shared cell or pool by one instance is what every other instance reads next.", "quantifier": "all numbers of instances, all interleavings of operations", "why_tests_cant": "Unbounded interleavings.", "anchors": ["titus/genpy.py:PFAEngine.fromAst", "titus/genpy.py:SharedState"]}
{"id": "C17", "title": "A snapshot restores the engine state", "statement": "Building an engine from the configuration returned by snapshot gives an engine whose cells and pools hold the same data as the engine that was snapshotted.", "quantifier": "all engine states reachable by any history", "why_tests_cant": "Unbounded states.", "anchors": ["titus/genpy.py:PFAEngine.snapshot", "titus/genpy.py:genpy.Cell", "titus/genpy.py:genpy.Pool"]}
{"id": "C18", "title": "Shared cell and pool updates are atomic under every schedule", "statement": "For any number of threads updating a shared cell (or one key of a shared pool), under every interleaving the final contents equal the result of running the updates one after another in some order; no update is lost.", "quantifier": "all schedules, all numbers of threads and updates", "why_tests_cant": "Exponentially many schedules; races are not reproducible.", "anchors": ["titus/genpy.py:Cell.update", "titus/genpy.py:Pool.update"]}
{"id": "C19", "title": "A failing update does not block later updates", "statement": "After an update of a shared cell or pool raises, other threads can still update it (the lock is released).", "quantifier": "all schedules and failure points", "why_tests_cant": "Needs a failing update followed by another thread's update.", "anchors": ["titus/genpy.py:Cell.update", "titus/genpy.py:Pool.update"]}
{"id": "C20", "title": "Accepted engines cannot self-deadlock", "statement": "If an engine passes the deadlock check at construction, then no function used as the 'to' of a cell or pool update can itself reach a cell-to or pool-to.", "quantifier": "all call graphs and all programs", "why_tests_cant": "All program shapes and call graphs; the unsafe call can be arbitrarily deep.", "anchors": ["titus/genpy.py:PFAEngine.checkForDeadlock", "titus/genpy.py:PFAEngine.hasSideEffects", "titus/genpy.py:PFAEngine.calledBy", "titus/pfaast.py:EngineConfig.collect"]}
{"id": "C21", "title": "Call graph queries are exact", "statement": "calledBy(f) is exactly the set of names reachable from f by one or more calls; isRecursive(f) holds exactly when f can reach itself; hasRecursive(f) when f reaches a recursive function; callDepth(f) is finite exactly when no cycle is reachable and then is the longest call chain.", "quantifier": "all finite call graphs, including cyclic ones", "why_tests_cant": "All graphs.", "anchors": ["titus/genpy.py:PFAEngine.calledBy", "titus/genpy.py:PFAEngine.callDepth", "titus/genpy.py:PFAEngine.isRecursive", "titus/genpy.py:PFAEngine.hasRecursive"]}
{"id": "C22", "title": "unpack inverts pack", "statement": "For any list of formats and values in range, unpacking the packed bytes with the same formats yields the same values and consumes every byte; unpack of bytes of the wrong length takes the else branch.", "quantifier": "all format lists, all values, all byte strings", "why_tests_cant": "Unbounded formats and byte strings; variable-length formats interact.", "anchors": ["titus/genpy.py:pack", "titus/genpy.py:unpackOne", "titus/genpy.py:unpack", "titus/genpy.py:unpackElse"]}
{"id": "C23", "title": "Binary format names mean their documented width and signedness", "statement": "Each documented format name (pad, boolean, byte/int8, short/int16, int/int32, long/int64, unsigned variants, float/float32, double/float64, raw N, null terminated, length prefixed) with any byte-order mark and spacing selects the layout of that name.", "quantifier": "all format names with all byte-order marks and spacings", "why_tests_cant": "Prefix matching makes the result depend on rule order for arbitrarily many spellings.", "anchors": ["titus/pfaast.py:BinaryFormatter.formatToDeclare"]}
{"id": "C24", "title": "Integer arithmetic is exact or raises", "statement": "+, -, *, unary minus, abs and the integer powers on int and long return the exact mathematical result when it is in range and raise the documented overflow error otherwise; they never wrap.", "quantifier": "all pairs of ints and longs", "why_tests_cant": "2^128 pairs.", "anchors": ["titus/lib/core.py:checkForOverflow", "titus/lib/core.py:Plus", "titus/lib/core.py:Minus", "titus/lib/core.py:Times", "titus/lib/core.py:UnaryMinus", "titus/lib/pfamath.py:Abs"]}
{"id": "C25", "title": "Modulo and remainder laws", "statement": "For integer y != 0: x % y has the sign of y and |x % y|<|y|; x %% y has the sign of x and |x %% y|<|y|; both are congruent to x modulo y; y = 0 raises the documented error.", "quantifier": "all integers x and y", "why_tests_cant": "All sign combinations over an infinite domain.", "anchors": ["titus/lib/core.py:Modulo", "titus/lib/core.py:Remainder"]}
{"id": "C26", "title": "Integer division truncates exactly", "statement": "x // y is the quotient truncated towards zero for all int and long x, y with y != 0 (and the result is in range or an error is raised), and (x // y)*y + (x %% y) = x.", "quantifier": "all longs x, y", "why_tests_cant": "Large longs are where floating point is inexact; tests use small numbers.", "anchors": ["titus/lib/core.py:DivideFloor"]}
{"id": "C27", "title": "Three-valued logic is Kleene logic", "statement": "&&&, ||| and !!! implement Kleene's strong logic with null as unknown (commutative, associative, distributive, De Morgan) and agree with &&, ||, ! on booleans; && and || do not evaluate the second argument when the first decides.", "quantifier": "all argument values including lazily failing second arguments", "why_tests_cant": "Laws quantify over all arguments and over the effect of not evaluating one.", "anchors": ["titus/lib/core.py:LogicalAnd", "titus/lib/core.py:KleeneAnd", "titus/lib/core.py:KleeneOr", "titus/lib/core.py:KleeneNot"]}
{"id": "C28", "title": "Comparison operators, max and min agree with one order", "statement": "==, !=, <, <=, >, >=, cmp, max and min are all derived from one total order on data of the common type: exactly one of <,==,> holds, <= is < or ==, max and min return one of their arguments and bound both.", "quantifier": "all types without maps and all data", "why_tests_cant": "Quantifies over all data of all types.", "anchors": ["titus/lib/core.py:Comparison", "titus/lib/core.py:Max", "titus/lib/core.py:Min"]}
{"id": "C29", "title": "Sorting is a stable sorted permutation", "statement": "a.sort and a.sortLT return a permutation of the input that is sorted and keeps the order of equal elements.", "quantifier": "all arrays and all total preorders given as less-than functions", "why_tests_cant": "All lengths and orders.", "anchors": ["titus/lib/array.py:Sort", "titus/lib/array.py:SortLT"]}
{"id": "C30", "title": "Top-n selection is right", "statement": "a.maxN/minN, a.maxNLT/minNLT, their arg- versions and the map versions return the min(n,length) largest (smallest) elements in order, ties resolved as documented, and argmax indices point at those elements.", "quantifier": "all arrays, all n, all less-than functions", "why_tests_cant": "All arrays and n; off-by-one errors show only for some sizes.", "anchors": ["titus/lib/array.py:highestN", "titus/lib/array.py:lowestN", "titus/lib/array.py:argHighestN", "titus/lib/array.py:argLowestN", "titus/lib/map.py:argHighestN"]}
{"id": "C31", "title": "Array set operations are set operations", "statement": "a.distinct, a.seteq, a.union, a.intersection, a.diff, a.symdiff, a.subset, a.disjoint compute the set operation of the element sets, and the results of distinct/union/intersection/diff/symdiff contain no duplicate when their documentation says so.", "quantifier": "all pairs of arrays with any multiplicities", "why_tests_cant": "All multiplicity patterns.", "anchors": ["titus/lib/array.py:Distinct", "titus/lib/array.py:Union", "titus/lib/array.py:Intersection", "titus/lib/array.py:Diff", "titus/lib/array.py:SymDiff", "titus/lib/array.py:Subset", "titus/lib/array.py:Disjoint", "titus/lib/array.py:SetEq"]}
{"id": "C32", "title": "Higher-order array functions call the function once per element in order", "statement": "map, filter, filterMap, flatMap, reduce, fold (left and right), takeWhile, dropWhile, any, all, corresponds, zipmap and their index versions produce the textbook result, calling the user function on the elements in order, and an exception in the user function propagates.", "quantifier": "all arrays, all (possibly failing, stateful) user functions", "why_tests_cant": "Quantifies over user functions with effects.", "anchors": ["titus/lib/array.py:Map", "titus/lib/array.py:Filter", "titus/lib/array.py:Fold", "titus/lib/array.py:ZipMap"]}
{"id": "C33", "title": "Array and string search is exact", "statement": "contains, count, index, rindex, startswith and endswith (element, subsequence and predicate forms) agree: index is the first occurrence, rindex the last, -1 exactly when contains is false, count the number of occurrences documented.", "quantifier": "all haystacks and needles", "why_tests_cant": "All overlaps of needle and haystack.", "anchors": ["titus/lib/array.py:Contains", "titus/lib/array.py:Count", "titus/lib/array.py:Index", "titus/lib/array.py:RIndex", "titus/lib/pfastring.py:Index"]}
{"id": "C34", "title": "Windows, combinations and permutations are complete and duplicate-free by position", "statement": "a.slidingWindow, a.combinations and a.permutations return exactly the windows / k-subsequences / orderings of the input, each position set once, in the documented order.", "quantifier": "all arrays and sizes", "why_tests_cant": "Combinatorial explosion.", "anchors": ["titus/lib/array.py:SlidingWindow", "titus/lib/array.py:Combinations", "titus/lib/array.py:Permutations"]}
{"id": "C35", "title": "groupby partitions the array", "statement": "a.groupby puts every element under exactly its key, keeps the order within a group, and concatenating the groups is a permutation of the input.", "quantifier": "all arrays and key functions", "why_tests_cant": "All arrays and functions.", "anchors": ["titus/lib/array.py:GroupBy"]}
{"id": "C36", "title": "Map library functions are finite-map operations", "statement": "map.add/remove/only/except/update/split/join/union/intersection/diff/symdiff/subset/disjoint/filter/map/zipmap act on maps as finite maps: the result depends only on the key-value associations of the arguments, not on the order in which keys were inserted.", "quantifier": "all maps, all insertion orders", "why_tests_cant": "All insertion orders.", "anchors": ["titus/lib/map.py:Add", "titus/lib/map.py:Union", "titus/lib/map.py:ZipMap", "titus/lib/map.py:Split", "titus/lib/map.py:Join"]}
{"id": "C37", "title": "String functions satisfy their algebra", "statement": "s.join inverts s.split; replaceall with a fresh replacement removes every occurrence; replacefirst and replacelast change one occurrence; translate maps characters positionwise; strip removes a maximal prefix/suffix.", "quantifier": "all strings", "why_tests_cant": "Unbounded strings and overlaps.", "anchors": ["titus/lib/pfastring.py:Split", "titus/lib/pfastring.py:Join", "titus/lib/pfastring.py:ReplaceAll", "titus/lib/pfastring.py:ReplaceLast", "titus/lib/pfastring.py:Translate"]}
{"id": "C38", "title": "Signature matching only accepts type-correct calls", "statement": "If a function signature accepts argument types, then the parameter types it reports accept the argument types one by one, with equal numbers of parameters at every function-typed argument, and all uses of a wildcard label are instantiated by one type.", "quantifier": "all signatures, all argument type lists", "why_tests_cant": "All patterns and types.", "anchors": ["titus/signature.py:Sig.accepts", "titus/signature.py:Sig.check", "titus/signature.py:Sigs.accepts"]}
{"id": "C39", "title": "The common type accepts every branch", "statement": "LabelData.broadestType (used for if/cond/cast/ifnotnull and wildcards) returns a type that accepts each of the given types, or raises IncompatibleTypes.", "quantifier": "all non-empty lists of types", "why_tests_cant": "All combinations of types.", "anchors": ["titus/signature.py:LabelData.broadestType", "titus/signature.py:LabelData.distinctTypes"]}
{"id": "C40", "title": "Language versions are totally ordered and a lifespan has one status", "statement": "PFAVersion comparison is a total order consistent with parsing and printing; for any lifespan and version a function is never both current and deprecated, and is neither exactly before its birth or after its death.", "quantifier": "all version triples and all lifespans", "why_tests_cant": "All combinations of birth, deprecation and death.", "anchors": ["titus/signature.py:PFAVersion", "titus/signature.py:Lifespan"]}
{"id": "C41", "title": "Host options override document options, and each option controls what it names", "statement": "For every option, the host value is used if given, else the document value, else the default; timeout.begin, timeout.action and timeout.end select the timeout of begin, action and end.", "quantifier": "all option maps", "why_tests_cant": "All combinations of host and document options.", "anchors": ["titus/options.py:EngineOptions"]}
{"id": "C42", "title": "Checked programs do not go wrong", "statement": "If the semantic check accepts an expression in a symbol table, then evaluating it in a matching run-time scope never fails with an unknown variable, wrong kind of container or missing record field, and its result conforms to the inferred type; the only failures are the declared run-time errors, user errors and timeouts.", "quantifier": "all well-typed expressions, all matching scopes, all executions", "why_tests_cant": "All programs.", "anchors": ["titus/pfaast.py:Ast.walk", "titus/genpy.py:GeneratePython"]}
{"id": "C43", "title": "Sealed scopes cannot be modified from inside", "statement": "The semantic check rejects any program in which a block that may not modify its surroundings (function bodies, predicates, arguments, parallel foreach) assigns a variable of an enclosing scope, or in which a let redeclares a visible symbol.", "quantifier": "all programs and nestings", "why_tests_cant": "All nestings.", "anchors": ["titus/pfaast.py:SymbolTable", "titus/pfaast.py:Let.walk", "titus/pfaast.py:SetVar.walk"]}
{"id": "C44", "title": "Traversals see and rebuild the whole program", "statement": "collect with a predicate returns every matching node of the engine; replace with a function defined nowhere returns an equal engine, and a replaced node is visible to collect.", "quantifier": "all programs", "why_tests_cant": "All tree shapes.", "anchors": ["titus/pfaast.py:Ast.collect", "titus/pfaast.py:Ast.replace", "titus/pfaast.py:EngineConfig.collect", "titus/pfaast.py:EngineConfig.replace"]}
{"id": "C45", "title": "Printing a program as JSON and reading it back gives the same program", "statement": "jsonToAst(ast.toJson()) equals ast for every expression.", "quantifier": "all programs", "why_tests_cant": "All program shapes.", "anchors": ["titus/reader.py:jsonToAst", "titus/pfaast.py:Ast.jsonNode"]}
{"id": "C46", "title": "Streaming mean and variance equal the batch values", "statement": "After stat.sample.update on any sequence of weighted data starting from count 0, count, mean and variance equal the weighted totals of the whole sequence (in exact arithmetic), and merging order does not matter.", "quantifier": "all data sequences with positive weights", "why_tests_cant": "Unbounded sequences.", "anchors": ["titus/lib/stat/sample.py:Update"]}
{"id": "C47", "title": "Windowed statistics equal the batch values of the window", "statement": "stat.sample.updateWindow keeps at most windowSize entries and its last entry has the count, mean and variance of exactly the entries kept (in exact arithmetic).", "quantifier": "all data sequences, weights and window sizes, including changes of window size", "why_tests_cant": "Unbounded sequences.", "anchors": ["titus/lib/stat/sample.py:UpdateWindow"]}
{"id": "C48", "title": "Histograms conserve weight", "statement": "stat.sample.fillHistogram adds the weight to exactly one bin or exactly one flow field, and the bin is the one whose interval contains x.", "quantifier": "all histograms, x and w", "why_tests_cant": "All boundary values.", "anchors": ["titus/lib/stat/sample.py:FillHistogram"]}
{"id": "C49", "title": "Exponential smoothing stays within the data", "statement": "stat.sample.updateEWMA keeps the mean within the range of the initial mean and the data and keeps variance non-negative; updateHoltWinters forecasts extend level and trend linearly.", "quantifier": "all data sequences and alpha in [0,1]", "why_tests_cant": "Unbounded sequences.", "anchors": ["titus/lib/stat/sample.py:UpdateEWMA", "titus/lib/stat/sample.py:UpdateHoltWinters"]}
{"id": "C50", "title": "Bit-width casts are two's complement and fanout is one-hot", "statement": "cast.unsigned(x,n) is x modulo 2^n in [0,2^n); cast.signed(x,n) is the representative in [-2^(n-1),2^(n-1)); out-of-range widths raise; fanout produces exactly one true (with outOfRange) in the right position.", "quantifier": "all longs and widths, all enums and dictionaries", "why_tests_cant": "All values; the implementation goes through floating point.", "anchors": ["titus/lib/cast.py:doUnsigned", "titus/lib/cast.py:ToSigned", "titus/lib/cast.py:ToUnsigned", "titus/lib/cast.py:fanoutString"]}
{"id": "C51", "title": "Printing and parsing integers are inverse", "statement": "parse.int(s.int(x),10) = x and parse.long(s.hex(x),16) = x for all in-range x (x>=0 for hex); widths pad to the requested width.", "quantifier": "all integers", "why_tests_cant": "All integers.", "anchors": ["titus/lib/parse.py:ParseInt", "titus/lib/pfastring.py:StringInt", "titus/lib/pfastring.py:Hex"]}
{"id": "C52", "title": "Tree traversal reaches the leaf selected by the comparisons", "statement": "model.tree.simpleTree returns the score at the end of the path on which every comparison holds, for every tree and datum; missing-value policies stop or branch as documented.", "quantifier": "all trees of any depth and all data", "why_tests_cant": "Unbounded trees.", "anchors": ["titus/lib/model/tree.py:SimpleTree", "titus/lib/model/tree.py:simpleComparison"]}
{"id": "C53", "title": "A try block catches exactly the filtered errors", "statement": "try without filter turns any run-time failure into null; with a filter it returns null exactly for errors whose message or code is listed and re-raises the others.", "quantifier": "all expressions, filters and errors", "why_tests_cant": "All errors and filters.", "anchors": ["titus/genpy.py:tryCatch"]}
{"id": "C54", "title": "cast-cases and ifnotnull select the right branch", "statement": "A cast block without partial always runs the first case whose type matches the tag of the value, bound to the untagged value; ifnotnull runs then exactly when no listed value is null.", "quantifier": "all values of all union types, all case lists", "why_tests_cant": "All unions and case orders.", "anchors": ["titus/genpy.py:cast", "titus/genpy.py:ifNotNull", "titus/pfaast.py:CastBlock.walk", "titus/pfaast.py:IfNotNull.walk"]}
{"id": "C55", "title": "Generated names never repeat", "statement": "uniqueEngineName, uniqueRecordName, uniqueEnumName and uniqueFixedName return a name different from all earlier ones.", "quantifier": "all call sequences", "why_tests_cant": "Unbounded call sequences.", "anchors": ["titus/util.py:uniqueEngineName", "titus/util.py:uniqueRecordName"]}
{"id": "C56", "title": "Control flow forms follow their textbook meaning", "statement": "if/cond/while/do-until/for/foreach/forkey evaluate the clauses the conditions select, in order, and a loop body runs exactly while its condition holds; every loop iteration checks the timeout.", "quantifier": "all predicates, bodies and states", "why_tests_cant": "All iteration counts.", "anchors": ["titus/genpy.py:ifThenElse", "titus/genpy.py:cond", "titus/genpy.py:doWhile", "titus/genpy.py:doUntil", "titus/genpy.py:doFor", "titus/genpy.py:doForeach", "titus/genpy.py:ExecutionState.checkTime"]}
{"id": "C57", "title": "Bitwise operators act bit by bit and stay in range", "statement": "&, |, ^ and ~ on ints and longs give the integer whose two's complement bits are the bitwise combination of the arguments' bits, and the result is again in the range of the type.", "quantifier": "all pairs of ints and longs", "why_tests_cant": "All values, including negative ones.", "anchors": ["titus/lib/core.py:BitwiseAnd", "titus/lib/core.py:BitwiseOr", "titus/lib/core.py:BitwiseXOr", "titus/lib/core.py:BitwiseNot"]}
{"id": "C58", "title": "Array editing functions", "statement": "head, tail, last, init, insert, replace, remove (one position or a range), rotate, flatten, reverse and a.cycle return the array whose elements at every position are the documented ones, negative positions count from the end, and positions out of range raise the documented error.", "quantifier": "all arrays and positions", "why_tests_cant": "All lengths and positions, including out of range.", "anchors": ["titus/lib/array.py:Insert", "titus/lib/array.py:Replace", "titus/lib/array.py:Remove", "titus/lib/array.py:Rotate", "titus/lib/array.py:Head", "titus/lib/array.py:Tail"]}
{"id": "C59", "title": "Rounding functions give the nearest integer", "statement": "m.ceil and m.floor bound the argument tightly; m.round, cast.int and cast.long give the nearest integer with ties up, m.rint with ties to even; results out of range, infinities and NaN raise; m.signum and m.copysign have the right sign and magnitude and stay in range.", "quantifier": "all finite doubles, infinities, NaN; all integers", "why_tests_cant": "Needs every double: the two wrong regions are one double near 1/2 and the odd integers above 2^52.", "anchors": ["titus/lib/pfamath.py:Round", "titus/lib/pfamath.py:RInt", "titus/lib/pfamath.py:CopySign", "titus/lib/cast.py:ToInt", "titus/lib/cast.py:ToLong"]}
{"id": "C60", "title": "Integer totals are exact or raise", "statement": "a.sum and a.product of integers return the exact total when it fits the type and raise the documented overflow error otherwise, also when intermediate totals leave the range.", "quantifier": "all arrays of integers", "why_tests_cant": "Unbounded arrays.", "anchors": ["titus/lib/array.py:Sum", "titus/lib/array.py:Product"]}
{"id": "C61", "title": "Mutual acceptance means equality", "statement": "As the documentation of accepts promises, x.accepts(y) and y.accepts(x) together hold exactly when x and y are the same type.", "quantifier": "all pairs of types, all record tables", "why_tests_cant": "Recursive types and nested unions are unbounded.", "anchors": ["titus/datatype.py:AvroType.accepts"]}
{"id": "C62", "title": "Streaming covariances equal the batch values", "statement": "After stat.sample.updateCovariance on any stream of weighted vectors starting from count 0, count, means and covariances equal those of the whole stream (in exact arithmetic); with maps, each entry equals the covariance of the data that have both keys.", "quantifier": "all streams with positive weights, all dimensions and key sets", "why_tests_cant": "Unbounded streams and dimensions.", "anchors": ["titus/lib/stat/sample.py:UpdateCovariance"]}
{"id": "C63", "title": "Running top lists and counters", "statement": "After stat.sample.topN on any stream the state is the n largest data of the stream, largest first, earlier data first among equals; after fillCounter on any stream every label seen has its total weight and no other label has an entry.", "quantifier": "all streams, all strict weak orders, all n", "why_tests_cant": "Unbounded streams.", "anchors": ["titus/lib/stat/sample.py:TopN", "titus/lib/stat/sample.py:FillCounter"]}
{"id": "C64", "title": "Reading JSON raises only syntax errors", "statement": "Whatever JSON is given as an expression, the reader returns an expression or raises PFASyntaxException; no other Python exception escapes.", "quantifier": "all JSON values", "why_tests_cant": "All shapes of JSON.", "anchors": ["titus/reader.py:_readArgument", "titus/reader.py:_readCastCase", "titus/reader.py:_readParam"]}
{"id": "C65", "title": "Time functions follow the calendar", "statement": "The accessors of the time library give the calendar and clock reading of a timestamp (counted day by day from 1 January of year 1); the tests (isHourOfDay, isWeekend, isWorkHours, ...) agree with them; makeTimestamp gives the timestamp whose reading are its arguments and raises the documented error when there is none.", "quantifier": "all timestamps, all field values, all time zones", "why_tests_cant": "Every day of ten thousand years, every offset.", "anchors": ["titus/lib/pfatime.py:MakeTimestamp", "titus/lib/pfatime.py:Year", "titus/lib/pfatime.py:IsWorkHours", "titus/lib/pfatime.py:tz"]}
{"id": "C66", "title": "Linear algebra on arrays and maps", "statement": "la.map, scale, zipmap, add, sub, dot, transpose, trace, symmetric and truncate compute the corresponding matrix operation, on arrays of arrays (rows and columns by position) and on maps of maps (rows and columns by name, missing entries are zero); matrices that do not fit raise the documented error and no other.", "quantifier": "all matrices of all sizes, all key sets", "why_tests_cant": "All shapes, including ragged, empty and sparse ones.", "anchors": ["titus/lib/la.py:Add", "titus/lib/la.py:Dot", "titus/lib/la.py:Transpose", "titus/lib/la.py:Trace", "titus/lib/la.py:Symmetric", "titus/lib/la.py:Truncate"]}
{"id": "C67", "title": "Metrics", "statement": "The metrics of metric.* (euclidean, squaredEuclidean, chebyshev, taxicab, minkowski) are the distances their names say for every similarity function, with missing coordinates left out and the result scaled by the weights, and are Mathlib's distances when the similarity is the absolute difference; the binary similarities are the fractions of equal coordinates their documentation gives, symmetric and between 0 and 1; each raises exactly the documented errors.", "quantifier": "all data with any coordinates missing, all similarity functions with effects, all weights", "why_tests_cant": "Every pattern of missing coordinates and every user function.", "anchors": ["titus/lib/metric.py:MetricWithMissingValues", "titus/lib/metric.py:Minkowski", "titus/lib/metric.py:BinaryMetric"]}
{"id": "C68", "title": "Bins, nearest rows and linear interpolation", "statement": "interp.bin gives the number of the equal part of [low, high) that contains x (and its form with origin and width likewise); interp.nearest gives the value of the first row whose position is nearest; interp.linear, linearFlat and linearMissing find the two positions that enclose the datum (or the two nearest ones outside the table) and give the value on the line through them, the value of the nearest row, or null; tables that do not determine a line raise the documented error.", "quantifier": "all tables, all data, all metrics", "why_tests_cant": "Every table order, duplicates, ties, rounding.", "anchors": ["titus/lib/interp.py:Bin", "titus/lib/interp.py:Nearest", "titus/lib/interp.py:Interp", "titus/lib/interp.py:Linear"]}
{"id": "C69", "title": "Clusters and neighbours", "statement": "cluster.closest, closestN, neighbor.nearestK and ballR return the nearest clusters or points for the given metric, in order of distance and, at equal distance, of position; kmeansIteration gives every datum to its first nearest cluster and updates exactly the clusters with data; updateMean and neighbor.mean are weighted means; a round of k-means never increases the total squared distance; randomSeeds selects k different data.", "quantifier": "all data, all metrics and updates, all generator states", "why_tests_cant": "Every metric, every order of the data, every shuffle.", "anchors": ["titus/lib/model/cluster.py:Closest", "titus/lib/model/cluster.py:KMeansIteration", "titus/lib/model/cluster.py:RandomSeeds", "titus/lib/model/neighbor.py:NearestK", "titus/lib/model/neighbor.py:Mean"]}
{"id": "C70", "title": "Scores and link functions", "statement": "m.link.softmax is exp(x_i)/sum(exp(x_j)), a probability distribution in the order of the input; the other link functions are the functions of their names, increasing and within their ranges; the kernels are symmetric functions of their names; model.svm.score is the sum of kernel times coefficient; model.neural.simpleLayers computes W x + b with the activation between the layers; model.naive.* are log-likelihoods, the same for arrays and maps. None raises anything but its documented errors.", "quantifier": "all data, all models, all kernels and activations with effects", "why_tests_cant": "All real inputs, all network shapes, all user functions.", "anchors": ["titus/lib/link.py:SoftMax", "titus/lib/link.py:unwrapForNorm", "titus/lib/kernel.py:RBF", "titus/lib/kernel.py:Poly", "titus/lib/model/svm.py:Score", "titus/lib/model/neural.py:SimpleLayers", "titus/lib/model/naive.py:Gaussian", "titus/lib/model/naive.py:Multinomial", "titus/lib/model/naive.py:Bernoulli"]}
{"id": "C71", "title": "Random values", "statement": "For every generator within the documentation of Python's random, rand.int/long/float/double give values in the half-open range, choice/choices/sample members of the population (sample from different positions), histogram the bin that contains the drawn position, string and bytes characters within their limits, uuid4 a version 4 UUID; and they raise exactly the documented errors.", "quantifier": "all generators and states, all arguments", "why_tests_cant": "Quantifies over the random generator.", "anchors": ["titus/lib/rand.py:RandomInt", "titus/lib/rand.py:Choice", "titus/lib/rand.py:Sample", "titus/lib/rand.py:Histogram", "titus/lib/rand.py:String", "titus/lib/rand.py:UUID4"]}
{"id": "C72", "title": "Encodings and Base64", "statement": "bytes.decodeX(bytes.encodeX(s)) = s for every text that bytes.isX accepts, for ascii, latin1, utf8, utf16, utf16be and utf16le; encode and decode raise their error exactly for what isX refuses; bytes.fromBase64(bytes.toBase64(x)) = x and other texts raise error 16220.", "quantifier": "all texts and bytes, in both Python representations", "why_tests_cant": "All texts.", "anchors": ["titus/lib/bytes.py:Tester", "titus/lib/bytes.py:Decoder", "titus/lib/bytes.py:Encoder", "titus/lib/bytes.py:ToBase64", "titus/lib/bytes.py:FromBase64"]}
{"id": "C73", "title": "Imputation, enumerations, fixed and change detection", "statement": "impute.errorOnNull and defaultOnNull take the value out of the union, the functions on non-numbers distinguish nan and the infinities; enum.toInt numbers the symbols one to one; fixed.fromBytes keeps the length; stat.change.updateTrigger counts events, runs, the current and the longest run; updateCUSUM is the largest partial sum from a reset; zValue is the distance from the mean in standard deviations.", "quantifier": "all values, all event sequences", "why_tests_cant": "All sequences of events.", "anchors": ["titus/lib/impute.py:ErrorOnNull", "titus/lib/impute.py:ErrorOnNonNum", "titus/lib/enum.py:ToInt", "titus/lib/fixed.py:FromBytes", "titus/lib/stat/change.py:UpdateTrigger", "titus/lib/stat/change.py:UpdateCUSUM", "titus/lib/stat/change.py:ZValue"]}
{"id": "C74", "title": "Statistical tests", "statement": "stat.test.kolmogorov computes the largest distance of the two empirical distribution functions and from it the probability, 1 for equal samples, 0 when one is empty, and never raises an error; residual and pull are componentwise with the documented errors for misaligned arguments; updateChi2 adds the squares and counts; reducedChi2 and chi2Prob follow their cases.", "quantifier": "all samples, observations and states", "why_tests_cant": "All orders, ties and lengths.", "anchors": ["titus/lib/stat/pfatest.py:KSTwoSample", "titus/lib/stat/pfatest.py:kolomogorov_cdf", "titus/lib/stat/pfatest.py:Residual", "titus/lib/stat/pfatest.py:Pull", "titus/lib/stat/pfatest.py:UpdateChi2", "titus/lib/stat/pfatest.py:Chi2Prob"]}
{"id": "C75", "title": "Linear regression", "statement": "model.reg.linear is the matrix times the datum plus the constant in all four forms, where missing map entries are zero; linearVariance is the variance of that prediction for the given covariance of the coefficients; gaussianProcess uses the given kriging weight and fits every output alone; no function changes its arguments.", "quantifier": "all data and models of all sizes, over any commutative ring", "why_tests_cant": "All shapes and key sets.", "anchors": ["titus/lib/model/reg.py:Linear", "titus/lib/model/reg.py:LinearVariance", "titus/lib/model/reg.py:GaussianProcess", "titus/lib/model/reg.py:UpdateChi2", "titus/lib/model/reg.py:Pull"]}
{"id": "C76", "title": "Regular expressions", "statement": "re.index, contains, count, rindex, indexall, groups, groupsall, find* and replace*, split agree with each other: they are all given by the successive matches of the pattern in the text, which are in order and do not overlap; positions are positions of characters; replaceall and split keep exactly the text that no match covers; all of them return, and raise only the error for a bad pattern.", "quantifier": "all texts, all patterns (regcomp and regexec arbitrary)", "why_tests_cant": "Every pattern and text; termination.", "anchors": ["titus/lib/regex.py:Regexer", "titus/lib/regex.py:Region", "titus/lib/regex.py:IndexAll", "titus/lib/regex.py:Split", "titus/lib/regex.py:ReplaceAll", "titus/lib/regex.py:convert"]}
{"id": "C77", "title": "Distributions in closed form", "statement": "prob.dist gaussian, exponential, cauchy, uniform, weibull and lognormal: the PDF (or the logarithm LL) is the density of the distribution; the CDF is a continuous distribution function with this density, from 0 to 1; the QF is the inverse of the CDF; a parameter out of range gives the first code of the function, an argument that is not finite or a level outside the unit interval the second; nothing else is raised.", "quantifier": "all parameters, arguments and levels, including infinities and nan (real arithmetic)", "why_tests_cant": "A density and its integral for every parameter; inverse functions on a continuum.", "anchors": ["titus/lib/prob/dist.py:GaussianDistribution", "titus/lib/prob/dist.py:ExponentialDistribution", "titus/lib/prob/dist.py:CauchyDistribution", "titus/lib/prob/dist.py:UniformDistribution", "titus/lib/prob/dist.py:WeibullDistribution", "titus/lib/prob/dist.py:LognormalDistribution"]}
{"id": "C78", "title": "Distributions from the gamma and beta functions", "statement": "prob.dist gamma, chi2, beta, t and f: the PDF is the density of the distribution; gammaCDF and chi2CDF are the regularized incomplete gamma function within a relative error of 4e-14 and never raise anything but the codes of the function; parameters out of range give the first code, arguments that are not finite the second.", "quantifier": "all parameters and arguments, including infinities and nan (real arithmetic)", "why_tests_cant": "The error of a truncated series for every argument; normalizing constants for every real parameter.", "anchors": ["titus/lib/prob/dist.py:GammaDistribution", "titus/lib/prob/dist.py:Chi2Distribution", "titus/lib/prob/dist.py:BetaDistribution", "titus/lib/prob/dist.py:TDistribution", "titus/lib/prob/dist.py:FDistribution", "titus/lib/spec.py:regularizedGammaP", "titus/lib/spec.py:logBetaFunction"]}
{"id": "C79", "title": "Discrete distributions", "statement": "prob.dist binomial, geometric, poisson, hypergeometric and negativeBinomial: the PDF is the probability of the number, the probabilities add up to 1; the CDF is the sum of the probabilities up to the argument, 0 below the support and 1 above it; the QF is the least number whose CDF reaches the level, and is always found; parameters out of range give the first code of the function, levels outside the unit interval the second.", "quantifier": "all numbers of trials, balls and failures, all probabilities and levels (real arithmetic)", "why_tests_cant": "Loops whose length depends on the level; sums over supports of any size.", "anchors": ["titus/lib/prob/dist.py:BinomialDistribution", "titus/lib/prob/dist.py:GeometricDistribution", "titus/lib/prob/dist.py:PoissonDistribution", "titus/lib/prob/dist.py:HypergeometricDistribution", "titus/lib/prob/dist.py:NegativeBinomialDistribution", "titus/lib/spec.py:nChooseK"]}
{"id": "C80", "title": "Special functions and quantiles by search", "statement": "The bisection of the f, lognormal and t quantiles ends for every continuous distribution function, at a point whose probability differs from the level by at most 1e-8; poissonCDF is the sum of the probabilities within 2.8e-5 wherever the series is used, and poissonQF the first number at which it exceeds the level; m.special nChooseK, lnBeta, erf, erfc and lnGamma compute the functions of their names and raise their code exactly outside the domain.", "quantifier": "all continuous increasing functions, all levels strictly between 0 and 1, all arguments (real arithmetic)", "why_tests_cant": "Termination of a search on a continuum; the error of a truncated series for every argument.", "anchors": ["titus/lib/prob/dist.py:FDistribution", "titus/lib/prob/dist.py:LognormalDistribution", "titus/lib/prob/dist.py:TDistribution", "titus/lib/prob/dist.py:PoissonDistribution", "titus/lib/spec.py:NChooseK", "titus/lib/spec.py:LnBeta", "titus/lib/spec.py:Erf", "titus/lib/spec.py:Erfc", "titus/lib/spec.py:LnGamma", "titus/lib/spec.py:gser", "titus/lib/spec.py:regularizedGammaQ"]}
{"id": "C81", "title": "Engine configurations come back from print", "statement": "An engine configuration that was read from JSON, printed with or without positions and read again is the same configuration, including its functions, cells, pools, metadata and options and a name that was made up; reading either succeeds or raises PFASyntaxException; what is accepted has an action, has zero and merge exactly when its method is fold, and has no cell or pool that is both shared and rolled back.", "quantifier": "all JSON documents, all configurations, all positions", "why_tests_cant": "The documents are unbounded trees with seventeen optional parts; tests read a handful of them.", "anchors": ["titus/reader.py:_readEngineConfig", "titus/reader.py:_readFcnDefMap", "titus/reader.py:_readFcnDef", "titus/reader.py:_readCells", "titus/reader.py:_readCell", "titus/reader.py:_readPools", "titus/reader.py:_readPool", "titus/pfaast.py:EngineConfig", "titus/pfaast.py:Cell", "titus/pfaast.py:Pool"]}
{"id": "C82", "title": "Patterns and places in JSON documents", "statement": "titus.producer.tools: get finds what is at an index, assign changes that place and no other, remove removes it, a casual index is split into its parts; a pattern matches exactly the documents that it describes, original is the matched part, modified differs from it only by substitutions, groups are the named parts; search yields every matching place once, inner ones first, and index, contains, count, findRef and findCopy agree with it; assignAt replaces the places that match.", "quantifier": "all documents, indexes and patterns (no bound on depth)", "why_tests_cant": "Documents and patterns are unbounded trees; the generator works on a document that changes meanwhile.", "anchors": ["titus/producer/tools.py:splitIndex", "titus/producer/tools.py:get", "titus/producer/tools.py:assign", "titus/producer/tools.py:assignAt", "titus/producer/tools.py:remove", "titus/producer/tools.py:getmatch", "titus/producer/tools.py:search", "titus/producer/tools.py:searchFirst", "titus/producer/tools.py:count", "titus/producer/tools.py:findRef", "titus/producer/tools.py:findCopy"]}
{"id": "C83", "title": "Chains: names and types", "statement": "titus.producer.chain: cells, pools, functions, actions and types of different engines get different names, also different from the names that the chain adds, and the names of library functions stay; neighbours are put together exactly if the input of the second takes the output of the first, and then both types get the same name; otherwise PFAChainError is raised.", "quantifier": "all lists of engines, all names, all types", "why_tests_cant": "Names are arbitrary strings; types are unbounded trees.", "anchors": ["titus/producer/chain.py:ast"]}
{"id": "C84", "title": "Chains: the document does what the engines do", "statement": "The document that titus.producer.chain makes of engines that pass the check passes the check too, and for every sequence of inputs it gives the results, the emitted values and the contents of cells and pools that the engines give when the values are handed on one by one.", "quantifier": "all chains of map and emit engines of any length, all programs, all sequences of inputs, any library that computes and calls", "why_tests_cant": "A simulation between two interpreters for all programs; inputs and chains have no bound.", "anchors": ["titus/producer/chain.py:ast"]}
{"id": "C85", "title": "Growing decision trees", "statement": "titus.producer.cart: a dataset has exactly the rows it was made from; growing a tree ends without an error for every dataset with rows and fields of equal length; every row comes to exactly one leaf, which has the rows that the splits on its path let pass and no leaf is empty; the number of levels is limited as asked; the field that is split is the first with the best gain; the score of a leaf is the mean, or the first most frequent text.", "quantifier": "all datasets, all conditions for stopping, all sort orders of equal values, all logarithms", "why_tests_cant": "Trees and datasets have no bound; the tree depends on data.", "anchors": ["titus/producer/cart.py:Dataset", "titus/producer/cart.py:TreeNode"]}
{"id": "C86", "title": "Gains of splits", "statement": "The split that is chosen for a field is the best of all splits of its kind: for numbers the cut, for texts the set of texts, with the least remaining sum of squares or entropy; and the gain that is reported is that of the split.", "quantifier": "all columns and predictands, all sort orders of equal values, all logarithms", "why_tests_cant": "An optimum over all cuts and all subsets.", "anchors": ["titus/producer/cart.py:numericalNVarianceGainTerm", "titus/producer/cart.py:categoricalNVarianceGainTerm", "titus/producer/cart.py:numericalEntropyGainTerm", "titus/producer/cart.py:categoricalEntropyGainTerm"]}
{"id": "C87", "title": "Documents made from trees", "statement": "For every tree that was grown the document can be written; it is loaded as it was written, and on every row of the dataset the engine gives the score of the leaf that has the row.", "quantifier": "all grown trees, all data types, all optional fields, all rows", "why_tests_cant": "Composition of growing, writing, loading and walking for all datasets.", "anchors": ["titus/producer/cart.py:pfaValueType", "titus/producer/cart.py:pfaType", "titus/producer/cart.py:pfaValue", "titus/producer/cart.py:pfaDocument"]}
{"id": "C88", "title": "Optimizing clusters", "statement": "titus.producer.kmeans: the centers at the start are different rows, as many as asked for, and the random choice of a new center can always end; an iteration gives every row to the first nearest center and moves every center to the mean of its rows, or to a row different from the other centers if it has too few; weights count as multiplicities of rows; the sum of squared distances never rises; the optimization ends.", "quantifier": "all datasets, centers, random choices and weights (exact arithmetic)", "why_tests_cant": "Termination and monotonicity of an iteration that depends on data and on chance.", "anchors": ["titus/producer/kmeans.py:KMeans", "titus/producer/kmeans.py:newCluster", "titus/producer/kmeans.py:randomSubset", "titus/producer/kmeans.py:closestCluster", "titus/producer/kmeans.py:iterate", "titus/producer/kmeans.py:stepup", "titus/producer/kmeans.py:optimize"]}
{"id": "C89", "title": "Conditions for stopping", "statement": "The stopping conditions of titus.producer.kmeans stop exactly when they say: after a number of iterations, when all or half of the changes are below a threshold, when no cluster jumped, when no cluster moves or jumps, and while all or any of a list of conditions continue.", "quantifier": "all reports of iterations, all thresholds, all lists of conditions", "why_tests_cant": "Conditions on lists of any length, with missing entries.", "anchors": ["titus/producer/kmeans.py:clusterJumped", "titus/producer/kmeans.py:maxIterations", "titus/producer/kmeans.py:allChange", "titus/producer/kmeans.py:halfChange", "titus/producer/kmeans.py:whileall", "titus/producer/kmeans.py:whileany", "titus/producer/kmeans.py:moving"]}
{"id": "C90", "title": "Documents made from clusters", "statement": "The document has all centers, in ascending order if asked for, with the given names and with populations that count the rows to which a center is the closest; it can be loaded for every metric and every choice of options; and on every row the engine gives the name of the cluster to which the row belongs.", "quantifier": "all datasets, centers, names, metrics and options", "why_tests_cant": "Composition of sorting, writing, loading and scoring for all datasets.", "anchors": ["titus/producer/kmeans.py:pfaValue", "titus/producer/kmeans.py:pfaDocument", "titus/producer/kmeans.py:Metric"]}
{"id": "C91", "title": "Median, mode and quantiles", "statement": "a.median gives the middle element of the sorted array, or the mean of the two middle ones for floating point numbers and the lower one otherwise; as many numbers are at most as at least the median; a.ntile gives the element at a position between first and last, interpolated for floating point numbers, never falls as the level grows, and at level 1/2 is the median; a.mode gives the median of the values that occur most often; only an empty array or a level that is not a number is refused.", "quantifier": "all arrays of any element type with an order, all levels including infinities and nan", "why_tests_cant": "Arrays of any length, with equal elements; levels on a continuum and their rounding.", "anchors": ["titus/lib/array.py:Median", "titus/lib/array.py:Mode", "titus/lib/array.py:NTile"]}
{"id": "C92", "title": "Logarithmic sums and means", "statement": "a.lnsum is the logarithm of the product, a.mean the mean and a.geomean the geometric mean of the numbers, between the least and the greatest; a.logsumexp is the logarithm of the sum of exponentials, at least the greatest number and at most that plus the logarithm of the length, and moves with a shift; numbers that are not finite have the results that the limits have.", "quantifier": "all arrays of numbers including infinities and nan (real arithmetic)", "why_tests_cant": "Arrays of any length; identities of real functions.", "anchors": ["titus/lib/array.py:LnSum", "titus/lib/array.py:Mean", "titus/lib/array.py:GeoMean", "titus/lib/array.py:LogSumExp"]}
{"id": "C93", "title": "Transformations", "statement": "titus.producer.transformation: the fields of a transformation are the symbols that its expressions refer to; substitution replaces exactly the references, and the value of the result is that of the expression with the values of the substitutes; positional expressions come first and named ones follow in the order of their names; the numpy form computes in every row what the PFA expression computes, and the transformed table has these values, column by column in this order; new, let and expr hold the expressions with the substitutes put in.", "quantifier": "all expressions, substitutions and tables, any numpy functions that agree with the PFA functions on elements", "why_tests_cant": "Expressions are unbounded trees; tables have any number of rows.", "anchors": ["titus/producer/transformation.py:Transformation"]}
{"id": "C94", "title": "Histograms in the plane", "statement": "stat.sample.fillHistogram2d adds the weight of a point to exactly one place: to the bin whose half-open rectangle has the point, or to the overflow, underflow or nanflow counter of the place where it lies outside; every point has such a place; nothing else is changed and the sum of all counters grows by the weight; bounds, numbers of bins and sizes that do not fit are refused.", "quantifier": "all histograms, points and weights including infinities and nan", "why_tests_cant": "Every point of the plane, including the edges of the bins.", "anchors": ["titus/lib/stat/sample.py:FillHistogram2d"]}
{"id": "C95", "title": "Inverses, determinants, eigenvectors and distances", "statement": "la.inverse gives the matrix whose products with the argument are unit matrices (for maps with rows and columns exchanged), and a pseudoinverse otherwise; la.det gives the determinant, for maps independent of the order of the keys, nan for numbers that are not finite; la.eigenBasis gives the eigenvectors of the symmetric part over the roots of the eigenvalues, so that the basis turns the matrix into the unit matrix, with descending eigenvalues and first components that are not negative; stat.test.mahalanobis and model.reg.mahalanobis give a distance (zero for equal arguments only, symmetric, with the triangle inequality) that is Euclid's in that basis; arguments of wrong size are refused, singular ones too, and no other exception is raised.", "quantifier": "all matrices of any size over the real numbers, all orders of keys, any numpy.linalg as documented", "why_tests_cant": "Identities of real matrices of any size.", "anchors": ["titus/lib/la.py:Inverse", "titus/lib/la.py:Det", "titus/lib/la.py:EigenBasis", "titus/lib/stat/pfatest.py:Mahalanobis", "titus/lib/model/reg.py:Mahalanobis"]}
{"id": "C96", "title": "PrettyPFA trees to expressions", "statement": "titus.prettypfa: every PFA expression has a tree of the PrettyPFA parser whose asExpr is that expression, types and embedded JSON included; conversely whatever tree is converted, the result satisfies the constructors' conditions, names of cells, pools and functions are resolved to these, and a tree is either converted as it is written or refused.", "quantifier": "all expressions, all trees of the parser, all sets of cell, pool and function names", "why_tests_cant": "Expressions, types and JSON are unbounded trees; the converse ranges over all trees.", "anchors": ["titus/prettypfa.py:Mini", "titus/prettypfa.py:MiniCall", "titus/prettypfa.py:MiniAssignment", "titus/prettypfa.py:MiniIf"]}
{"id": "C97", "title": "Parsing of PrettyPFA", "statement": "titus.prettypfa: every text has exactly one result, a list of expressions or an error; the tree that the parser makes has exactly the tokens of the text, in order, and follows the grammar; operators of one rank are read from the left and those of a higher rank first, comparisons have no chains; every list of PFA expressions has a text, and that text is read as these expressions; a text that the parser refuses raises PrettyPfaException.", "quantifier": "all texts of any length, all token lists, all expressions", "why_tests_cant": "Texts and trees are unbounded; the parser is a stack machine with tables of 229 states.", "anchors": ["titus/prettypfa.py:PfaTokenizer", "titus/prettypfa.py:Parser"]}
{"id": "C98", "title": "PrettyPFA documents", "statement": "titus.prettypfa: the text of a document has exactly one result, an engine configuration that its constructor accepts, or an error; the configuration has under each heading what the content of the section means, with defaults for missing sections, whatever the order of the sections; input, output and action are needed; types are known under their names after their definition, and functions, cells and pools are known in all expressions; every engine configuration has a text, and that text is read as this configuration.", "quantifier": "all texts of any length, all lists of sections, all engine configurations", "why_tests_cant": "Texts and documents are unbounded; the parser is a stack machine with tables of 274 states.", "anchors": ["titus/prettypfa.py:Section", "titus/prettypfa.py:MiniNamedFcnDef", "titus/prettypfa.py:MiniCellPool", "titus/prettypfa.py:Parser"]}
{"id": "C99", "title": "Types as JSON", "statement": "titus.datatype: types that are printed as JSON one after the other with one memo of names are read back in that order as the same types, every name with its definition and every record that is reached, recursive ones included, with its fields, defaults and orders; a definition is printed once and afterwards named; printing a type twice gives the same JSON.", "quantifier": "all types and tables of records, recursive or not, all lists of types, any checks of the reader that the types pass", "why_tests_cant": "Types are unbounded trees and records refer to each other in any way.", "anchors": ["titus/datatype.py:AvroType", "titus/datatype.py:AvroRecord", "titus/datatype.py:AvroPlaceholder"]}
{"id": "C100", "title": "Python code as PFA", "statement": "titus.producer.expression: Python expressions made of numbers, strings, names, operators, comparisons and their chains, and/or, conditional expressions, calls, attributes, indexes, cells and pools are converted to JSON that is read as the PFA expression with the same meaning: its value is that of the Python expression for every meaning of the functions in which && and || are and/or and comparisons give truth values. The first assignment to a name declares it and the later ones change it. Code that cannot be converted is refused with PythonToPfaException.", "quantifier": "all trees of Python's grammar, all sets of symbols, cells, pools and substitutions, all meanings of the functions", "why_tests_cant": "Expressions are unbounded trees with every combination of operators, and statements depend on all statements before them.", "anchors": ["titus/producer/expression.py:pfa", "titus/producer/expression.py:fcn", "titus/producer/expression.py:_statement", "titus/producer/expression.py:_expression", "titus/producer/expression.py:_unfold"]}
{"id": "C101", "title": "Patterns and changes in the inspector", "statement": "titus.inspector: a pattern that is typed on the command line (constants, numbers, strings, regular expressions, ranges, approximate numbers, groups, alternatives, objects and arrays with or without ellipsis) matches exactly what is written; json count and json index find every place that is so, once and in order; json change replaces, parts before wholes, exactly the matches for which the answer is yes or all, with the replacement in which (n) is what the n-th group matches; after revert or an exception the document is as it was. depthGreaterThan compares the depth of a document.", "quantifier": "all typed patterns and replacements, all documents, all sequences of answers", "why_tests_cant": "Patterns and documents are unbounded trees, and the loop changes the document that it searches while it depends on all answers before.", "anchors": ["titus/inspector/parser.py:Parser", "titus/inspector/parser.py:JsonObject", "titus/inspector/parser.py:Group", "titus/inspector/jsongadget.py:ChangeCommand", "titus/inspector/jsongadget.py:depthGreaterThan", "titus/inspector/defs.py:extaction"]}
{"id": "C102", "title": "The outline of a document shows it as it is", "statement": "For every JSON document, look() with inlineDepth not negative and indexWidth at least 3 writes lines which, without the index column, are JSON for the document (without the keys \"@\" if these are dropped), where exactly the lists and objects that are below maxDepth and do not fit on a line are dots; if there are levels enough, all of it is there. Every line is for one part of the document or closes a bracket, every part that is not within a line has a line, and what stands in its index column leads to the part when it is given to get().", "quantifier": "for all documents, depths, widths and texts of scalars", "why_tests_cant": "Depths and widths are free and documents are recursive; commas are put at the end of lines and taken away again, so that each nesting can go wrong in its own way.", "anchors": ["titus/producer/tools.py:461-545"]}
{"id": "C103", "title": "Externalizing cells and pools moves the data and nothing else", "statement": "scripts/pfaexternalize: for every document and every choice of cells and pools, the document that is written is JSON for the document in which \"init\" of each chosen cell or pool is the name of a file and \"source\": \"json\" stands after it, and the rest is as it was; each file has JSON for what was \"init\"; what the reader makes of a changed cell has the same type, shared and rollback, and its data come from the file. A name without a file goes to the file name.json.", "quantifier": "for all documents, all choices of names and files, all texts of scalars", "why_tests_cant": "Documents are recursive, events come one at a time, and what is written where depends on the path of all that is open.", "anchors": ["scripts/pfaexternalize:31-109", "scripts/pfaexternalize:207-247", "titus/reader.py:878-995"]}
{"id": "C104", "title": "pfasize counts what is in cells and pools", "statement": "scripts/pfasize: there is one report for each \"init\" of a cell or a pool, in order, and it counts the arrays, maps, keys, items, strings, numbers and constants of the data, their depth and the lengths of their strings.", "quantifier": "for all documents", "why_tests_cant": "Documents are recursive; the counters are shown at some events only.", "anchors": ["scripts/pfasize:26-119"]}
{"id": "C105", "title": "Random data conform to their type", "statement": "scripts/pfarandom: whatever is drawn, makeData gives a datum that conforms to the type (integers within their limits, fixed data of the size, text of ten characters of the ranges, arrays of ten items at most, records with exactly their fields, union data with their tags); it ends in a value for every type that is not made of itself; every integer, symbol and truth value can be drawn.", "quantifier": "for all types and tables of records, all sequences of draws", "why_tests_cant": "Draws and types are unbounded; a run with one seed shows one datum.", "anchors": ["scripts/pfarandom:28-89"]}
{"id": "C106", "title": "Types shown as text are PrettyPFA", "statement": "avscToPretty writes a type as a text which the PrettyPFA parser reads as exactly that type, at every depth of indentation: names, arrays, maps, unions, fixed, enum and record types with and without namespaces. Records without fields, fields with reserved names and function types are written as texts that the parser refuses.", "quantifier": "all Avro schemas as JSON, all indentations, all tables of substitutions and type names", "why_tests_cant": "the texts are unboundedly nested and indented; reading them back goes through the lexer and the LR parser, and only rare schemas (no fields, reserved names) fail", "anchors": ["titus/util.py:337-399", "titus/prettypfa.py:1213-1451", "titus/prettypfa.py:1625-2134"]}
{"id": "C107", "title": "Completions in square brackets lead to the parts they name", "statement": "extcomplete of the inspector offers, for the list or object that the typed indexes lead to, one completion for each of its parts, in order. Each completion is read by the parser of the command line as exactly the index of its part, and extaction with this index added gives the part. It ends with a closing bracket if the part is a scalar and with a comma if it is a list or an object, so that completing again and again writes a path that is read as a whole. Keys that do not read as themselves (numbers, hyphens, quotation marks) are the exceptions.", "quantifier": "all documents, all typed indexes, all keys", "why_tests_cant": "documents and paths are unbounded; whether a key reads as itself depends on all tokens of the lexer in their order, and keys are arbitrary text", "anchors": ["titus/inspector/defs.py:219-258", "titus/inspector/defs.py:extaction", "titus/inspector/parser.py:441-529", "titus/inspector/parser.py:560-585"]}
{"id": "C108", "title": "Documents written by pfarandom pass the semantic check", "statement": "The document that pfarandom writes for an input type and an output type (with or without a step that raises an exception) passes the semantic check: the names of its variables are new and valid in every scope, each library function has a signature for its arguments, branches have a common type, and the type of the action is accepted by the output type. makePFA makes a program for exactly the types that do not contain themselves. Recursive types and unions of several records, enumerations or fixed types are the exceptions.", "quantifier": "all types in all sets of records, all depths", "why_tests_cant": "types nest without bound and each array, map or union opens scopes with variables of its own; the types of branches are joined pairwise and the failures depend on combinations of members of unions", "anchors": ["scripts/pfarandom:91-142", "scripts/pfarandom:183-201", "titus/pfaast.py:883-1021", "titus/signature.py:194-285"]}
{"id": "C109", "title": "The inspector keeps the documents it was given", "statement": "Each name in the memory of the inspector stands for the document last put there: load, rename, drop, save, externalize and internalize change the document or file they name and no other, and a failing command changes nothing. rename moves a document to another name without losing it, what was saved is loaded again unchanged, externalize followed by internalize restores the document, the option cell decides which of a cell and a pool of the same name is meant, what the pfa commands show of a document is what the document is now, and a wrong number of arguments is reported as an error of the inspector.", "quantifier": "all documents, all contents of memory and files, all sequences of commands", "why_tests_cant": "the engine configuration of a document is remembered across commands, so that what is shown depends on the whole history of the session", "anchors": ["titus/inspector/main.py:41-146", "titus/inspector/pfagadget.py:540-602", "titus/inspector/pfagadget.py:662-719", "titus/inspector/defs.py:338-376", "titus/inspector/defs.py:509-533"]}
{"id": "C110", "title": "json count, index and find of the inspector agree and what they print can be typed", "statement": "For a pattern and a document or a part of it, json count prints the number of lines of json index and of matches of json find. There is a line for each place that matches, once, in order, and find shows what is there. The index printed for a match, typed in square brackets, is read as this index and leads to the match. The options of find are checked, the first of several of the same name counts, and an unknown one is reported as an error of the inspector.", "quantifier": "all documents, all patterns that do not raise, all parts", "why_tests_cant": "matches may be at any depth below keys of arbitrary text, and what is printed must agree with all tokens of the lexer of the command line", "anchors": ["titus/inspector/jsongadget.py:195-223", "titus/inspector/jsongadget.py:262-305", "titus/inspector/jsongadget.py:348-433", "titus/producer/tools.py:421-431", "titus/inspector/defs.py:260-287"]}
{"id": "C111", "title": "What the inspector says of functions, cells and pools is right", "statement": "pfa userfcns lists each user function once, sorted by name, and says of it truly whether it is recursive, whether it can reach a recursive function, and otherwise the length of its longest chain of calls; whether it can modify a cell or pool; and which functions call it. pfa calls lists what each function calls directly. pfa cells and pfa pools list each cell or pool once, sorted, with its flags, its type and the number of elements of a pool.", "quantifier": "all call graphs, all sets of cells and pools", "why_tests_cant": "call graphs are arbitrary and may have cycles; the statements are about all chains of calls", "anchors": ["titus/inspector/pfagadget.py:310-342", "titus/inspector/pfagadget.py:380-381", "titus/inspector/pfagadget.py:440-473", "titus/genpy.py:1660-1743", "titus/pfaast.py:1213-1240"]}
{"id": "C112", "title": "Commands of the inspector are found by their names and back undoes cd", "statement": "Words typed after each other lead from group to group to the command of these names, which is given the rest of the line; help, an empty line, an unknown name and what is no word are treated as documented. Tab completion offers exactly the names that begin with what was typed in the group that the words before lead to, and what it offers can be run. A completed path can be used as it is. As many back commands as cd commands lead back to where one was; cd accepts each path that leads to a directory, and a command that fails changes nothing.", "quantifier": "all trees of commands, all lines, all sequences of cd and back, all file systems", "why_tests_cant": "groups nest without bound and the completer reads the line with another expression than the parser; the stack depends on the whole history of the session", "anchors": ["titus/inspector/defs.py:189-217", "titus/inspector/defs.py:535-610", "titus/inspector/main.py:153-166"]}
