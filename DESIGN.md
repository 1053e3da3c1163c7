# Formal model of titus (animator/titus2) in Lean 4

## What is here

* `properties.jsonl` - the properties (C01, C02, ...), stated in terms of the API.
* `lean/Verif/**` - the Lean model of the Python code, specifications and theorems.
* `MANIFEST.json` - property to theorem map.
* `seeded/LOG.jsonl` - record of the mutation runs (realistic bugs put in a scratch
  copy of the model, and which theorems noticed).

Each area holds definitions mirroring Python functions branch by branch (each with a comment citing
file and lines in /repo), small specifications that do not use the model's helpers, the
theorems, and beside them concrete cases that meet their hypotheses.

## Conventions of the model

* Exceptions are values: `Except Err a`, where `Err` carries the documented error code
  or the Python exception class.
* Python `int` is Lean `Int` (unbounded in both).
* Python lists are `List`; Python dicts are association lists in insertion order with
  distinct keys (`PyDict`), because the order is observable in Python 3.
* Python strings are `String` or `List Char`; Python `bytes` are lists of naturals below 256.
* Floating point: Lean's kernel has no theory of IEEE arithmetic. Where only the order and
  the special values matter, a double is `Flt` (NaN, -inf, finite rational, +inf). Where rounding
  matters for a claim it is modelled (`Arith/Double.lean`: nearest binary64, ties to even; `Stat/Num.lean`:
  with overflow). Where the algebra matters (streaming statistics) the theorems are in exact
  arithmetic, and violations are shown for the rounded operations. Each file says which.
* Recursion that Python bounds by its recursion limit is bounded by fuel; running out of fuel is
  RecursionError. Theorems either hold for every fuel or say how much is enough.
* User functions passed to library functions are arbitrary computations that may raise and may change
  state (`Lib/Eff.lean`).
* Where the code violates the property in `properties.jsonl`, the model keeps the code's
  behaviour; a theorem proves the violation on a concrete witness (name ends in
  `_violation`), and a `_partial` theorem proves the property under a guard that
  excludes it. A property with a violation is `partial` in the manifest.

## What is modelled

| modules | code |
|---|---|
| `Py` | dictionaries and errors of Python |
| `Slice` | util.py `startEnd`, `negativeIndex`; subseq and subseqto of the array, string and bytes libraries; bytes/string conversion |
| `Scope` | util.py `DynamicScope` |
| `Path` | genpy.py `get`, `update` |
| `Engine` | genpy.py generated class 165-304, Cell and Pool 505-600, `fromAst` 1436-1559, `snapshot` 1632-1658, with object identities |
| `Lock` | Cell.update and Pool.update as interleaved steps of any number of threads |
| `CallGraph` | genpy.py 1660-1743 |
| `Ast` | the node classes of pfaast.py 1309-6294: collect, replace, call sets, the deadlock check |
| `Avro` | datatype.py: `accepts` 188-287, `jsonDecoder` 873-953, `jsonEncoder` 955-1028, `compare` 1030-1156, `checkData` 1183-1334 |
| `Forward` | datatype.py `ForwardDeclarationParser` and `AvroTypeBuilder` 701-749, 816-869 |
| `Pack` | genpy.py pack/unpack 1102-1264, pfaast.py `BinaryFormatter` 5492-5692 |
| `Sig` | signature.py (versions, lifespans, label data, signature matching), P.py patterns, options.py |
| `Lang` | `walk` of every node class and of EngineConfig, SymbolTable, GeneratePython and the helpers of genpy.py 480-1323 |
| `Reader` | reader.py 287-995 (expressions, functions, cells, pools, engine configurations) and `jsonNode` of every node class |
| `Chain` | producer/chain.py `ast` (names, types, replacers, functions, cells, pools, action), against the interpreter of `Lang`; not `begin` and `end` of the engines, the chain version, conversion of embedded cells |
| `Cart` | producer/cart.py: `Dataset` (fromIterable, toNumpy, select), `TreeNode` (canSplit, splitOnce, splitUntil, the four gain terms, score, walkNodes, pfaValueType, pfaType, pfaValue and the document), with exact arithmetic; the sort order of equal values and the logarithm are parameters; not infinities and nan, logging |
| `Lloyd` | producer/kmeans.py: `KMeans` (construction, newCluster, randomSubset, closestCluster, iterate, the loops of optimize and stepup, centers, pfaValue, the type and action of the document), all stopping conditions, the names written by the metrics; exact arithmetic, so a mean is finite exactly if there are rows; the random generator is a parameter; not the printing of the conditions, datasets of integers (numpy refuses to add a fraction in place), rows that differ only in the sign of zero, and the rounded logarithm of stepup |
| `Lib.Quant`, `Lib.LogSum` | lib/array.py: `Median`, `Mode`, `NTile`, `LnSum`, `Mean`, `GeoMean`, `LogSumExp`; `dataType is "double"` is taken as equality |
| `Producer.Transform` | producer/transformation.py: `Transformation` (findFields, replace, toNumpyExpr, construction, transform of 2-d tables, new, let, expr); numpy functions are arbitrary functions on elements, applied elementwise with broadcasting of numbers; dicts and record arrays are returned without stacking, which is not modelled |
| `Pretty` | prettypfa.py: the conversion of parsed trees (`Mini…` classes: asExpr, asExprs, asType, asJson) with substitutions as parameters; not the names that a counter gives to unnamed types, and positions |
| `Pretty/Lr`, `Lex`, `Grammar`, `Lalr`, `Tables`, `Shapes`, `Print`, `Parse`, `Order` | prettypfa.py 1213-1451 (tokens), 1625-2134 (productions and their values, precedences, errors) for texts of expressions. ply.yacc is modelled as an LR driver with tables; the tables are computed outside Lean by the LALR(1) algorithm and precedence rules that ply documents, and Lean checks that they read every tree of `Shapes.lean`, that every step follows the grammar, and that no run is endless; that ply computes the same tables is trusted. All tokens are made before the parser begins. Not modelled: escapes with numbers in strings, positions in messages, and the sections of a document |
| `Pretty/Doc`, `DocSay`, `DocTables`, `DocShapes`, `DocText`, `DocLimits` | prettypfa.py 115-296 (Section), 782-791, 843-886, 1178-1185 (functions, cells, pools, names of types), 1250-1262 (headings), 1456-1560 and 1753-1871 (productions of documents). The tables are computed and checked as those of expressions. Not modelled: resolving of types at the end, the counter behind the name of an engine without name (a parameter) |
| `Pretty/Words` | conditions on the words of expressions and documents under which the printed text of `Print` and `DocText` is read back |
| `Pretty/Shown` | util.py 337-399 (`avscToPretty`), read back by the lexer and the parser of `Lex` and `Tables`. Not modelled: sizes that are no integers, iterating over something that is no list |
| `Types` | datatype.py 289-318, 419-430, 458-469, 487-488, 506-507, 535-549, 572-573, 610-628, 662-672: printing of types with a memo of names. The reader is the library `avro`, with its checks as parameters |
| `Producer/Python`, `PythonBack`, `PythonRun` | producer/expression.py, from the trees of Python's `ast` module to JSON; parsing of Python is not modelled |
| `Arith` | core.py and pfamath.py arithmetic, comparison, logic, bitwise operators |
| `Lib` | array.py, map.py, pfastring.py, parse.py, cast.py, pfamath.py rounding (see the files for the functions) |
| `Stat` | stat/sample.py |
| `Tree` | model/tree.py |
| `La` | la.py (numpy.linalg over the reals, as documented); mahalanobis of stat/pfatest.py and model/reg.py |
| `Near` | interp.py; metric.py; model/cluster.py; model/neighbor.py |
| `Score` | link.py without probit; kernel.py; model/svm.py; model/neural.py; model/naive.py; model/reg.py without the fit of gaussianProcess and mahalanobis |
| `Misc` | rand.py without gaussian; bytes.py; regex.py (regcomp and regexec arbitrary); impute.py; enum.py; fixed.py; stat/change.py; stat/pfatest.py without mahalanobis and the chi-squared distribution |
| `Prob` | prob/dist.py without the distribution functions that go through the incomplete beta function and without the Newton iterations; spec.py: the functions of m.special, regularizedGammaP, gser, nChooseK, logBetaFunction |
| `Time` | pfatime.py and the calendar of Python's datetime |
| `Util` | util.py unique names |
| `Producer` | producer/tools.py: indexes, patterns, searching, replacing, `look` |
| `Inspector` | inspector/parser.py: what typed patterns and replacements become, from the productions of the grammar; inspector/jsongadget.py: `json count`, `json index`, `json find`, `json change` and `depthGreaterThan`; inspector/defs.py: `extaction`, `extcomplete`, `Model.engineConfig`, `SimpleCommand.action`, `CommandGroup.complete`, `CommandGroup.action`, `pathcomplete`; inspector/main.py: `load`, `rename`, `drop`, `save`, `cd`, `back`; inspector/pfagadget.py: the actions of `externalize` and `internalize`, what `userfcns` says of calls, `calls`, `cells`, `pools` |
| `Scripts` | scripts/pfaexternalize and scripts/pfasize: what is done with the events, what is written and counted, arguments (ijson is a list of events; progress messages are left out); scripts/pfarandom: `makeData`, `makePFA` and the document that is written (as the tree the reader makes of it; types written by name are the types); scripts/pfachain is not modelled |

## What is not modelled

* The libraries `avro`, `json`, `re`, `struct`, `base64`, `itertools`, `threading`, `numpy`: their documented
  behaviour is modelled where the code relies on it; each file says what is assumed. In particular
  `json.loads(json.dumps(v)) = v`, the reading of one type declaration by `avro`, and Python's `sorted` being a
  stable sort.
* Rounding, where a file says "exact arithmetic"; the sign of zero.
* pmml conversion, the other commands of the inspector, and the library modules not in the table above.
* Reading and printing of types inside expressions goes as far as their JSON (`Reader`); types and their JSON are in `Types`.
* Loading the content of a cell from a file or a URL is a parameter of the model of engine configurations.
* numpy arrays given as input.

## Results

The notes say what the theorems cover, and which behaviour of the code violates the property.

* **C01 Slice and slice-replacement agree and never leave the sequence** - proved. a.subseq, a.subseqto, s.substr, s.substrto, bytes.subseq, bytes.subseqto; string ops on lists of code points.
* **C02 Variables behave lexically at run time** - partial. set of several variables at once is not lexical when they live in different scopes; violation witnesses and a guarded theorem are given.
* **C03 Bytes and their string form are interchangeable** - proved. Proved without conditions beyond the statement.
* **C04 Type acceptance is reflexive** - proved. accepts with its memo table is shown equal to the existence of a simulation between records.
* **C05 Type acceptance is transitive** - partial. Transitive within one table of records. Across three tables it fails when the middle record drops a field or its default: two violations, and a partial theorem with the exact guard.
* **C06 Acceptance is sound for data** - proved. Widening relation: promotion (exact), projection with defaults, re-tagging. Defaults are assumed to conform.
* **C07 JSON encoding then decoding preserves data** - partial. Encoding then decoding returns the same datum with the same tag for union members that reject each other's data (roundtrip_partial). The encoder tries members in order, so an int tagged long comes back tagged int, and a record can come back as another record with fields lost.
* **C08 The JSON decoder only produces data of the requested type** - partial. Every returned value conforms to the type up to the listed leniencies, errors other than AvroException are characterised, and decoding terminates. Out-of-range integers, truncated floats, text numbers and tagged null are accepted; a huge integer raises OverflowError; a record whose default needs itself recurses for ever.
* **C09 Input checking is sound and stable** - partial. The input check returns conforming data up to the listed leniencies, leaves conforming data alone, is idempotent and terminates. Violations: bytes become another object kind, enum/fixed/range are not checked, text is accepted as array, text numbers are retyped, IndexError escapes.
* **C10 Comparison is a total order on every comparable type** - partial. On conforming data of types without maps compare is total, antisymmetric and transitive, and zero is equality of data when no field is ignored, except that NaN in a float compares equal to everything (cmp_nan_violation). bytes objects and data with the tag of a narrower union make it raise. Negative zero is not distinguished from zero in the model, as in Python comparison.
* **C100 Python code as PFA** - partial. python_means_partial is proved for the trees of Means: no substitutions, lists, dicts, tuples or keywords, no call of a special form, no bare cell; for these, other theorems say which JSON they become (literal_json, expr_sub, call_keywords). python_errors_partial is for trees without matrix products, in, is and slices. Violations: every statement but an assignment is an AttributeError (ast.Print); a matrix product is an UnboundLocalError; in and is are an AttributeError; a slice, and in Python 3.9 every index, is a RecursionError; a list of one string is read as the string; a call with one tuple is the call with its elements; Negative becomes U-; a cell without index becomes a variable; the middle of a chain of comparisons is evaluated twice; values without names are dropped from an assignment. The trees are those of Python's ast module, which is not modelled.
* **C101 Patterns and changes in the inspector** - partial. pattern_means_partial is proved for typed patterns without ranges of two bounds, with distinct keys that are not constants, and without the key self next to an ellipsis; between_means_partial says what such ranges match. Violations: x < # < y matches x and x <= # <= y does not; a key that is written null, true or false matches nothing, or is a TypeError with an ellipsis, as is the key self; of a key that is given twice the last pattern is used; true is matched by 1, and # by true; replacing the whole document is an IndexError; a number in square brackets where there is an object is a KeyError. Groups are numbered by their closing parentheses. Lexing and the grammar tables of the command line are not modelled, nor is what is printed.
* **C102 The outline of a document shows it as it is** - partial. look_shows and look_parts are the claim for inlineDepth not negative. index_read_partial is for places that are not cut off, and for keys without commas, that do not look like numbers and have no white space at their ends. Violations: with a negative inlineDepth a scalar is a TypeError and an empty list or object an IndexError; with indexWidth below 3 the index column is wider than that; the places of a,b and of b in a look the same. The texts of json.dumps for scalars and keys are parameters. That JSON text has only one meaning is not proved.
* **C103 Externalizing cells and pools moves the data and nothing else** - partial. external_partial is for a parser with the method next. Violations: in Python 3, the only version that is supported, parser.next() does not exist, so every document with a key is an AttributeError; a cell and a pool of the same name go to the same file by default and the data of the first are lost; moved pools are refused by the reader; a source after init wins over the new one. Keys @ in moved data stay there. The events of ijson, json.dumps of strings and str of numbers are parameters; progress messages are not modelled
* **C104 pfasize counts what is in cells and pools** - partial. size_partial is for a parser with the method next and says that the counts shown are those at one of the opening brackets. Violations: parser.next() does not exist in Python 3, so every document with a key is an AttributeError; what follows the last opening bracket is not counted, and for a scalar nothing is shown. The layout of the reports is not modelled
* **C105 Random data conform to their type** - partial. makeData_conf_partial is for types in which no member of a union is an array, a map or a type with a namespace. Violations: a union whose member is an array or a map is a TypeError because its tag is a dictionary; types with a namespace are tagged with the full name, which the engine does not know; for recursive records the recursion need not end. Draws are a sequence of numbers and random.random is a parameter. makePFA is not modelled
* **C106 Types shown as text are PrettyPFA** - partial. shown_back_partial is for types whose words are names of PrettyPFA, with at least one field in each record and at least one member in each union, and whose names are no substitutions or named types of the document (GoodT). Keys without a place in the text, such as default, are not shown.  A record without fields, a field with a reserved name and the type of a function are shown as text that is refused.  Sizes that are no integers are not modelled.
* **C107 Completions in square brackets lead to the parts they name** - partial. completions_lead_partial: for a list that is not empty or an object whose keys are Plain (a letter and then letters, digits or _, or text with a space and without quotation marks, backslashes and ends of lines), each completion is read as the index of its part and leads to it, whatever is typed after it. key_read_iff says that for keys without backslashes these are the only keys for which it is so. taken_read: a path made of completions only is read as a whole. completions_none: no completions at scalars. completions_error: the only exceptions. Violations: an empty list is a ValueError (logarithm of 0); an index before the beginning of a list is an IndexError; a key of digits is read as a number and then gives a KeyError; keys with hyphens, a leading underscore or quotation marks are read as something else or not at all. The lexer is modelled for what can begin an index; log10 is taken to be exact; readline and the other parts of complete() are not modelled.
* **C108 Documents written by pfarandom pass the semantic check** - partial. random_passes_partial: for an output type of the document (Good: records defined, unions proper, names consistent) that is Mild, the document passes compile (EngineConfig.walk) at every depth from some on. Mild restricts unions: at least one member, at most one fixed type, at most one enumeration, not several records and nothing else, no member with the name union; the same is asked of the fields of all records. Without it random_union_violation: a union of two records, or of null and two enumerations, is written as a document that the check refuses (IncompatibleTypes). makePFA_passes: in each scope where the numbered names are new, the program has a type that the type accepts, which is the type itself unless it is a union. makePFA_made and makePFA_only: a program is made for exactly the types that do not contain themselves (Ends); makePFA_recursive_violation: a record that contains itself exhausts every depth. Missing: that makeData and the program give the same distribution; that the JSON document is read as this tree.
* **C109 The inspector keeps the documents it was given** - partial. Violations: rename x as x loses the document (rename_same_violation; rename_spec_partial needs two names); a document called help cannot be dropped; externalize and internalize change a document without forgetting its engine configuration, so that the pfa commands show the former document (shown_stale_violation; shown_current_partial: in every session without these two commands what is shown is what the document is); too many arguments of a simple command are a TypeError (simple_many_violation), fewer are reported (simple_run). externalize_internalize_partial: the document is restored exactly when the part has a value for init and no key source, for every choice of the option, also with other commands in between; embedded_lost_violation: a part that says source embedded loses this key. load, rename and externalize silently replace what had the new name. That a failing command changes nothing holds by the form of the model (see its head). Files are JSON values; jsonToAst, URLs and the right to write are parameters; what is printed is left out.
* **C11 Type declarations may be given in any order** - partial. Termination, acceptance and the names defined are proved independent of order and repetition without conditions. The report of a failure is exact when no name is defined twice; with two definitions of a name it depends on the order (violation). When prettypfa removes duplicate definitions first, acceptance itself depends on the order (violation); without duplicates the removal changes nothing. The avro library's reading of one declaration is modelled from its documentation, not from its source.
* **C110 json count, index and find of the inspector agree and what they print can be typed** - partial. commands_agree: for every pattern that never raises (sane) and every document, count, index and find report the same list of places: those that match, once, in order, with what is there. printed_leads_partial: the index printed is read as itself and leads to the match, for documents whose keys are words or printable ASCII text with a blank and without quotation marks and backslashes. Violations: a match of the whole is printed as [], which cannot be typed; the key "0" is printed as the position 0; an unknown option of find is an IndexError since its message is formatted with {1} (find_option_violation). find_options_first: of several options the first counts, others than positive integers are refused. dumped: every key printed between quotation marks is JSON for this key, by a reader written from RFC 8259, and only printable ASCII. Missing: keys that json.dumps writes with backslashes, for which the reader is not modelled; what look prints is C102.
* **C111 What the inspector says of functions, cells and pools is right** - partial. Violations: the line that begins with called by lists what the function calls, directly or through others, and not what calls it (called_by_partial, called_by_violation): calledBy of the engine follows the call graph forward, although its documentation says backward. When there is nothing to list, the heading is lost and a bare (none) is printed, since the conditional expression takes it in (bare_none). pools raises a TypeError for every document with a pool (pools_violation): it reads init as JSON text, while Pool accepts only a dict. The texts of parameters and types are not modelled here (types: C106).
* **C112 Commands of the inspector are found by their names and back undoes cd** - partial. Proved for all trees of commands: words lead to commands and what is completed can be run (action_leads, complete_action), for names of letters, digits and underscores. cds_backs: as many back as cd lead back, if the directories are still there. Violations: cd with a tilde is refused, since the test is made before the tilde is replaced (tilde_violation); a cd or back that fails leaves the stack changed (failed_violation); a file with a blank in its name is completed to a text with an opening quotation mark only (finish_blank_violation), a link that leads nowhere to None (finish_link_violation). paths_spec: for a text without a slash and for a directory, a slash and more text, exactly the names that begin with the text are offered. Where there is no such directory pathcomplete gives None, not an empty list, so that completing raises a TypeError (paths_none_violation); after ./ the names are offered without it (paths_dot_violation). Missing: texts with several slashes together; the commands ls, list and the texts of help.
* **C12 Path read and path update obey the lens laws** - partial. Missing last step is silently ignored by updates and a negative index is read from the end; both shown as violations.
* **C13 Failed actions leave rollback cells and pools untouched** - partial. Proved for immutable values. model.reg.updateChi2 mutates its argument in place, so an engine using it can see a failed update after rollback: violation.
* **C14 Action counters count calls** - proved. Proved without conditions beyond the statement.
* **C15 A fold engine computes a left fold over the successful inputs** - proved. Proved without conditions beyond the statement.
* **C16 Engine instances are isolated except for shared cells and pools** - proved. Proved without conditions beyond the statement.
* **C17 A snapshot restores the engine state** - partial. A snapshot read back gives an engine with the same cells and pools when every content conforms to its type and union members are apart (C07). Violations: the engine leaves union values untagged, so the snapshot cannot be read back; contents holding bytes objects cannot be written; an instance that also holds shared cells of another document raises KeyError; the fold tally is not saved.
* **C18 Shared cell and pool updates are atomic under every schedule** - proved. Small-step interleaving of any number of threads; update functions have no side effects (C20).
* **C19 A failing update does not block later updates** - partial. The property is false of the code: the lock is not released when the update raises. Without failures no schedule gets stuck.
* **C20 Accepted engines cannot self-deadlock** - partial. The check misses five kinds of nested update (function references passed on, call of a computed name, filled-in arguments, calls below attr/pool-init, the merge section): violations. Sound under guards that exclude them.
* **C21 Call graph queries are exact** - proved. Proved without conditions beyond the statement.
* **C22 unpack inverts pack** - partial. Null-terminated data containing a NUL byte is not read back, and a bytes literal is text at run time, which unpack cannot read: violations. Everything else is proved for all formats and byte strings; the float encoder of struct is any function that inverts the IEEE decoding defined here.
* **C23 Binary format names mean their documented width and signedness** - partial. int64, unsigned int64 and float64 select the 32-bit layouts for every mark and spacing: violation. All other documented names are proved.
* **C24 Integer arithmetic is exact or raises** - partial. Power on longs goes through doubles and is not exact above 2^53: violation; exact under a representability guard.
* **C25 Modulo and remainder laws** - proved. Proved without conditions beyond the statement.
* **C26 Integer division truncates exactly** - partial. // divides doubles, so it is exact for ints but not for large longs, and the quotient of the minimum by -1 leaves the range: violations.
* **C27 Three-valued logic is Kleene logic** - proved. Proved without conditions beyond the statement.
* **C28 Comparison operators, max and min agree with one order** - partial. Proved for conforming data of types without maps and without NaN in a float. With NaN max depends on the order of its arguments.
* **C29 Sorting is a stable sorted permutation** - proved. For every comparison that is a strict weak order; Python's sort is modelled by a stable merge of its documented result. Relation of compare to that order: C10.
* **C30 Top-n selection is right** - proved. Proved without conditions beyond the statement.
* **C31 Array set operations are set operations** - partial. a.intersection lists every common element at least twice: violation. The other operations are proved.
* **C32 Higher-order array functions call the function once per element in order** - partial. filterMap unwraps an untagged one-entry map whose key is a type name: violation. Everything else proved for stateful, failing user functions.
* **C33 Array and string search is exact** - proved. Array and string libraries.
* **C34 Windows, combinations and permutations are complete and duplicate-free by position** - proved. itertools is modelled by its documented result.
* **C35 groupby partitions the array** - proved. Proved without conditions beyond the statement.
* **C36 Map library functions are finite-map operations** - partial. map.zipmap compares key lists in insertion order and refuses equal key sets in another order: violation. The other functions are proved to be finite-map operations.
* **C37 String functions satisfy their algebra** - partial. s.split with an empty separator is not inverted by s.join (violation); replaceall with the empty replacement may leave occurrences (shown). Everything else holds for all strings.
* **C38 Signature matching only accepts type-correct calls** - partial. Signatures without labels accept exactly what fits them (sig_iff_plain), and user functions without unions are called with exactly what their types accept (user_call_iff_partial); with unions inside other types the call may be refused although accepted (user_call_incomplete). Whenever a signature accepts, every reported parameter type accepts its argument, each label stands for one type accepting everything it met, and the result is the pattern with labels replaced. Violations: function arguments with the wrong number of parameters are accepted; in contravariant position a label's type accepts the argument's parameter instead of the reverse; WildEnum and WildFixed accept any type; AvroException can escape the check.
* **C39 The common type accepts every branch** - partial. The common type accepts every candidate and is accepted by every other type that does. Violations: for two arrays inside a union AvroException escapes, for exceptions a ValueError object is returned instead of being raised.
* **C40 Language versions are totally ordered and a lifespan has one status** - partial. Order, parsing, printing and lifespans are proved; two equal versions compare unequal with == (identity), and __cmp__ is not used by Python 3.
* **C41 Host options override document options, and each option controls what it names** - partial. The phase-specific timeouts do not fall back on a timeout given by the host: violation. Everything else proved.
* **C42 Checked programs do not go wrong** - partial. The statement is false of the code: eleven kinds of programs pass the check and go wrong (the _violation theorems, each with the check exactly as in the code). Under decidable conditions on the program (strictGuard) whole engines are proved never to go wrong, for all inputs and any number of calls (engine_sound_partial with fit). Library functions are assumed to keep their signatures (LibOk); this is proved for the three of the example.
* **C43 Sealed scopes cannot be modified from inside** - proved. Specification on the syntax only (parts, Sets, Bad). Blocks that may not modify their surroundings: function bodies, predicates, arguments and other sealed expressions, bodies of parallel foreach loops, try blocks, sections of the engine. The to, init and remove expressions of attr, cell and pool are walked by the code in the scope of the expression itself and are not counted as arguments.
* **C44 Traversals see and rebuild the whole program** - partial. collect and replace skip the merge section: violations. Everything else proved for all node types.
* **C45 Printing a program as JSON and reading it back gives the same program** - partial. Proved for every expression whose nodes meet plain, at any depth and with any positions printed, and for everything the reader itself returned under the one condition that LiteralInt nodes hold 32-bit numbers. Violations: numbers in dotted names, {int: true}, and constructed nodes that break a condition of plain. Types are the JSON they are printed as; printing and resolving types with a memo is not part of this model.
* **C46 Streaming mean and variance equal the batch values** - proved. Exact rational arithmetic with the special values of floats. The condition is that the running total weight is never zero, which positive weights imply; update_zero_bad shows the condition is exact, update_zero_violation that weight zero (outside the quantifier) breaks it.
* **C47 Windowed statistics equal the batch values of the window** - partial. Proved in exact arithmetic for positive weights and any changes of the window size; the size bound is proved without conditions. With weights that may be zero the mean can become nan for good: violation.
* **C48 Histograms conserve weight** - partial. Proved in exact arithmetic for all data including infinities and nan. Violations: a flow field the record lacks loses the weight; method 1 without bins puts the first weight in bin 0; overlapping ranges count twice; plus infinity counts as underflow with ranges; in binary64 rounding can raise IndexError and overflow puts the weight in the wrong bin.
* **C49 Exponential smoothing stays within the data** - partial. Proved in exact arithmetic. In binary64 the mean can leave the range of the data by rounding and become infinite by overflow: violations.
* **C50 Bit-width casts are two's complement and fanout is one-hot** - proved. The floating-point multiplier in doUnsigned is an arbitrary integer: the result does not depend on it.
* **C51 Printing and parsing integers are inverse** - partial. Width 0 prints the empty string (violation); all other widths are covered. int(str, base) is modelled on ASCII strings.
* **C52 Tree traversal reaches the leaf selected by the comparisons** - partial. The walk is proved for all trees and all tests with any effects; the comparisons for numbers, texts, lists and every type that compare orders. Violations: in and notIn on a union value that is not a list search the tag; a text in a union of string and bytes is not equal to itself; bytes raise TypeError; the tag of a map in a nullable field stays; NaN fails < and >= alike.
* **C53 A try block catches exactly the filtered errors** - partial. Branches, cond and try are proved for all code fragments and states. A try with a filter raises AttributeError instead of passing on a timeout: violation, and the filter theorems carry the guard that the error is a run-time or user error.
* **C54 cast-cases and ifnotnull select the right branch** - partial. Map cases never match because the type is re-read as an array, an array and a map among the cases raise AvroException, a double is truncated by an int case, and named types with a namespace stay tagged: violations. The partial theorems exclude exactly these.
* **C55 Generated names never repeat** - proved. Proved for all sequences of calls of the four functions in any mixture. Calls from several threads at once are outside the statement; threads_violation shows that two threads can get the same name.
* **C56 Control flow forms follow their textbook meaning** - proved. Each loop is shown equal to the obvious relation on rounds. The conditions are assumed to return booleans; a condition of type union of boolean is a C42 violation.
* **C57 Bitwise operators act bit by bit and stay in range** - proved. Proved without conditions beyond the statement.
* **C58 Array editing functions** - proved. Proved without conditions beyond the statement.
* **C59 Rounding functions give the nearest integer** - partial. m.round and the casts are wrong at 0.5-2^-54 and at odd integers above 2^52; copysign of the least integer leaves the range. m.ceil, m.floor, m.rint, m.signum are proved without guard.
* **C60 Integer totals are exact or raise** - proved. Integers; the double versions are not modelled.
* **C61 Mutual acceptance means equality** - partial. Fails for unions that list the same members in another order; holds for union-free types.
* **C62 Streaming covariances equal the batch values** - partial. Arrays: proved in exact arithmetic. Maps: means and variances of single keys are proved, covariances of two keys that always come together are proved; for keys that do not, the value depends on the order of the data: violation.
* **C63 Running top lists and counters** - proved. topN_stream is for user functions without effects that are a strict weak order; topN_length for all user functions.
* **C64 Reading JSON raises only syntax errors** - partial. Nine kinds of JSON raise UnboundLocalError, AttributeError, TypeError, binascii.Error or OverflowError: violations. JSON without these places (tame) raises only PFASyntaxException and, beyond the limit on nesting, RecursionError.
* **C65 Time functions follow the calendar** - partial. Violations: time.isWorkHours is true on weekends (the test of the day is always true); makeTimestamp raises OverflowError for milliseconds above 2147483, and returns doubles although declared int; timestamps made in the last second of year 9999 are refused by the accessors; a zone near the ends of the range raises OverflowError. The calendar of Python's datetime is modelled with its algorithm and proved to count days by the calendar's rule; pytz zones are arbitrary functions.
* **C66 Linear algebra on arrays and maps** - partial. Arrays are compared with Mathlib's matrices, maps with functions of two names. Exact arithmetic. Violations: la.dot of ragged arrays raises ValueError; la.transpose of maps whose rows have equally many but different names, and la.trace of maps without a diagonal entry, raise KeyError.
* **C67 Metrics** - partial. Proved over the real numbers with nan. Violations: euclidean raises ValueError when the similarities or weights make the scaled sum negative (negative weights); data without coordinates have distance nan; gaussianSimilarity with sigma 0 is nan for equal values; a binary similarity is nan when its denominator is 0.
* **C68 Bins, nearest rows and linear interpolation** - partial. Proved in exact arithmetic for all tables. Violations: in binary64 a value inside the range can raise 'x out of range'; an infinite limit raises ValueError; a quotient that overflows raises OverflowError; the bin number need not fit an int; a nan position in the first row hides the others; far coordinates raise OverflowError; interpolation of a constant table rounds.
* **C69 Clusters and neighbours** - partial. Proved for all metrics (with effects) whose distances are not nan; means in exact arithmetic. Violations: a nan distance of the first cluster hides the others; closest without a metric does not check dimensions; far coordinates raise OverflowError; neighbor.mean raises ZeroDivisionError when the weights sum to zero.
* **C70 Scores and link functions** - partial. Over the real numbers, with the overflow of exp and ** at 2^1024. Violations: softmax raises OverflowError when the entry of largest magnitude is negative and the spread large, and depending on the order of the entries; logit, cloglog, loglog and softplus raise OverflowError for large arguments, rbf for negative gamma or far points, gaussian for far data; multinomial with maps is not normalized, unlike with arrays; bernoulli counts an item that occurs twice twice. probit (error function) is not modelled.
* **C71 Random values** - partial. Doubles in exact arithmetic. Violations: rand.double can return the upper limit and infinity in binary64 and accepts nan limits; rand.sample of a negative size raises ValueError; rand.histogram returns None when the sum overflows; rand.string can contain the surrogate 0xD800; no result of rand.uuid4 is a UUID (four digits too many). rand.gaussian is not modelled.
* **C72 Encodings and Base64** - partial. Proved for all texts, with Python's codecs modelled from their RFCs. Violations: every tester raises TypeError for bytes that are a Python str, such as the results of the encoders; fromBase64 raises binascii.Error for a wrong length and accepts any padding and a final newline.
* **C73 Imputation, enumerations, fixed and change detection** - partial. zValue over the real numbers, updateCUSUM in exact arithmetic. Violations: a map without tag is mistaken for a tagged value by impute; updateTrigger leaves the range of int; zValue with a count of 1 raises ZeroDivisionError even when no correction is asked for.
* **C74 Statistical tests** - partial. The statistic over the rationals, the probability over the reals. Violations: with repeated values in a sample the statistic is too large (1/2 for [0,0] and [0], which have the same distribution); the series for the probability has too few terms, so that large samples without overlap get a probability above 1/2; updateChi2 of a Python int raises AttributeError. mahalanobis and the chi-squared distribution are not modelled.
* **C75 Linear regression** - partial. linear and linearVariance are proved in exact arithmetic. Violations: gaussianProcess never uses the kriging weight, and computes all outputs after the first with the beta of the first; the deprecated residual drops entries without partner, pull raises ZeroDivisionError, updateChi2 changes its argument and turns the int field into a float. The fit of gaussianProcess is not modelled.
* **C76 Regular expressions** - partial. Proved for every pattern, with regcomp and regexec arbitrary: all functions agree on the successive matches, which do not overlap; the pieces of split and replaceall make up the text. Violations: the functions that go through all matches return exactly if no search meets an empty match at its start (x* never returns); ^ matches at the start of every search; nothing is found in the empty text; groups that took no part are left out, shifting the others; positions in strings count bytes; a search ends at a zero.
* **C77 Distributions in closed form** - partial. Over the real numbers, with the OverflowError of ** and pow; densities are those of Mathlib. Violations: gaussianQF is an approximation, its median is above mu and its quantiles decrease just above the level 1/2; exponential accepts the rate 0, for which the CDF is 0 everywhere; weibullCDF raises OverflowError far from zero, and weibullPDF at zero is nan for shapes below 1; the squares in gaussianLL, cauchyPDF and lognormalPDF can raise OverflowError. lognormalQF is in C80.
* **C78 Distributions from the gamma and beta functions** - partial. Over the real numbers, with the OverflowError of exp and pow; lgamma is the logarithm of Mathlib's Gamma function. Violations: chi2 with no degrees of freedom has a density and a distribution function that do not belong together; fPDF raises OverflowError for many degrees of freedom; gammaCDF and chi2CDF raise a bare Exception for large arguments, because the series stops after 1000 terms. Not modelled: the continued fraction of the incomplete beta function (betaCDF, tCDF, fCDF) and the Newton iterations of gammaQF, chi2QF and betaQF.
* **C79 Discrete distributions** - partial. Over the real numbers. Violations: binomialPDF of the number of trials is 0, and raises OverflowError where the binomial coefficient does not fit a double; hypergeometricPDF of the number of white balls is 0, hypergeometricCDF above it is 0, and hypergeometricQF then runs for ever or leaves the support; negativeBinomialCDF with size 0 falls to 0 above 0; the quantiles other than binomialQF are strict, so that a level that is reached exactly gives the next number. binomialCDF goes through the incomplete beta function and is not modelled.
* **C80 Special functions and quantiles by search** - partial. Over the real numbers: a search whose bound doubles beyond the doubles is not covered. Violations: poissonCDF raises a bare Exception for large parameters, because the series stops after 700 terms; m.special.nChooseK refuses to choose all, and returns numbers outside the range of an int; lnGamma of infinity is nan. The continued fraction of poissonCDF for parameters above x + 2 is a parameter of the model.
* **C81 Engine configurations come back from print** - partial. Proved for every configuration whose cells are embedded and whose LiteralInt nodes hold 32-bit numbers. Violations: a cell with source json or avro is printed with its content in place of the address and cannot be read again; a pool with such a source raises TypeError for every file; a document, functions, cells or a pool that is not an object raises AttributeError or UnboundLocalError. Types are the JSON they are printed as.
* **C82 Patterns and places in JSON documents** - partial. Everything is proved except where the code departs: the root cannot be assigned to or removed (IndexError), also by assignAt when the root matches; a text cannot name the root or a key that looks like a number; a group around plain JSON raises AttributeError; nan is matched by LT, LE, GT, GE and Approx; true matches 1; original lacks the mark "@"; assignAt also replaces parts that match only after their own parts were replaced. assignAt_partial says exactly what it does: it rewrites from the inside out.
* **C83 Chains: names and types** - partial. Names: proved in full. Types: proved for types without names (chainPair_plain, assign_plain say what is accepted) and, for the common names, for types without unions and records. Violations: unions are compared in the wrong direction, numbers are not promoted, a record that occurs twice or contains itself is refused, one type of the second engine may get only one of two names, the kept names of the first input and the last output may collide, NewArray and parameters of functions keep the old types. Not modelled: conversion of embedded cells and pools, JSON and YAML input, the chain version (whose cell is given the number 0 where JSON text is expected).
* **C84 Chains: the document does what the engines do** - partial. Proved for engines without begin and end, without PoolDel, CallUserFcn and references to emit, whose types keep their names, whose inline functions do not read name, instance, metadata or the counters and which have no variable of these names (CleanE); the value of a run that the model does not follow to its end is left open. Violations show that each of these conditions is needed: the counters are those of the chain, an exception rolls back all engines, PoolDel and inline functions break the document, a reference to emit goes past the other engines, a variable called name is replaced, a result that is a union is refused by the next engine.
* **C85 Growing decision trees** - partial. Exact arithmetic; the sort and the logarithm are parameters. Violations: a node of texts is split although it has one text only, because canSplit asks for more than none; a maximum depth of 0 still splits the root.
* **C86 Gains of splits** - partial. Proved in full for texts with texts (catEntropy_best); for numbers with numbers when the values differ (the reported gain is always an upper bound); for texts with numbers when all categories have rows. Violations: with equal values the cut is not the best, its gain is not the reported one, or one side is empty so that the node becomes a leaf; below a split, places among the categories that have rows are taken for categories; for numbers with texts the rows above the cut are counted with one more, and the place behind the last row is taken for a cut.
* **C87 Documents made from trees** - partial. Writing, loading and walking are proved for trees that were split at least once, whose numbers are all float, all double, or all int or all long and not negative, without predictandDistribution. Violations show that each condition is needed: a tree of one leaf is written as something that is not a node; cuts of integer fields are truncated when the document is loaded, so that negative rows come to another leaf; numbers of two types together with texts are tagged with a type that the union lacks; the distribution is declared as integers and becomes 0.
* **C88 Optimizing clusters** - partial. Proved in exact arithmetic without weights, for the Euclidean metric and its square (the steps themselves for every metric): number of iterations at most cost / threshold^2 + 1 whatever the random choices are. Violations: weights are matched with the columns, so that an iteration is refused unless each cluster has one point or as many points as there are columns, and then the weights are those of the columns; two centers may become equal in an iteration with a jump; minPointsInCluster may raise the cost; maxPointsForClustering above the number of rows is refused only by random.sample; without sorting of rows the choice of a center may never end.
* **C89 Conditions for stopping** - partial. clusterJumped continues exactly if no cluster jumped, the opposite of its description, so moving() stops on a jump; maxIterations(m) makes m + 1 iterations. All others are proved.
* **C90 Documents made from clusters** - partial. Proved for rows with one nearest center, and for all rows if the centers are not sorted. Violations: with sorting a row between two centers may be scored as another cluster than it was counted in; all metrics but Euclidean refer to undefined symbols; with populations the declared field has another name than the written one, so the document is refused.
* **C91 Median, mode and quantiles** - partial. Median and ntile are proved, the position of ntile rounded as doubles are (arrays of at most 2^53 elements), the interpolation in exact arithmetic. Violation: with an even number of most frequent numbers the mode is their mean, which need not be an element. Values of the mode are compared by their JSON text.
* **C92 Logarithmic sums and means** - partial. Real arithmetic. geomean is proved for positive numbers, with a violation for negative ones (a complex result, or a positive mean of negative numbers); logsumexp is proved if no number is plus infinity and one is finite, with a violation otherwise (nan instead of the infinity).
* **C93 Transformations** - partial. Expressions are trees of calls, references and literals; PrettyPFA is not parsed. The numpy form is proved for numpy functions that agree on elements and for expressions that mention a column. Violations: a text literal counts as a field and is substituted; an expression without columns gives one number instead of a column; null cannot be converted; % and %% become the same numpy function; a keyword _0 is lost beside positional expressions.
* **C94 Histograms in the plane** - partial. Proved in exact arithmetic, for every point. Violation: a weight is lost in a histogram that lacks the optional counters, so the sum does not grow by it.
* **C95 Inverses, determinants, eigenvectors and distances** - partial. Real numbers; numpy.linalg does what its documentation says. The basis is proved for positive eigenvalues that differ. Violations: a singular matrix raises LinAlgError in la.inverse and both distances; the eigenvalue zero gives infinities; model.reg.mahalanobis lets covariances of wrong size pass.
* **C96 PrettyPFA trees to expressions** - partial. Proved for trees, not for text: asExpr_mini_partial has the condition Say, and asExpr_head proves for trees that are not substitutions that its conditions on names are necessary. Violations: PoolDel, empty arrays and objects, a cond of one branch and variables that share the name of a cell or pool cannot be written; positional arguments beside key: value are dropped; two assignments at once do not change cells; an else clause is not checked; error codes that are names raise AttributeError; repeated keys are dropped; a record is named after a call; the name of a fixed type cannot be substituted. Missing: unnamed types, whose names come from a counter.
* **C97 Parsing of PrettyPFA** - partial. Texts of expressions; the document around them is not part of this claim. text_means_partial derives Cans from Words, a condition on the words and numbers of the expressions themselves. written_means_partial has the condition Say of C96 and Cans (names that are no reserved words, strings without the character 0, floats that Python prints so that they can be read). The tables of the LALR(1) automaton were computed outside and are checked: every step follows the grammar, no run is endless, and the precedences are those of the code's table on all shapes of Shapes.lean. Violations: an index after a call belongs to the whole expression before it; x-1 is refused, as a name and a number; an error in the last of several lines is an IndexError.
* **C98 PrettyPFA documents** - partial. document_means_partial derives CanC from WordDoc, a condition on the words of the configuration. document_written_partial has the conditions SayDoc (those of C96 for expressions, types and JSON; initial values given as JSON; shared and rollback not both) and CanC (those of C97). resolveTypes at the end is not modelled: types are their JSON. Violations: a heading after CR LF is refused; any word of small letters with a colon at the beginning of a line is a heading; of two sections with one heading the later wins; name in quotes is an AttributeError; cells, pools and fcns that are no lists are a TypeError; a cell keeps its JSON whatever its source; a type that is used before its definition stays a name.
* **C99 Types as JSON** - partial. types_back_partial has the conditions Fits and FitsEnv: names have one definition each, no dots in their last part and are not those of Avro, the reader's checks pass, no default is null, and a name without namespace is not inside a record with one. Violations: such a name comes back in the namespace of the record, as another type; AvroPlaceholder.toJson shares one memo between all calls, so that the second time a named type is printed as its name, which a new reader refuses. The reader is avro's, as documented.

## Trusted base

* Lean 4.33.0 kernel; Mathlib lemmas are checked by the same kernel.
* Axioms: `Verif/Axioms.lean` checks every constant of the development during the build; the only axioms are
  `propext`, `Classical.choice` and `Quot.sound`. No axiom is added, no `sorry`, no `native_decide`, no `bv_decide`.
* The hand translation from Python to Lean; every definition cites the lines it models. The mutation runs in
  `seeded/LOG.jsonl` test that the theorems notice wrong translations of the kind tried there.
* The assumptions on libraries listed above.
