{
 "claims": [
  {
   "property": "C01",
   "status": "proved",
   "theorems": [
    "Verif.Slice.subseq_is_block",
    "Verif.Slice.subseqto_replaces_block",
    "Verif.Slice.block_unique",
    "Verif.Slice.subseqto_subseq",
    "Verif.Slice.subseq_subseqto",
    "Verif.Slice.bytesSubseq_is_block",
    "Verif.Slice.bytesSubseqto_replaces_block",
    "Verif.Slice.negativeIndex_spec"
   ],
   "note": "a.subseq, a.subseqto, s.substr, s.substrto, bytes.subseq, bytes.subseqto; string ops on lists of code points."
  },
  {
   "property": "C02",
   "status": "partial",
   "theorems": [
    "Verif.Scope.get_innermost",
    "Verif.Scope.get_error_iff",
    "Verif.Scope.let_spec",
    "Verif.Scope.setVars_eq",
    "Verif.Scope.set_lexical_partial",
    "Verif.Scope.set_mixed_raises_violation",
    "Verif.Scope.set_shadowed_violation",
    "Verif.Scope.set_raises_iff",
    "Verif.Scope.block_effect",
    "Verif.Scope.exec_effect"
   ],
   "note": "set of several variables at once is not lexical when they live in different scopes; violation witnesses and a guarded theorem are given."
  },
  {
   "property": "C03",
   "status": "proved",
   "theorems": [
    "Verif.Slice.stringToBytes_bytesToString",
    "Verif.Slice.stringToBytes_ok_iff",
    "Verif.Slice.bytesToString_stringToBytes",
    "Verif.Slice.stringToBytes_error"
   ],
   "note": ""
  },
  {
   "property": "C04",
   "status": "proved",
   "theorems": [
    "Verif.Avro.accepts_iff",
    "Verif.Avro.accepts_refl"
   ],
   "note": "accepts with its memo table is shown equal to the existence of a simulation between records."
  },
  {
   "property": "C05",
   "status": "partial",
   "theorems": [
    "Verif.Avro.accepts_trans",
    "Verif.Avro.accepts_trans_partial",
    "Verif.Avro.accepts_trans_violation_default",
    "Verif.Avro.accepts_trans_violation_dropped"
   ],
   "note": "Transitive within one table of records. Across three tables it fails when the middle record drops a field or its default: two violations, and a partial theorem with the exact guard."
  },
  {
   "property": "C06",
   "status": "proved",
   "theorems": [
    "Verif.Avro.accepts_sound",
    "Verif.Avro.null_widens",
    "Verif.Avro.conf_tagAs"
   ],
   "note": "Widening relation: promotion (exact), projection with defaults, re-tagging. Defaults are assumed to conform."
  },
  {
   "property": "C07",
   "status": "partial",
   "theorems": [
    "Verif.Avro.roundtrip_partial",
    "Verif.Avro.enc_fix",
    "Verif.Avro.dec_fix",
    "Verif.Avro.apart_of_kinds",
    "Verif.Avro.roundtrip_tag_violation",
    "Verif.Avro.roundtrip_loss_violation"
   ],
   "note": "Encoding then decoding returns the same datum with the same tag for union members that reject each other's data (roundtrip_partial). The encoder tries members in order, so an int tagged long comes back tagged int, and a record can come back as another record with fields lost."
  },
  {
   "property": "C08",
   "status": "partial",
   "theorems": [
    "Verif.Avro.dec_sound",
    "Verif.Avro.dec_conforms",
    "Verif.Avro.dec_conforms_ranged_partial",
    "Verif.Avro.dec_fails",
    "Verif.Avro.dec_terminates",
    "Verif.Avro.dec_range_violation",
    "Verif.Avro.dec_lenient_violation",
    "Verif.Avro.dec_nullTag_violation",
    "Verif.Avro.dec_overflow_violation",
    "Verif.Avro.dec_loops_violation"
   ],
   "note": "Every returned value conforms to the type up to the listed leniencies, errors other than AvroException are characterised, and decoding terminates. Out-of-range integers, truncated floats, text numbers and tagged null are accepted; a huge integer raises OverflowError; a record whose default needs itself recurses for ever."
  },
  {
   "property": "C09",
   "status": "partial",
   "theorems": [
    "Verif.Avro.chk_sound",
    "Verif.Avro.chk_fix",
    "Verif.Avro.chk_idem",
    "Verif.Avro.chk_fails",
    "Verif.Avro.chk_terminates",
    "Verif.Avro.chk_null_refused",
    "Verif.Avro.chk_bytes_violation",
    "Verif.Avro.chk_lenient_violation",
    "Verif.Avro.chk_retype_violation",
    "Verif.Avro.chk_index_violation"
   ],
   "note": "The input check returns conforming data up to the listed leniencies, leaves conforming data alone, is idempotent and terminates. Violations: bytes become another object kind, enum/fixed/range are not checked, text is accepted as array, text numbers are retyped, IndexError escapes."
  },
  {
   "property": "C10",
   "status": "partial",
   "theorems": [
    "Verif.Avro.compare_total_partial",
    "Verif.Avro.compare_trans_partial",
    "Verif.Avro.compare_refl_partial",
    "Verif.Avro.compare_eqv_partial",
    "Verif.Avro.compare_zero_partial",
    "Verif.Avro.record_order",
    "Verif.Avro.array_order",
    "Verif.Avro.union_member_order",
    "Verif.Avro.string_order",
    "Verif.Avro.leaf_order",
    "Verif.Avro.cmp_order",
    "Verif.Avro.cmp_stable",
    "Verif.Avro.cmp_nan_violation",
    "Verif.Avro.cmp_map_violation",
    "Verif.Avro.cmp_bytes_violation",
    "Verif.Avro.cmp_promoted_violation"
   ],
   "note": "On conforming data of types without maps compare is total, antisymmetric and transitive, and zero is equality of data when no field is ignored, except that NaN in a float compares equal to everything (cmp_nan_violation). bytes objects and data with the tag of a narrower union make it raise. Negative zero is not distinguished from zero in the model, as in Python comparison."
  },
  {
   "property": "C100",
   "status": "partial",
   "theorems": [
    "Verif.PyCode.python_means_partial",
    "Verif.PyCode.python_value_partial",
    "Verif.PyCode.python_scoped",
    "Verif.PyCode.assign_means_partial",
    "Verif.PyCode.python_errors_partial",
    "Verif.PyCode.literal_json",
    "Verif.PyCode.expr_json",
    "Verif.PyCode.expr_sub",
    "Verif.PyCode.expr_constants",
    "Verif.PyCode.call_keywords",
    "Verif.PyCode.call_wants",
    "Verif.PyCode.words_special",
    "Verif.PyCode.form_lines",
    "Verif.PyCode.fcn_parts",
    "Verif.PyCode.pfa_list",
    "Verif.PyCode.python_refused",
    "Verif.PyCode.print_violation",
    "Verif.PyCode.matMult_violation",
    "Verif.PyCode.in_violation",
    "Verif.PyCode.slice_violation",
    "Verif.PyCode.list_violation",
    "Verif.PyCode.tuple_call_violation",
    "Verif.PyCode.negative_violation",
    "Verif.PyCode.bare_cell_violation",
    "Verif.PyCode.chain_twice_violation",
    "Verif.PyCode.unequal_violation",
    "Verif.PyCode.sampleCode_means",
    "Verif.PyCode.intSem_laws"
   ],
   "note": "python_means_partial is proved for the trees of Means: no substitutions, lists, dicts, tuples or keywords, no call of a special form, no bare cell; for these, other theorems say which JSON they become (literal_json, expr_sub, call_keywords). python_errors_partial is for trees without matrix products, in, is and slices. Violations: every statement but an assignment is an AttributeError (ast.Print); a matrix product is an UnboundLocalError; in and is are an AttributeError; a slice, and in Python 3.9 every index, is a RecursionError; a list of one string is read as the string; a call with one tuple is the call with its elements; Negative becomes U-; a cell without index becomes a variable; the middle of a chain of comparisons is evaluated twice; values without names are dropped from an assignment. The trees are those of Python's ast module, which is not modelled."
  },
  {
   "property": "C101",
   "status": "partial",
   "theorems": [
    "Verif.Inspector.pattern_means_partial",
    "Verif.Inspector.index_typed_partial",
    "Verif.Inspector.between_pattern",
    "Verif.Inspector.between_means_partial",
    "Verif.Inspector.groups_numbered",
    "Verif.Inspector.walk_going",
    "Verif.Inspector.change_chosen",
    "Verif.Inspector.change_partly",
    "Verif.Inspector.change_error",
    "Verif.Inspector.change_revert",
    "Verif.Inspector.edits_no",
    "Verif.Inspector.chooses_all",
    "Verif.Inspector.ref_group",
    "Verif.Inspector.ref_missing",
    "Verif.Inspector.changeIn_chosen",
    "Verif.Inspector.changeIn_error",
    "Verif.Inspector.extaction_get",
    "Verif.Inspector.depthGreaterThan_spec",
    "Verif.Inspector.replaced_partial",
    "Verif.Inspector.change_ended",
    "Verif.Inspector.changeIn_ended",
    "Verif.Inspector.between_violation",
    "Verif.Inspector.key_violation",
    "Verif.Inspector.twice_violation",
    "Verif.Inspector.truth_violation",
    "Verif.Inspector.whole_violation",
    "Verif.Inspector.extaction_violation"
   ],
   "note": "pattern_means_partial is proved for typed patterns without ranges of two bounds, with distinct keys that are not constants, and without the key self next to an ellipsis; between_means_partial says what such ranges match. Violations: x < # < y matches x and x <= # <= y does not; a key that is written null, true or false matches nothing, or is a TypeError with an ellipsis, as is the key self; of a key that is given twice the last pattern is used; true is matched by 1, and # by true; replacing the whole document is an IndexError; a number in square brackets where there is an object is a KeyError. Groups are numbered by their closing parentheses. Lexing and the grammar tables of the command line are not modelled, nor is what is printed."
  },
  {
   "property": "C102",
   "status": "partial",
   "theorems": [
    "Verif.Producer.look_shows",
    "Verif.Producer.look_parts",
    "Verif.Producer.part_sub",
    "Verif.Producer.dropAt_sub",
    "Verif.Producer.index_read_partial",
    "Verif.Producer.acceptable_iff",
    "Verif.Producer.data_shows",
    "Verif.Producer.rows_eq",
    "Verif.Producer.shows_spells",
    "Verif.Producer.inline_violation",
    "Verif.Producer.width_violation",
    "Verif.Producer.index_violation"
   ],
   "note": "look_shows and look_parts are the claim for inlineDepth not negative. index_read_partial is for places that are not cut off, and for keys without commas, that do not look like numbers and have no white space at their ends. Violations: with a negative inlineDepth a scalar is a TypeError and an empty list or object an IndexError; with indexWidth below 3 the index column is wider than that; the places of a,b and of b in a look the same. The texts of json.dumps for scalars and keys are parameters. That JSON text has only one meaning is not proved."
  },
  {
   "property": "C103",
   "status": "partial",
   "theorems": [
    "Verif.Scripts.external_partial",
    "Verif.Scripts.kept_file",
    "Verif.Scripts.cell_read",
    "Verif.Scripts.argument_default",
    "Verif.Scripts.argument_file",
    "Verif.Scripts.splitEq_blanks",
    "Verif.Scripts.argument_other",
    "Verif.Scripts.next_violation",
    "Verif.Scripts.same_violation",
    "Verif.Scripts.pool_violation",
    "Verif.Scripts.source_violation"
   ],
   "note": "external_partial is for a parser with the method next. Violations: in Python 3, the only version that is supported, parser.next() does not exist, so every document with a key is an AttributeError; a cell and a pool of the same name go to the same file by default and the data of the first are lost; moved pools are refused by the reader; a source after init wins over the new one. Keys @ in moved data stay there. The events of ijson, json.dumps of strings and str of numbers are parameters; progress messages are not modelled"
  },
  {
   "property": "C104",
   "status": "partial",
   "theorems": [
    "Verif.Scripts.size_partial",
    "Verif.Scripts.size_next_violation",
    "Verif.Scripts.shown_violation"
   ],
   "note": "size_partial is for a parser with the method next and says that the counts shown are those at one of the opening brackets. Violations: parser.next() does not exist in Python 3, so every document with a key is an AttributeError; what follows the last opening bracket is not counted, and for a scalar nothing is shown. The layout of the reports is not modelled"
  },
  {
   "property": "C105",
   "status": "partial",
   "theorems": [
    "Verif.Scripts.makeData_conf_partial",
    "Verif.Scripts.makeData_ok_partial",
    "Verif.Scripts.makeData_error_partial",
    "Verif.Scripts.string_spec",
    "Verif.Scripts.bytes_spec",
    "Verif.Scripts.array_spec",
    "Verif.Scripts.int_drawn",
    "Verif.Scripts.long_drawn",
    "Verif.Scripts.enum_drawn",
    "Verif.Scripts.boolean_drawn",
    "Verif.Scripts.array_violation",
    "Verif.Scripts.namespace_violation",
    "Verif.Scripts.endless_violation"
   ],
   "note": "makeData_conf_partial is for types in which no member of a union is an array, a map or a type with a namespace. Violations: a union whose member is an array or a map is a TypeError because its tag is a dictionary; types with a namespace are tagged with the full name, which the engine does not know; for recursive records the recursion need not end. Draws are a sequence of numbers and random.random is a parameter. makePFA is not modelled"
  },
  {
   "property": "C106",
   "status": "partial",
   "theorems": [
    "Verif.Pretty.shown_back_partial",
    "Verif.Pretty.typeReads_unique",
    "Verif.Pretty.shown_nofields_violation",
    "Verif.Pretty.shown_reserved_violation",
    "Verif.Pretty.shown_function_violation",
    "Verif.Pretty.tree_shows",
    "Verif.Pretty.tree_text",
    "Verif.Pretty.prim_shows"
   ],
   "note": "shown_back_partial is for types whose words are names of PrettyPFA, with at least one field in each record and at least one member in each union, and whose names are no substitutions or named types of the document (GoodT). Keys without a place in the text, such as default, are not shown.  A record without fields, a field with a reserved name and the type of a function are shown as text that is refused.  Sizes that are no integers are not modelled."
  },
  {
   "property": "C107",
   "status": "partial",
   "theorems": [
    "Verif.Inspector.completions_lead_partial",
    "Verif.Inspector.completions_none",
    "Verif.Inspector.completions_error",
    "Verif.Inspector.key_read_iff",
    "Verif.Inspector.pos_read",
    "Verif.Inspector.taken_read",
    "Verif.Inspector.sample_completions",
    "Verif.Inspector.sample_along",
    "Verif.Inspector.empty_violation",
    "Verif.Inspector.before_violation",
    "Verif.Inspector.digits_violation",
    "Verif.Inspector.hyphen_violation",
    "Verif.Inspector.wordChar_iff",
    "Verif.Inspector.pathChar_iff"
   ],
   "note": "completions_lead_partial: for a list that is not empty or an object whose keys are Plain (a letter and then letters, digits or _, or text with a space and without quotation marks, backslashes and ends of lines), each completion is read as the index of its part and leads to it, whatever is typed after it. key_read_iff says that for keys without backslashes these are the only keys for which it is so. taken_read: a path made of completions only is read as a whole. completions_none: no completions at scalars. completions_error: the only exceptions. Violations: an empty list is a ValueError (logarithm of 0); an index before the beginning of a list is an IndexError; a key of digits is read as a number and then gives a KeyError; keys with hyphens, a leading underscore or quotation marks are read as something else or not at all. The lexer is modelled for what can begin an index; log10 is taken to be exact; readline and the other parts of complete() are not modelled."
  },
  {
   "property": "C108",
   "status": "partial",
   "theorems": [
    "Verif.Scripts.random_passes_partial",
    "Verif.Scripts.makePFA_passes",
    "Verif.Scripts.makePFA_made",
    "Verif.Scripts.makePFA_only",
    "Verif.Scripts.makePFA_recursive_violation",
    "Verif.Scripts.random_union_violation",
    "Verif.Scripts.pair_common",
    "Verif.Scripts.bt_members"
   ],
   "note": "random_passes_partial: for an output type of the document (Good: records defined, unions proper, names consistent) that is Mild, the document passes compile (EngineConfig.walk) at every depth from some on. Mild restricts unions: at least one member, at most one fixed type, at most one enumeration, not several records and nothing else, no member with the name union; the same is asked of the fields of all records. Without it random_union_violation: a union of two records, or of null and two enumerations, is written as a document that the check refuses (IncompatibleTypes). makePFA_passes: in each scope where the numbered names are new, the program has a type that the type accepts, which is the type itself unless it is a union. makePFA_made and makePFA_only: a program is made for exactly the types that do not contain themselves (Ends); makePFA_recursive_violation: a record that contains itself exhausts every depth. Missing: that makeData and the program give the same distribution; that the JSON document is read as this tree."
  },
  {
   "property": "C109",
   "status": "partial",
   "theorems": [
    "Verif.Inspector.Memory.load_spec",
    "Verif.Inspector.Memory.rename_spec_partial",
    "Verif.Inspector.Memory.rename_same_violation",
    "Verif.Inspector.Memory.unknown_name",
    "Verif.Inspector.Memory.drop_spec",
    "Verif.Inspector.Memory.drop_help_violation",
    "Verif.Inspector.Memory.save_load",
    "Verif.Inspector.Memory.save_unwritable",
    "Verif.Inspector.Memory.options_first",
    "Verif.Inspector.Memory.options_other",
    "Verif.Inspector.Memory.options_not_bool",
    "Verif.Inspector.Memory.item_iff",
    "Verif.Inspector.Memory.choose_spec",
    "Verif.Inspector.Memory.choose_put",
    "Verif.Inspector.Memory.extern_spec",
    "Verif.Inspector.Memory.wrong_source",
    "Verif.Inspector.Memory.externalize_internalize_partial",
    "Verif.Inspector.Memory.embedded_lost_violation",
    "Verif.Inspector.Memory.view_true",
    "Verif.Inspector.Memory.view_doc",
    "Verif.Inspector.Memory.exec_wf",
    "Verif.Inspector.Memory.session_fresh",
    "Verif.Inspector.Memory.shown_current_partial",
    "Verif.Inspector.Memory.shown_stale_violation",
    "Verif.Inspector.Memory.simple_run",
    "Verif.Inspector.Memory.simple_many_violation"
   ],
   "note": "Violations: rename x as x loses the document (rename_same_violation; rename_spec_partial needs two names); a document called help cannot be dropped; externalize and internalize change a document without forgetting its engine configuration, so that the pfa commands show the former document (shown_stale_violation; shown_current_partial: in every session without these two commands what is shown is what the document is); too many arguments of a simple command are a TypeError (simple_many_violation), fewer are reported (simple_run). externalize_internalize_partial: the document is restored exactly when the part has a value for init and no key source, for every choice of the option, also with other commands in between; embedded_lost_violation: a part that says source embedded loses this key. load, rename and externalize silently replace what had the new name. That a failing command changes nothing holds by the form of the model (see its head). Files are JSON values; jsonToAst, URLs and the right to write are parameters; what is printed is left out."
  },
  {
   "property": "C11",
   "status": "partial",
   "theorems": [
    "Verif.Forward.parse_run",
    "Verif.Forward.run_iff",
    "Verif.Forward.resolve_terminates",
    "Verif.Forward.resolve_ok_iff",
    "Verif.Forward.resolve_names",
    "Verif.Forward.resolve_failed",
    "Verif.Forward.resolve_order_ok",
    "Verif.Forward.resolve_order_failed_partial",
    "Verif.Forward.report_order_violation",
    "Verif.Forward.dedup_order_violation",
    "Verif.Forward.dedup_id",
    "Verif.Forward.dedupL_id",
    "Verif.Forward.dedup_conflict"
   ],
   "note": "Termination, acceptance and the names defined are proved independent of order and repetition without conditions. The report of a failure is exact when no name is defined twice; with two definitions of a name it depends on the order (violation). When prettypfa removes duplicate definitions first, acceptance itself depends on the order (violation); without duplicates the removal changes nothing. The avro library's reading of one declaration is modelled from its documentation, not from its source."
  },
  {
   "property": "C110",
   "status": "partial",
   "theorems": [
    "Verif.Inspector.commands_agree",
    "Verif.Inspector.printed_leads_partial",
    "Verif.Inspector.bracketed_read",
    "Verif.Inspector.display_read",
    "Verif.Inspector.extaction_sub",
    "Verif.Inspector.extaction_append",
    "Verif.Inspector.inlineDepth_spec",
    "Verif.Inspector.find_options_first",
    "Verif.Inspector.positive_iff",
    "Verif.Inspector.find_option_violation",
    "Verif.Inspector.whole_index_violation",
    "Verif.Inspector.number_index_violation",
    "Verif.Inspector.find_example",
    "Verif.Inspector.printed_example",
    "Verif.Inspector.Dumped.units_key",
    "Verif.Inspector.Dumped.points_encode",
    "Verif.Inspector.Dumped.dumped",
    "Verif.Inspector.Dumped.dumped_injective",
    "Verif.Inspector.Dumped.dumped_ascii",
    "Verif.Inspector.Dumped.dumped_example",
    "Verif.Inspector.Dumped.escape_example"
   ],
   "note": "commands_agree: for every pattern that never raises (sane) and every document, count, index and find report the same list of places: those that match, once, in order, with what is there. printed_leads_partial: the index printed is read as itself and leads to the match, for documents whose keys are words or printable ASCII text with a blank and without quotation marks and backslashes. Violations: a match of the whole is printed as [], which cannot be typed; the key \"0\" is printed as the position 0; an unknown option of find is an IndexError since its message is formatted with {1} (find_option_violation). find_options_first: of several options the first counts, others than positive integers are refused. dumped: every key printed between quotation marks is JSON for this key, by a reader written from RFC 8259, and only printable ASCII. Missing: keys that json.dumps writes with backslashes, for which the reader is not modelled; what look prints is C102."
  },
  {
   "property": "C111",
   "status": "partial",
   "theorems": [
    "Verif.Inspector.Listed.kind_spec",
    "Verif.Inspector.Listed.modify_spec",
    "Verif.Inspector.Listed.called_by_partial",
    "Verif.Inspector.Listed.called_by_violation",
    "Verif.Inspector.Listed.bare_none",
    "Verif.Inspector.Listed.userfcns_spec",
    "Verif.Inspector.Listed.calls_spec",
    "Verif.Inspector.Listed.cells_spec",
    "Verif.Inspector.Listed.pools_violation",
    "Verif.Inspector.Listed.stores_empty",
    "Verif.Inspector.Listed.kind_example"
   ],
   "note": "Violations: the line that begins with called by lists what the function calls, directly or through others, and not what calls it (called_by_partial, called_by_violation): calledBy of the engine follows the call graph forward, although its documentation says backward. When there is nothing to list, the heading is lost and a bare (none) is printed, since the conditional expression takes it in (bare_none). pools raises a TypeError for every document with a pool (pools_violation): it reads init as JSON text, while Pool accepts only a dict. The texts of parameters and types are not modelled here (types: C106)."
  },
  {
   "property": "C112",
   "status": "partial",
   "theorems": [
    "Verif.Inspector.Groups.action_leads",
    "Verif.Inspector.Groups.action_unknown",
    "Verif.Inspector.Groups.action_others",
    "Verif.Inspector.Groups.nameChar_iff",
    "Verif.Inspector.Groups.firstWord_named",
    "Verif.Inspector.Groups.firstWord_blanks",
    "Verif.Inspector.Groups.complete_leads",
    "Verif.Inspector.Groups.complete_unknown",
    "Verif.Inspector.Groups.complete_action",
    "Verif.Inspector.Groups.finish_plain",
    "Verif.Inspector.Groups.finish_slash",
    "Verif.Inspector.Groups.finish_blank_violation",
    "Verif.Inspector.Groups.finish_link_violation",
    "Verif.Inspector.Groups.split_spec",
    "Verif.Inspector.Groups.split_plain",
    "Verif.Inspector.Groups.offered_iff",
    "Verif.Inspector.Groups.paths_spec",
    "Verif.Inspector.Groups.split_root",
    "Verif.Inspector.Groups.paths_root",
    "Verif.Inspector.Groups.paths_none_violation",
    "Verif.Inspector.Groups.paths_dot_violation",
    "Verif.Inspector.Groups.paths_example",
    "Verif.Inspector.Groups.cds_backs",
    "Verif.Inspector.Groups.back_empty",
    "Verif.Inspector.Groups.tilde_violation",
    "Verif.Inspector.Groups.failed_violation",
    "Verif.Inspector.Groups.root_example",
    "Verif.Inspector.Groups.tree_example"
   ],
   "note": "Proved for all trees of commands: words lead to commands and what is completed can be run (action_leads, complete_action), for names of letters, digits and underscores. cds_backs: as many back as cd lead back, if the directories are still there. Violations: cd with a tilde is refused, since the test is made before the tilde is replaced (tilde_violation); a cd or back that fails leaves the stack changed (failed_violation); a file with a blank in its name is completed to a text with an opening quotation mark only (finish_blank_violation), a link that leads nowhere to None (finish_link_violation). paths_spec: for a text without a slash and for a directory, a slash and more text, exactly the names that begin with the text are offered. Where there is no such directory pathcomplete gives None, not an empty list, so that completing raises a TypeError (paths_none_violation); after ./ the names are offered without it (paths_dot_violation). Missing: texts with several slashes together; the commands ls, list and the texts of help."
  },
  {
   "property": "C12",
   "status": "partial",
   "theorems": [
    "Verif.Path.update_read",
    "Verif.Path.update_frame",
    "Verif.Path.update_shape",
    "Verif.Path.get_eq_read",
    "Verif.Path.get_missing_code",
    "Verif.Path.get_update",
    "Verif.Path.update_get",
    "Verif.Path.update_missing_inner",
    "Verif.Path.update_missing_leaf_violation",
    "Verif.Path.get_negative_violation",
    "Verif.Path.update_negative"
   ],
   "note": "Missing last step is silently ignored by updates and a negative index is read from the end; both shown as violations."
  },
  {
   "property": "C13",
   "status": "partial",
   "theorems": [
    "Verif.Engine.call_refines",
    "Verif.Engine.history_refines",
    "Verif.Engine.failure_restores",
    "Verif.Engine.failure_keeps",
    "Verif.Engine.failures_invisible",
    "Verif.Engine.failures_invisible_heap",
    "Verif.Alias.regUpdateChi2_rollback_violation",
    "Verif.Alias.testUpdateChi2_rollback"
   ],
   "note": "Proved for immutable values. model.reg.updateChi2 mutates its argument in place, so an engine using it can see a failed update after rollback: violation."
  },
  {
   "property": "C14",
   "status": "proved",
   "theorems": [
    "Verif.Engine.counters_count",
    "Verif.Engine.finished_le_started",
    "Verif.Engine.counters_mono",
    "Verif.Engine.counters_seen"
   ],
   "note": ""
  },
  {
   "property": "C15",
   "status": "proved",
   "theorems": [
    "Verif.Engine.tally_last",
    "Verif.Engine.tally_fold",
    "Verif.Engine.tally_fold_skip"
   ],
   "note": ""
  },
  {
   "property": "C16",
   "status": "proved",
   "theorems": [
    "Verif.Engine.build_ok",
    "Verif.Engine.private_isolated",
    "Verif.Engine.shared_common",
    "Verif.Engine.history_ginv",
    "Verif.Engine.isolated_history"
   ],
   "note": ""
  },
  {
   "property": "C17",
   "status": "partial",
   "theorems": [
    "Verif.Engine.snapshot_restores_partial",
    "Verif.Engine.snapshot_flags",
    "Verif.Engine.build_contents",
    "Verif.Engine.snapshot_untagged_violation",
    "Verif.Engine.snapshot_bytes_violation",
    "Verif.Engine.snapshot_shared_violation",
    "Verif.Engine.snapshot_tally_violation"
   ],
   "note": "A snapshot read back gives an engine with the same cells and pools when every content conforms to its type and union members are apart (C07). Violations: the engine leaves union values untagged, so the snapshot cannot be read back; contents holding bytes objects cannot be written; an instance that also holds shared cells of another document raises KeyError; the fold tally is not saved."
  },
  {
   "property": "C18",
   "status": "proved",
   "theorems": [
    "Verif.Lock.cell_updates_atomic",
    "Verif.Lock.cell_mutual_exclusion",
    "Verif.Lock.cell_no_deadlock",
    "Verif.Lock.P.pool_updates_atomic",
    "Verif.Lock.P.pool_no_deadlock"
   ],
   "note": "Small-step interleaving of any number of threads; update functions have no side effects (C20)."
  },
  {
   "property": "C19",
   "status": "partial",
   "theorems": [
    "Verif.Lock.cell_failed_update_blocks",
    "Verif.Lock.cell_lock_not_released_violation",
    "Verif.Lock.cell_no_deadlock",
    "Verif.Lock.P.pool_failed_update_blocks_key",
    "Verif.Lock.P.pool_waiter_blocks_pool",
    "Verif.Lock.P.pool_lock_not_released_violation",
    "Verif.Lock.P.pool_failed_update_inserts_init",
    "Verif.Lock.P.pool_no_deadlock"
   ],
   "note": "The property is false of the code: the lock is not released when the update raises. Without failures no schedule gets stuck."
  },
  {
   "property": "C20",
   "status": "partial",
   "theorems": [
    "Verif.Ast.deadlock_check_sound_partial",
    "Verif.Ast.touches_reaches",
    "Verif.Ast.deadlock_fcnref_argument_violation",
    "Verif.Ast.deadlock_calluser_violation",
    "Verif.Ast.deadlock_fill_violation",
    "Verif.Ast.deadlock_attr_violation",
    "Verif.Ast.deadlock_merge_violation"
   ],
   "note": "The check misses five kinds of nested update (function references passed on, call of a computed name, filled-in arguments, calls below attr/pool-init, the merge section): violations. Sound under guards that exclude them."
  },
  {
   "property": "C21",
   "status": "proved",
   "theorems": [
    "Verif.CallGraph.calledBy_exact",
    "Verif.CallGraph.isRecursive_exact",
    "Verif.CallGraph.callDepth_inf_iff",
    "Verif.CallGraph.callDepth_longest",
    "Verif.CallGraph.hasRecursive_exact",
    "Verif.CallGraph.hasSideEffects_exact"
   ],
   "note": ""
  },
  {
   "property": "C22",
   "status": "partial",
   "theorems": [
    "Verif.Pack.toInt_spec",
    "Verif.Pack.unpack_pack_partial",
    "Verif.Pack.unpack_iff",
    "Verif.Pack.unpackElse_spec",
    "Verif.Pack.unpack_length",
    "Verif.Pack.packOne_piece",
    "Verif.Pack.packInt_spec",
    "Verif.Pack.unpackInt_spec",
    "Verif.Pack.pack_refuses",
    "Verif.Pack.unpack_nul_violation",
    "Verif.Pack.unpack_text_violation"
   ],
   "note": "Null-terminated data containing a NUL byte is not read back, and a bytes literal is text at run time, which unpack cannot read: violations. Everything else is proved for all formats and byte strings; the float encoder of struct is any function that inverts the IEEE decoding defined here."
  },
  {
   "property": "C23",
   "status": "partial",
   "theorems": [
    "Verif.Pack.Format.format_names_partial",
    "Verif.Pack.Format.format_plain_names",
    "Verif.Pack.Format.int64_violation",
    "Verif.Pack.Format.format_errors",
    "Verif.Pack.Format.format_lenient"
   ],
   "note": "int64, unsigned int64 and float64 select the 32-bit layouts for every mark and spacing: violation. All other documented names are proved."
  },
  {
   "property": "C24",
   "status": "partial",
   "theorems": [
    "Verif.Arith.plus_exact",
    "Verif.Arith.minus_exact",
    "Verif.Arith.times_exact",
    "Verif.Arith.negative_exact",
    "Verif.Arith.abs_exact",
    "Verif.Arith.pow_exact_partial",
    "Verif.Arith.pow_long_violation"
   ],
   "note": "Power on longs goes through doubles and is not exact above 2^53: violation; exact under a representability guard."
  },
  {
   "property": "C25",
   "status": "proved",
   "theorems": [
    "Verif.Arith.modulo_spec",
    "Verif.Arith.remainder_spec",
    "Verif.Arith.mod_zero",
    "Verif.Arith.remainder_eq_tmod"
   ],
   "note": ""
  },
  {
   "property": "C26",
   "status": "partial",
   "theorems": [
    "Verif.Arith.floorDivide_exact_partial",
    "Verif.Arith.floorDivide_int",
    "Verif.Arith.div_rem_partial",
    "Verif.Arith.div_zero",
    "Verif.Arith.floorDivide_violation",
    "Verif.Arith.floorDivide_range_violation"
   ],
   "note": "// divides doubles, so it is exact for ints but not for large longs, and the quotient of the minimum by -1 leaves the range: violations."
  },
  {
   "property": "C27",
   "status": "proved",
   "theorems": [
    "Verif.Arith.kleeneAnd_spec",
    "Verif.Arith.kleeneOr_spec",
    "Verif.Arith.kleeneNot_spec",
    "Verif.Arith.kleeneAnd_lazy",
    "Verif.Arith.kleeneOr_lazy",
    "Verif.Arith.kleene_raises",
    "Verif.Arith.kleene_raises_second",
    "Verif.Arith.logicalAnd_spec",
    "Verif.Arith.logicalOr_spec",
    "Verif.Arith.kleene_agrees",
    "Verif.Arith.xor_spec",
    "Verif.Arith.kleene_laws",
    "Verif.Arith.truth_total"
   ],
   "note": ""
  },
  {
   "property": "C28",
   "status": "partial",
   "theorems": [
    "Verif.Avro.operators_agree_partial",
    "Verif.Avro.max_min_partial",
    "Verif.Avro.max_nan_violation",
    "Verif.Avro.cmp_map_violation"
   ],
   "note": "Proved for conforming data of types without maps and without NaN in a float. With NaN max depends on the order of its arguments."
  },
  {
   "property": "C29",
   "status": "proved",
   "theorems": [
    "Verif.Lib.sort_spec",
    "Verif.Lib.sortLT_spec",
    "Verif.Lib.sort_perm",
    "Verif.Lib.sort_raises",
    "Verif.Lib.stable_sort_unique"
   ],
   "note": "For every comparison that is a strict weak order; Python's sort is modelled by a stable merge of its documented result. Relation of compare to that order: C10."
  },
  {
   "property": "C30",
   "status": "proved",
   "theorems": [
    "Verif.Lib.lowestN_spec",
    "Verif.Lib.highestN_spec",
    "Verif.Lib.smallest_meaning",
    "Verif.Lib.smallest_unique",
    "Verif.Lib.maxOne_spec",
    "Verif.Lib.highestN_flip",
    "Verif.Lib.checkedN_spec",
    "Verif.Lib.argLowestN_spec",
    "Verif.Lib.argHighestN_spec",
    "Verif.Lib.mapArgLowestN_spec",
    "Verif.Lib.mapArgHighestN_spec",
    "Verif.Lib.mapArgN_order_free"
   ],
   "note": ""
  },
  {
   "property": "C31",
   "status": "partial",
   "theorems": [
    "Verif.Lib.distinct_spec",
    "Verif.Lib.union_spec",
    "Verif.Lib.intersection_spec_partial",
    "Verif.Lib.intersection_dup_violation",
    "Verif.Lib.diff_spec",
    "Verif.Lib.symDiff_spec",
    "Verif.Lib.set_relations"
   ],
   "note": "a.intersection lists every common element at least twice: violation. The other operations are proved."
  },
  {
   "property": "C32",
   "status": "partial",
   "theorems": [
    "Verif.Lib.map_ok",
    "Verif.Lib.map_raises",
    "Verif.Lib.enumerate_get",
    "Verif.Lib.mapWithIndex_ok",
    "Verif.Lib.mapWithIndex_raises",
    "Verif.Lib.filter_ok",
    "Verif.Lib.filter_raises",
    "Verif.Lib.filterWithIndex_ok",
    "Verif.Lib.filterWithIndex_raises",
    "Verif.Lib.filterMap_ok",
    "Verif.Lib.filterMap_raises",
    "Verif.Lib.filterMapWithIndex_ok",
    "Verif.Lib.dropOrUntag_means",
    "Verif.Lib.filterMap_untagged_violation",
    "Verif.Lib.flatMap_ok",
    "Verif.Lib.flatMap_raises",
    "Verif.Lib.flatMapWithIndex_ok",
    "Verif.Lib.zipArgs_columns",
    "Verif.Lib.zipmap_ok",
    "Verif.Lib.zipmap_raises",
    "Verif.Lib.zipmap_misaligned",
    "Verif.Lib.zipmapWithIndex_ok",
    "Verif.Lib.fold_cases",
    "Verif.Lib.fold_ok",
    "Verif.Lib.fold_raises",
    "Verif.Lib.foldRight_ok",
    "Verif.Lib.foldRight_raises",
    "Verif.Lib.reduce_ok",
    "Verif.Lib.reduceRight_ok",
    "Verif.Lib.reduce_raises",
    "Verif.Lib.reduceRight_raises",
    "Verif.Lib.reduce_empty",
    "Verif.Lib.folds_pure",
    "Verif.Lib.takeWhile_all",
    "Verif.Lib.takeWhile_stop",
    "Verif.Lib.takeWhile_raises",
    "Verif.Lib.dropWhile_all",
    "Verif.Lib.dropWhile_stop",
    "Verif.Lib.dropWhile_raises",
    "Verif.Lib.any_false",
    "Verif.Lib.any_true",
    "Verif.Lib.any_raises",
    "Verif.Lib.all_true",
    "Verif.Lib.all_false",
    "Verif.Lib.all_raises",
    "Verif.Lib.early_cases",
    "Verif.Lib.corresponds_spec",
    "Verif.Lib.corresponds_calls"
   ],
   "note": "filterMap unwraps an untagged one-entry map whose key is a type name: violation. Everything else proved for stateful, failing user functions."
  },
  {
   "property": "C33",
   "status": "proved",
   "theorems": [
    "Verif.Lib.contains_list",
    "Verif.Lib.index_list",
    "Verif.Lib.rindex_list",
    "Verif.Lib.count_list",
    "Verif.Lib.count_list_empty",
    "Verif.Lib.contains_elem",
    "Verif.Lib.index_elem",
    "Verif.Lib.rindex_elem",
    "Verif.Lib.count_elem",
    "Verif.Lib.search_agree",
    "Verif.Lib.startsWith_list",
    "Verif.Lib.startsWith_elem",
    "Verif.Lib.endsWith_list",
    "Verif.Lib.endsWith_elem",
    "Verif.Lib.containsPred_eq_any",
    "Verif.Lib.indexPred_none",
    "Verif.Lib.indexPred_some",
    "Verif.Lib.indexPred_raises",
    "Verif.Lib.rindexPred_none",
    "Verif.Lib.rindexPred_some",
    "Verif.Lib.rindexPred_raises",
    "Verif.Lib.countPred_ok",
    "Verif.Lib.countPred_raises",
    "Verif.Lib.Str.string_search",
    "Verif.Lib.Str.count_max",
    "Verif.Lib.Str.count_edge",
    "Verif.Lib.Str.occ_across"
   ],
   "note": "Array and string libraries."
  },
  {
   "property": "C34",
   "status": "proved",
   "theorems": [
    "Verif.Lib.slidingWindow_spec",
    "Verif.Lib.slidingWindow_error",
    "Verif.Lib.combinations_spec",
    "Verif.Lib.combinations_error",
    "Verif.Lib.permutations_spec"
   ],
   "note": "itertools is modelled by its documented result."
  },
  {
   "property": "C35",
   "status": "proved",
   "theorems": [
    "Verif.Lib.groupby_ok",
    "Verif.Lib.groupby_partition",
    "Verif.Lib.groupby_raises"
   ],
   "note": ""
  },
  {
   "property": "C36",
   "status": "partial",
   "theorems": [
    "Verif.Lib.dictOf_spec",
    "Verif.Lib.map_access",
    "Verif.Lib.map_edit",
    "Verif.Lib.map_update",
    "Verif.Lib.map_join",
    "Verif.Lib.map_split_join",
    "Verif.Lib.map_sets",
    "Verif.Lib.toset_spec",
    "Verif.Lib.mapWithKey_ok",
    "Verif.Lib.mapFilterWithKey_ok",
    "Verif.Lib.mapFilterMapWithKey_ok",
    "Verif.Lib.mapFlatMapWithKey_ok",
    "Verif.Lib.forItems_raises",
    "Verif.Lib.map_pure",
    "Verif.Lib.zipmap_aligned_partial",
    "Verif.Lib.zipmap_misaligned_maps",
    "Verif.Lib.zipmap_order_violation",
    "Verif.Lib.corresponds_map_spec"
   ],
   "note": "map.zipmap compares key lists in insertion order and refuses equal key sets in another order: violation. The other functions are proved to be finite-map operations."
  },
  {
   "property": "C37",
   "status": "partial",
   "theorems": [
    "Verif.Lib.Str.splitLoop_pieces",
    "Verif.Lib.Str.split_pieces",
    "Verif.Lib.Str.join_split",
    "Verif.Lib.Str.split_empty_violation",
    "Verif.Lib.Str.split_join",
    "Verif.Lib.Str.replaceAll_spec",
    "Verif.Lib.Str.replaceAll_fresh",
    "Verif.Lib.Str.replaceAll_delete_leaves",
    "Verif.Lib.Str.replaceAll_empty",
    "Verif.Lib.Str.pyReplace1_spec",
    "Verif.Lib.Str.replaceFirst_spec",
    "Verif.Lib.Str.replaceLast_spec",
    "Verif.Lib.Str.replace_empty_empty",
    "Verif.Lib.Str.lstrip_spec",
    "Verif.Lib.Str.rstrip_spec",
    "Verif.Lib.Str.strip_spec",
    "Verif.Lib.Str.translate_spec",
    "Verif.Lib.Str.translates_functional",
    "Verif.Lib.Str.repeat_spec"
   ],
   "note": "s.split with an empty separator is not inverted by s.join (violation); replaceall with the empty replacement may leave occurrences (shown). Everything else holds for all strings."
  },
  {
   "property": "C38",
   "status": "partial",
   "theorems": [
    "Verif.Sig.sig_accepts_partial",
    "Verif.Sig.sigs_first",
    "Verif.Sig.sig_refuses",
    "Verif.Sig.user_call_sound",
    "Verif.Sig.fcn_arity_violation",
    "Verif.Sig.contravariant_violation",
    "Verif.Sig.wildEnum_violation",
    "Verif.Sig.sig_raises_violation",
    "Verif.Sig.user_call_incomplete",
    "Verif.Sig.sig_complete",
    "Verif.Sig.sig_iff_plain",
    "Verif.Sig.user_call_iff_partial"
   ],
   "note": "Signatures without labels accept exactly what fits them (sig_iff_plain), and user functions without unions are called with exactly what their types accept (user_call_iff_partial); with unions inside other types the call may be refused although accepted (user_call_incomplete). Whenever a signature accepts, every reported parameter type accepts its argument, each label stands for one type accepting everything it met, and the result is the pattern with labels replaced. Violations: function arguments with the wrong number of parameters are accepted; in contravariant position a label's type accepts the argument's parameter instead of the reverse; WildEnum and WildFixed accept any type; AvroException can escape the check."
  },
  {
   "property": "C39",
   "status": "partial",
   "theorems": [
    "Verif.Sig.broadest_partial",
    "Verif.Sig.broadest_accepts",
    "Verif.Sig.broadest_least",
    "Verif.Sig.bt_error",
    "Verif.Sig.broadest_union_violation",
    "Verif.Sig.broadest_exception_violation",
    "Verif.Sig.broadest_names_violation"
   ],
   "note": "The common type accepts every candidate and is accepted by every other type that does. Violations: for two arrays inside a union AvroException escapes, for exceptions a ValueError object is returned instead of being raised."
  },
  {
   "property": "C40",
   "status": "partial",
   "theorems": [
    "Verif.Sig.version_order",
    "Verif.Sig.version_total",
    "Verif.Sig.version_new",
    "Verif.Sig.version_parse_print",
    "Verif.Sig.version_parse",
    "Verif.Sig.version_eq_violation",
    "Verif.Sig.lifespan_new",
    "Verif.Sig.lifespan_status"
   ],
   "note": "Order, parsing, printing and lifespans are proved; two equal versions compare unequal with == (identity), and __cmp__ is not used by Python 3."
  },
  {
   "property": "C41",
   "status": "partial",
   "theorems": [
    "Verif.Sig.options_partial",
    "Verif.Sig.options_ok_iff",
    "Verif.Sig.combine_given",
    "Verif.Sig.longOpt_selects",
    "Verif.Sig.options_violation",
    "Verif.Sig.options_errors"
   ],
   "note": "The phase-specific timeouts do not fall back on a timeout given by the host: violation. Everything else proved."
  },
  {
   "property": "C42",
   "status": "partial",
   "theorems": [
    "Verif.Lang.walk_sound",
    "Verif.Lang.engine_sound_partial",
    "Verif.Lang.steps_counters",
    "Verif.Lang.rt_ok",
    "Verif.Lang.step_ok",
    "Verif.Lang.fit",
    "Verif.Lang.smallLib_ok",
    "Verif.Lang.demo_sound",
    "Verif.Lang.demo_compiles",
    "Verif.Lang.sub_data",
    "Verif.Lang.isData_data",
    "Verif.Lang.number_union_violation",
    "Verif.Lang.two_scopes_violation",
    "Verif.Lang.pack_violation",
    "Verif.Lang.log_violation",
    "Verif.Lang.unpack_violation",
    "Verif.Lang.filter_violation",
    "Verif.Lang.untagged_violation",
    "Verif.Lang.cast_violation",
    "Verif.Lang.cast_mapcase_violation",
    "Verif.Lang.notnull_violation",
    "Verif.Lang.fill_violation",
    "Verif.Lang.libTo_violation"
   ],
   "note": "The statement is false of the code: eleven kinds of programs pass the check and go wrong (the _violation theorems, each with the check exactly as in the code). Under decidable conditions on the program (strictGuard) whole engines are proved never to go wrong, for all inputs and any number of calls (engine_sound_partial with fit). Library functions are assumed to keep their signatures (LibOk); this is proved for the three of the example."
  },
  {
   "property": "C43",
   "status": "proved",
   "theorems": [
    "Verif.Lang.sets_writable",
    "Verif.Lang.bad_rejected",
    "Verif.Lang.section_ok",
    "Verif.Lang.engine_sealed",
    "Verif.Lang.functions_sealed"
   ],
   "note": "Specification on the syntax only (parts, Sets, Bad). Blocks that may not modify their surroundings: function bodies, predicates, arguments and other sealed expressions, bodies of parallel foreach loops, try blocks, sections of the engine. The to, init and remove expressions of attr, cell and pool are walked by the code in the scope of the expression itself and are not counted as arguments."
  },
  {
   "property": "C44",
   "status": "partial",
   "theorems": [
    "Verif.Ast.collect_exact",
    "Verif.Ast.engine_collect_partial",
    "Verif.Ast.engine_collect_sound",
    "Verif.Ast.collect_merge_violation",
    "Verif.Ast.replace_none",
    "Verif.Ast.engine_replace_none",
    "Verif.Ast.replaced_visible",
    "Verif.Ast.replace_parts",
    "Verif.Ast.engine_replaced_visible_partial",
    "Verif.Ast.replace_merge_violation"
   ],
   "note": "collect and replace skip the merge section: violations. Everything else proved for all node types."
  },
  {
   "property": "C45",
   "status": "partial",
   "theorems": [
    "Verif.Reader.read_node",
    "Verif.Reader.deep_size",
    "Verif.Reader.read_back",
    "Verif.Reader.read_print_read_partial",
    "Verif.Reader.dotted_violation",
    "Verif.Reader.dotted_big_violation",
    "Verif.Reader.int_true_violation",
    "Verif.Reader.double_int_violation",
    "Verif.Reader.float_int_violation",
    "Verif.Reader.ref_violation",
    "Verif.Reader.call_violation",
    "Verif.Reader.at_violation",
    "Verif.Reader.literal_violation",
    "Verif.Reader.cond_violation",
    "Verif.Reader.sample_ok",
    "Verif.Reader.b64decode_encode",
    "Verif.Reader.foreach_default",
    "Verif.Reader.cast_default",
    "Verif.Reader.cell_default",
    "Verif.Reader.cellTo_default"
   ],
   "note": "Proved for every expression whose nodes meet plain, at any depth and with any positions printed, and for everything the reader itself returned under the one condition that LiteralInt nodes hold 32-bit numbers. Violations: numbers in dotted names, {int: true}, and constructed nodes that break a condition of plain. Types are the JSON they are printed as; printing and resolving types with a memo is not part of this model."
  },
  {
   "property": "C46",
   "status": "proved",
   "theorems": [
    "Verif.Stat.update_batch",
    "Verif.Stat.update_batch_mean",
    "Verif.Stat.update_batch_count",
    "Verif.Stat.update_positive",
    "Verif.Stat.update_order",
    "Verif.Stat.merge_batch",
    "Verif.Stat.update_zero_bad",
    "Verif.Stat.update_zero_violation"
   ],
   "note": "Exact rational arithmetic with the special values of floats. The condition is that the running total weight is never zero, which positive weights imply; update_zero_bad shows the condition is exact, update_zero_violation that weight zero (outside the quantifier) breaks it."
  },
  {
   "property": "C47",
   "status": "partial",
   "theorems": [
    "Verif.Stat.updateWindow_holds",
    "Verif.Stat.window_batch_partial",
    "Verif.Stat.window_const",
    "Verif.Stat.updateWindow_size",
    "Verif.Stat.updateWindow_level1",
    "Verif.Stat.updateWindow_level0",
    "Verif.Stat.window_zero_violation"
   ],
   "note": "Proved in exact arithmetic for positive weights and any changes of the window size; the size bound is proved without conditions. With weights that may be zero the mean can become nan for good: violation."
  },
  {
   "property": "C48",
   "status": "partial",
   "theorems": [
    "Verif.Stat.fill0_spec_partial",
    "Verif.Stat.fill1_spec_partial",
    "Verif.Stat.fill2_spec_partial",
    "Verif.Stat.belongs0_unique",
    "Verif.Stat.adds_total",
    "Verif.Stat.fill_lost_violation",
    "Verif.Stat.fill1_empty_violation",
    "Verif.Stat.fill2_overlap_violation",
    "Verif.Stat.fill2_inf_violation",
    "Verif.Stat.fill0_rounding_violation",
    "Verif.Stat.fill0_overflow_violation"
   ],
   "note": "Proved in exact arithmetic for all data including infinities and nan. Violations: a flow field the record lacks loses the weight; method 1 without bins puts the first weight in bin 0; overlapping ranges count twice; plus infinity counts as underflow with ranges; in binary64 rounding can raise IndexError and overflow puts the weight in the wrong bin."
  },
  {
   "property": "C49",
   "status": "partial",
   "theorems": [
    "Verif.Stat.ewma_range_partial",
    "Verif.Stat.ewma_mean",
    "Verif.Stat.ewma_closed",
    "Verif.Stat.ewma_alpha",
    "Verif.Stat.forecast_linear",
    "Verif.Stat.forecast_first",
    "Verif.Stat.forecast_shift",
    "Verif.Stat.hw_line",
    "Verif.Stat.forecastP_shift",
    "Verif.Stat.forecastP_shift_mul",
    "Verif.Stat.ewma_double_violation",
    "Verif.Stat.ewma_overflow_violation"
   ],
   "note": "Proved in exact arithmetic. In binary64 the mean can leave the range of the data by rounding and become infinite by overflow: violations."
  },
  {
   "property": "C50",
   "status": "proved",
   "theorems": [
    "Verif.Lib.Num.doUnsigned_spec",
    "Verif.Lib.Num.toUnsigned_spec",
    "Verif.Lib.Num.toSigned_spec",
    "Verif.Lib.Num.fanout_listed",
    "Verif.Lib.Num.fanout_unlisted",
    "Verif.Lib.Num.fanoutInt_spec"
   ],
   "note": "The floating-point multiplier in doUnsigned is an arbitrary integer: the result does not depend on it."
  },
  {
   "property": "C51",
   "status": "partial",
   "theorems": [
    "Verif.Lib.Num.pyInt_iff",
    "Verif.Lib.Num.parse_spec",
    "Verif.Lib.Num.fmtWidth_numeral",
    "Verif.Lib.Num.fmt_numeral",
    "Verif.Lib.Num.parse_print",
    "Verif.Lib.Num.print_errors",
    "Verif.Lib.Num.width_zero_violation"
   ],
   "note": "Width 0 prints the empty string (violation); all other widths are covered. int(str, base) is modelled on ASCII strings."
  },
  {
   "property": "C52",
   "status": "partial",
   "theorems": [
    "Verif.Tree.walk_iff",
    "Verif.Tree.walk_ends",
    "Verif.Tree.walk_total",
    "Verif.Tree.simpleWalk_iff",
    "Verif.Tree.simpleWalk_total",
    "Verif.Tree.simpleWalk_pure",
    "Verif.Tree.missingWalk_iff",
    "Verif.Tree.compoundTest_and",
    "Verif.Tree.compoundTest_or",
    "Verif.Tree.compoundTest_xor",
    "Verif.Tree.compoundTest_pure",
    "Verif.Tree.surrogateTest_iff",
    "Verif.Tree.surrogateTest_none",
    "Verif.Tree.simpleTest_missing",
    "Verif.Tree.compareWith_num",
    "Verif.Tree.compareWith_cmp",
    "Verif.Tree.compareWith_str",
    "Verif.Tree.compareWith_in",
    "Verif.Tree.compareWith_null",
    "Verif.Tree.compareWith_null_in",
    "Verif.Tree.missingTest_nullable",
    "Verif.Tree.simpleTree_path",
    "Verif.Tree.simpleTree_numbers",
    "Verif.Tree.Path.unique",
    "Verif.Tree.in_member_violation",
    "Verif.Tree.eq_text_violation",
    "Verif.Tree.bytes_violation",
    "Verif.Tree.map_tag_violation",
    "Verif.Tree.nan_violation"
   ],
   "note": "The walk is proved for all trees and all tests with any effects; the comparisons for numbers, texts, lists and every type that compare orders. Violations: in and notIn on a union value that is not a list search the tag; a text in a union of string and bytes is not equal to itself; bytes raise TypeError; the tag of a map in a nullable field stays; NaN fails < and >= alike."
  },
  {
   "property": "C53",
   "status": "partial",
   "theorems": [
    "Verif.Lang.filterItem_spec",
    "Verif.Lang.ifelse_true",
    "Verif.Lang.ifelse_false",
    "Verif.Lang.ifelse_raises",
    "Verif.Lang.if_only_true",
    "Verif.Lang.if_only_raises",
    "Verif.Lang.if_only_false",
    "Verif.Lang.cond_first",
    "Verif.Lang.cond_else",
    "Verif.Lang.cond_raises",
    "Verif.Lang.cond_only_first",
    "Verif.Lang.cond_only_none",
    "Verif.Lang.try_any",
    "Verif.Lang.try_ok",
    "Verif.Lang.try_listed_partial",
    "Verif.Lang.try_unlisted_partial",
    "Verif.Lang.try_timeout_violation",
    "Verif.Lang.try_keeps"
   ],
   "note": "Branches, cond and try are proved for all code fragments and states. A try with a filter raises AttributeError instead of passing on a timeout: violation, and the filter theorems carry the guard that the error is a run-time or user error."
  },
  {
   "property": "C54",
   "status": "partial",
   "theorems": [
    "Verif.Lang.castPick_first",
    "Verif.Lang.cast_first_partial",
    "Verif.Lang.castPick_some",
    "Verif.Lang.cast_covers_partial",
    "Verif.Lang.cast_map_violation",
    "Verif.Lang.cast_array_map_violation",
    "Verif.Lang.cast_truncates_violation",
    "Verif.Lang.cast_widens",
    "Verif.Lang.ifNotNull_then",
    "Verif.Lang.ifNotNull_else",
    "Verif.Lang.untag_partial",
    "Verif.Lang.untag_namespace_violation"
   ],
   "note": "Map cases never match because the type is re-read as an array, an array and a map among the cases raise AvroException, a double is truncated by an int case, and named types with a namespace stay tagged: violations. The partial theorems exclude exactly these."
  },
  {
   "property": "C55",
   "status": "proved",
   "theorems": [
    "Verif.Names.fmt_inj",
    "Verif.Names.calls_above",
    "Verif.Names.calls_nodup",
    "Verif.Names.threads_violation"
   ],
   "note": "Proved for all sequences of calls of the four functions in any mixture. Calls from several threads at once are outside the statement; threads_violation shows that two threads can get the same name."
  },
  {
   "property": "C56",
   "status": "proved",
   "theorems": [
    "Verif.Lang.while_runs",
    "Verif.Lang.while_inv",
    "Verif.Lang.while_rounds_clock",
    "Verif.Lang.while_stops",
    "Verif.Lang.until_runs",
    "Verif.Lang.until_inv",
    "Verif.Lang.until_stops",
    "Verif.Lang.for_runs",
    "Verif.Lang.for_inv",
    "Verif.Lang.for_stops",
    "Verif.Lang.each_iff"
   ],
   "note": "Each loop is shown equal to the obvious relation on rounds. The conditions are assumed to return booleans; a condition of type union of boolean is a C42 violation."
  },
  {
   "property": "C57",
   "status": "proved",
   "theorems": [
    "Verif.Arith.bitwise_range",
    "Verif.Arith.bitwise_inRange",
    "Verif.Arith.bitwise_bits"
   ],
   "note": ""
  },
  {
   "property": "C58",
   "status": "proved",
   "theorems": [
    "Verif.Lib.ends_spec",
    "Verif.Lib.ends_empty",
    "Verif.Lib.insert_spec",
    "Verif.Lib.replace_spec",
    "Verif.Lib.removeAt_spec",
    "Verif.Lib.edit_out_of_range",
    "Verif.Lib.position_split",
    "Verif.Lib.removeRange_eq",
    "Verif.Lib.rotate_spec",
    "Verif.Lib.rotate_edge",
    "Verif.Lib.cycle_spec",
    "Verif.Lib.cycle_negative",
    "Verif.Lib.flatten_spec",
    "Verif.Lib.reverse_spec"
   ],
   "note": ""
  },
  {
   "property": "C59",
   "status": "partial",
   "theorems": [
    "Verif.Lib.Round.ceil_floor_spec",
    "Verif.Lib.Round.floorHalf_nearest_partial",
    "Verif.Lib.Round.round_spec_partial",
    "Verif.Lib.Round.round_special",
    "Verif.Lib.Round.castInt_spec",
    "Verif.Lib.Round.round_small_violation",
    "Verif.Lib.Round.round_large_violation",
    "Verif.Lib.Round.rint_spec",
    "Verif.Lib.Round.rint_large",
    "Verif.Lib.Round.signum_spec",
    "Verif.Lib.Round.copysign_spec_partial",
    "Verif.Lib.Round.copysign_violation"
   ],
   "note": "m.round and the casts are wrong at 0.5-2^-54 and at odd integers above 2^52; copysign of the least integer leaves the range. m.ceil, m.floor, m.rint, m.signum are proved without guard."
  },
  {
   "property": "C60",
   "status": "proved",
   "theorems": [
    "Verif.Lib.Round.totals_exact"
   ],
   "note": "Integers; the double versions are not modelled."
  },
  {
   "property": "C61",
   "status": "partial",
   "theorems": [
    "Verif.Avro.mutual_partial",
    "Verif.Avro.mutual_violation"
   ],
   "note": "Fails for unions that list the same members in another order; holds for union-free types."
  },
  {
   "property": "C62",
   "status": "partial",
   "theorems": [
    "Verif.Stat.covariance_batch",
    "Verif.Stat.cV_symm",
    "Verif.Stat.cV_diag",
    "Verif.Stat.covM_diag",
    "Verif.Stat.covM_pair",
    "Verif.Stat.covM_order_violation"
   ],
   "note": "Arrays: proved in exact arithmetic. Maps: means and variances of single keys are proved, covariances of two keys that always come together are proved; for keys that do not, the value depends on the order of the data: violation."
  },
  {
   "property": "C63",
   "status": "proved",
   "theorems": [
    "Verif.Stat.topN_pure",
    "Verif.Stat.topN_stream",
    "Verif.Stat.topN_length",
    "Verif.Stat.runCounter_get",
    "Verif.Stat.fillCounter_stream"
   ],
   "note": "topN_stream is for user functions without effects that are a strict weak order; topN_length for all user functions."
  },
  {
   "property": "C64",
   "status": "partial",
   "theorems": [
    "Verif.Reader.read_errors_partial",
    "Verif.Reader.del_violation",
    "Verif.Reader.cond_null_violation",
    "Verif.Reader.foreach_violation",
    "Verif.Reader.fcn_violation",
    "Verif.Reader.param_violation",
    "Verif.Reader.param_null_violation",
    "Verif.Reader.case_violation",
    "Verif.Reader.base64_violation",
    "Verif.Reader.float_violation"
   ],
   "note": "Nine kinds of JSON raise UnboundLocalError, AttributeError, TypeError, binascii.Error or OverflowError: violations. JSON without these places (tame) raises only PFASyntaxException and, beyond the limit on nesting, RecursionError."
  },
  {
   "property": "C65",
   "status": "partial",
   "theorems": [
    "Verif.Time.ymd2ord_next",
    "Verif.Time.ord2ymd_spec",
    "Verif.Time.ord2ymd_ymd2ord",
    "Verif.Time.ord2ymd_iterate",
    "Verif.Time.moment_utc",
    "Verif.Time.moment_zone",
    "Verif.Time.moment_range",
    "Verif.Time.moment_unknown",
    "Verif.Time.accessors",
    "Verif.Time.weekday_spec",
    "Verif.Time.yday_spec",
    "Verif.Time.isField_spec",
    "Verif.Time.interval_tests",
    "Verif.Time.interval_errors",
    "Verif.Time.accessor_errors",
    "Verif.Time.within_spec",
    "Verif.Time.isWeekend_spec",
    "Verif.Time.isWorkHours_partial",
    "Verif.Time.isWorkHours_violation",
    "Verif.Time.makeTimestamp_spec",
    "Verif.Time.makeTimestamp_zone",
    "Verif.Time.makeTimestamp_error_partial",
    "Verif.Time.makeTimestamp_overflow_violation",
    "Verif.Time.named_back_partial",
    "Verif.Time.named_back_violation",
    "Verif.Time.makeTimestamp_int_violation",
    "Verif.Time.fields_back",
    "Verif.Time.moment_overflow_violation",
    "Verif.Time.makeTimestamp_range_violation"
   ],
   "note": "Violations: time.isWorkHours is true on weekends (the test of the day is always true); makeTimestamp raises OverflowError for milliseconds above 2147483, and returns doubles although declared int; timestamps made in the last second of year 9999 are refused by the accessors; a zone near the ends of the range raises OverflowError. The calendar of Python's datetime is modelled with its algorithm and proved to count days by the calendar's rule; pytz zones are arbitrary functions."
  },
  {
   "property": "C66",
   "status": "partial",
   "theorems": [
    "Verif.La.rect_rep",
    "Verif.La.rep_inj",
    "Verif.La.map_rep",
    "Verif.La.scale_rep",
    "Verif.La.scaleVec_rep",
    "Verif.La.zip_rep",
    "Verif.La.zip_misaligned",
    "Verif.La.add_rep",
    "Verif.La.sub_rep",
    "Verif.La.zipVec_spec",
    "Verif.La.addVec_rep",
    "Verif.La.subVec_rep",
    "Verif.La.transpose_rep",
    "Verif.La.transpose_transpose",
    "Verif.La.transpose_errors",
    "Verif.La.dot_rep",
    "Verif.La.dotVec_rep",
    "Verif.La.dot_misaligned",
    "Verif.La.dot_assoc",
    "Verif.La.dot_ragged_violation",
    "Verif.La.trace_rep",
    "Verif.La.symmetric_rep",
    "Verif.La.symmetric_nonsquare",
    "Verif.La.truncate_rep",
    "Verif.La.mapMaps_cell",
    "Verif.La.scaleMaps_entry",
    "Verif.La.scaleMap_coord",
    "Verif.La.zipMaps_cell",
    "Verif.La.zipMaps_entry",
    "Verif.La.zipMaps_good",
    "Verif.La.addMaps_entry",
    "Verif.La.subMaps_entry",
    "Verif.La.addMap_coord",
    "Verif.La.subMap_coord",
    "Verif.La.dotMaps_entry",
    "Verif.La.dotMaps_result",
    "Verif.La.dotMap_coord",
    "Verif.La.traceMaps_ok",
    "Verif.La.traceMaps_partial",
    "Verif.La.traceMaps_violation",
    "Verif.La.transposeMaps_ok",
    "Verif.La.transposeMaps_partial",
    "Verif.La.transposeMaps_violation",
    "Verif.La.symmetricMaps_spec",
    "Verif.La.truncateMaps_spec",
    "Verif.La.truncateRows_iff",
    "Verif.La.truncateMaps_iff"
   ],
   "note": "Arrays are compared with Mathlib's matrices, maps with functions of two names. Exact arithmetic. Violations: la.dot of ragged arrays raises ValueError; la.transpose of maps whose rows have equally many but different names, and la.trace of maps without a diagonal entry, raise KeyError."
  },
  {
   "property": "C67",
   "status": "partial",
   "theorems": [
    "Verif.Near.metricLoop_chain",
    "Verif.Near.metricLoop_raises",
    "Verif.Near.withMissing_eq",
    "Verif.Near.withMissing_default",
    "Verif.Near.missing_spec",
    "Verif.Near.missing_errors",
    "Verif.Near.missing_raises",
    "Verif.Near.minkowski_param",
    "Verif.Near.minkowski_inf",
    "Verif.Near.calls_vec",
    "Verif.Near.scaled_vec",
    "Verif.Near.euclidean_dist",
    "Verif.Near.squaredEuclidean_dist",
    "Verif.Near.taxicab_dist",
    "Verif.Near.chebyshev_dist",
    "Verif.Near.minkowski_dist",
    "Verif.Near.simpleEuclidean_dist",
    "Verif.Near.simpleEuclidean_error",
    "Verif.Near.absDiff_dist",
    "Verif.Near.gaussian_spec",
    "Verif.Near.countPairs_spec",
    "Verif.Near.tally_total",
    "Verif.Near.tally_swap",
    "Verif.Near.tally_equal",
    "Verif.Near.binary_spec",
    "Verif.Near.binary_symm",
    "Verif.Near.binary_range",
    "Verif.Near.binarySimilarity_spec",
    "Verif.Near.binary_errors",
    "Verif.Near.euclidean_sqrt_violation",
    "Verif.Near.metric_empty_violation",
    "Verif.Near.gaussian_zero_violation",
    "Verif.Near.binary_nan_violation"
   ],
   "note": "Proved over the real numbers with nan. Violations: euclidean raises ValueError when the similarities or weights make the scaled sum negative (negative weights); data without coordinates have distance nan; gaussianSimilarity with sigma 0 is nan for equal values; a binary similarity is nan when its denominator is 0."
  },
  {
   "property": "C68",
   "status": "partial",
   "theorems": [
    "Verif.Near.bin_spec",
    "Verif.Near.bin_errors",
    "Verif.Near.binWidth_spec",
    "Verif.Near.nearest1_spec",
    "Verif.Near.nearest2_spec",
    "Verif.Near.nearest2_dim",
    "Verif.Near.nearest3_spec",
    "Verif.Near.nearest3_raises",
    "Verif.Near.sumSq_fin",
    "Verif.Near.closest_inside",
    "Verif.Near.closest_outside",
    "Verif.Near.linear_cases",
    "Verif.Near.linear_line",
    "Verif.Near.line_between",
    "Verif.Near.linear_at",
    "Verif.Near.multi_spec",
    "Verif.Near.closest_map",
    "Verif.Near.closest_mem",
    "Verif.Near.multi_columns",
    "Verif.Near.multi_errors",
    "Verif.Near.bin_rounding_violation",
    "Verif.Near.bin_inf_violation",
    "Verif.Near.binWidth_overflow_violation",
    "Verif.Near.binWidth_range_violation",
    "Verif.Near.nearest_nan_violation",
    "Verif.Near.nearest2_overflow_violation",
    "Verif.Near.linear_rounding_violation"
   ],
   "note": "Proved in exact arithmetic for all tables. Violations: in binary64 a value inside the range can raise 'x out of range'; an infinite limit raises ValueError; a quotient that overflows raises OverflowError; the bin number need not fit an int; a nan position in the first row hides the others; far coordinates raise OverflowError; interpolation of a constant table rounds."
  },
  {
   "property": "C69",
   "status": "partial",
   "theorems": [
    "Verif.Near.argLowestN_map",
    "Verif.Near.nearestN_spec",
    "Verif.Near.byDistance_head",
    "Verif.Near.clClosest_spec",
    "Verif.Near.clClosestN_spec",
    "Verif.Near.nearestK_spec",
    "Verif.Near.nearest_errors",
    "Verif.Near.nearest_raises",
    "Verif.Near.clClosest_points",
    "Verif.Near.ballR_spec",
    "Verif.Near.besti_spec",
    "Verif.Near.firstIndex_unique",
    "Verif.Near.firstIndex_exists",
    "Verif.Near.kmeansIteration_spec",
    "Verif.Near.kmeansIteration_errors",
    "Verif.Near.updateMean_spec",
    "Verif.Near.updateMean_errors",
    "Verif.Near.kmeans_descends",
    "Verif.Near.meanOf_eq",
    "Verif.Near.mean_least",
    "Verif.Near.uniques_spec",
    "Verif.Near.randomSeeds_spec",
    "Verif.Near.randomSeeds_errors",
    "Verif.Near.nbMean_partial",
    "Verif.Near.nbMean_plain",
    "Verif.Near.nbMean_errors",
    "Verif.Near.nbMean_zero_violation",
    "Verif.Near.nearestKPoints_spec",
    "Verif.Near.nearestKPoints_errors",
    "Verif.Near.closest_nan_violation",
    "Verif.Near.closest_dim_violation",
    "Verif.Near.closest_overflow_violation"
   ],
   "note": "Proved for all metrics (with effects) whose distances are not nan; means in exact arithmetic. Violations: a nan distance of the first cluster hides the others; closest without a metric does not check dimensions; far coordinates raise OverflowError; neighbor.mean raises ZeroDivisionError when the weights sum to zero."
  },
  {
   "property": "C70",
   "status": "partial",
   "theorems": [
    "Verif.Score.softmax_fits",
    "Verif.Score.softmax_cases",
    "Verif.Score.soft_spec",
    "Verif.Score.softmax_empty",
    "Verif.Score.softmaxMap_spec",
    "Verif.Score.unwrap_spec",
    "Verif.Score.logit_partial",
    "Verif.Score.loglog_partial",
    "Verif.Score.cauchit_spec",
    "Verif.Score.softplus_partial",
    "Verif.Score.relu_spec",
    "Verif.Score.tanh_spec",
    "Verif.Score.linear_spec",
    "Verif.Score.linear_symm",
    "Verif.Score.kernel_errors",
    "Verif.Score.rbf_partial",
    "Verif.Score.rbf_range",
    "Verif.Score.poly_spec",
    "Verif.Score.poly_cases",
    "Verif.Score.sigmoidK_spec",
    "Verif.Score.linear_psd",
    "Verif.Score.svm_spec",
    "Verif.Score.svm_errors",
    "Verif.Score.svm_linear",
    "Verif.Score.neural_spec",
    "Verif.Score.neural_pure",
    "Verif.Score.neural_errors",
    "Verif.Score.gaussian_partial",
    "Verif.Score.gaussian_errors",
    "Verif.Score.gaussianMap_partial",
    "Verif.Score.gaussianMap_errors",
    "Verif.Score.multinomial_spec",
    "Verif.Score.multinomial_near",
    "Verif.Score.multinomial_errors",
    "Verif.Score.multinomialMap_spec",
    "Verif.Score.multinomialMap_errors",
    "Verif.Score.bernoulli_count",
    "Verif.Score.bernoulli_partial",
    "Verif.Score.bernoulli_error",
    "Verif.Score.softmax_overflow_violation",
    "Verif.Score.softmax_order_violation",
    "Verif.Score.logit_overflow_violation",
    "Verif.Score.loglog_overflow_violation",
    "Verif.Score.rbf_overflow_violation",
    "Verif.Score.gaussian_overflow_violation",
    "Verif.Score.multinomial_map_violation",
    "Verif.Score.bernoulli_twice_violation"
   ],
   "note": "Over the real numbers, with the overflow of exp and ** at 2^1024. Violations: softmax raises OverflowError when the entry of largest magnitude is negative and the spread large, and depending on the order of the entries; logit, cloglog, loglog and softplus raise OverflowError for large arguments, rbf for negative gamma or far points, gaussian for far data; multinomial with maps is not normalized, unlike with arrays; bernoulli counts an item that occurs twice twice. probit (error function) is not modelled."
  },
  {
   "property": "C71",
   "status": "partial",
   "theorems": [
    "Verif.Misc.randBetween_spec",
    "Verif.Misc.randAll_spec",
    "Verif.Misc.randReal_partial",
    "Verif.Misc.randReal_violation",
    "Verif.Misc.pickOne_spec",
    "Verif.Misc.repeatEff_spec",
    "Verif.Misc.choice_spec",
    "Verif.Misc.sample_partial",
    "Verif.Misc.sample_errors",
    "Verif.Misc.sample_negative_violation",
    "Verif.Misc.cumulate_ok",
    "Verif.Misc.locate_spec",
    "Verif.Misc.histogram_partial",
    "Verif.Misc.cumulate_raises",
    "Verif.Misc.histogram_errors",
    "Verif.Misc.histogram_overflow_violation",
    "Verif.Misc.histogramOf_spec",
    "Verif.Misc.randChars_spec",
    "Verif.Misc.text_spec",
    "Verif.Misc.text_errors",
    "Verif.Misc.string_partial",
    "Verif.Misc.upper_good",
    "Verif.Misc.string_surrogate_violation",
    "Verif.Misc.hex_length",
    "Verif.Misc.hex_value",
    "Verif.Misc.uuid_violation"
   ],
   "note": "Doubles in exact arithmetic. Violations: rand.double can return the upper limit and infinity in binary64 and accepts nan limits; rand.sample of a negative size raises ValueError; rand.histogram returns None when the sum overflows; rand.string can contain the surrogate 0xD800; no result of rand.uuid4 is a UUID (four digits too many). rand.gaussian is not modelled."
  },
  {
   "property": "C72",
   "status": "partial",
   "theorems": [
    "Verif.Misc.ascii_spec",
    "Verif.Misc.latin1_spec",
    "Verif.Misc.utf8_spec",
    "Verif.Misc.utf16be_spec",
    "Verif.Misc.utf16le_spec",
    "Verif.Misc.utf16_spec",
    "Verif.Misc.utf16_marks",
    "Verif.Misc.utf8Dec_char",
    "Verif.Misc.utf8Dec_canon",
    "Verif.Misc.utf16Dec_canon",
    "Verif.Misc.toRaw_str",
    "Verif.Misc.decode_encode",
    "Verif.Misc.encode_errors",
    "Verif.Misc.decode_errors",
    "Verif.Misc.tester_violation",
    "Verif.Misc.encode_match",
    "Verif.Misc.base64_round",
    "Verif.Misc.fromBase64_errors",
    "Verif.Misc.fromBase64_violation"
   ],
   "note": "Proved for all texts, with Python's codecs modelled from their RFCs. Violations: every tester raises TypeError for bytes that are a Python str, such as the results of the encoders; fromBase64 raises binascii.Error for a wrong length and accepts any padding and a final newline."
  },
  {
   "property": "C73",
   "status": "partial",
   "theorems": [
    "Verif.Misc.impute_partial",
    "Verif.Misc.impute_violation",
    "Verif.Misc.nonnum_spec",
    "Verif.Misc.index?_spec",
    "Verif.Misc.index?_none",
    "Verif.Misc.enum_spec",
    "Verif.Misc.fixed_spec",
    "Verif.Misc.starts_append",
    "Verif.Misc.trigger_spec",
    "Verif.Misc.trigger_error",
    "Verif.Misc.trigger_violation",
    "Verif.Misc.zValue_partial",
    "Verif.Misc.zValue_edge",
    "Verif.Misc.zValueCount_edge",
    "Verif.Misc.zValue_violation",
    "Verif.Misc.cusum_step",
    "Verif.Misc.cusum_spec",
    "Verif.Misc.small_example"
   ],
   "note": "zValue over the real numbers, updateCUSUM in exact arithmetic. Violations: a map without tag is mistaken for a tagged value by impute; updateTrigger leaves the range of int; zValue with a count of 1 raises ZeroDivisionError even when no correction is asked for."
  },
  {
   "property": "C74",
   "status": "partial",
   "theorems": [
    "Verif.Misc.ksLoop_ge_d",
    "Verif.Misc.ksLoop_ge",
    "Verif.Misc.ksStat_ge",
    "Verif.Misc.ksLoop_le",
    "Verif.Misc.ksStat_partial",
    "Verif.Misc.ksStat_tie_violation",
    "Verif.Misc.ksLoop_pos",
    "Verif.Misc.ksStat_pos",
    "Verif.Misc.kolCdf_bounds",
    "Verif.Misc.kolmogorov_spec",
    "Verif.Misc.kolmogorov_large_violation",
    "Verif.Misc.residual_spec",
    "Verif.Misc.pull_spec",
    "Verif.Misc.sumSq_eq",
    "Verif.Misc.chi2_partial",
    "Verif.Misc.chi2_forms",
    "Verif.Misc.chi2_int_violation",
    "Verif.Misc.reducedChi2_spec",
    "Verif.Misc.chi2Prob_spec"
   ],
   "note": "The statistic over the rationals, the probability over the reals. Violations: with repeated values in a sample the statistic is too large (1/2 for [0,0] and [0], which have the same distribution); the series for the probability has too few terms, so that large samples without overlap get a probability above 1/2; updateChi2 of a Python int raises AttributeError. mahalanobis and the chi-squared distribution are not modelled."
  },
  {
   "property": "C75",
   "status": "partial",
   "theorems": [
    "Verif.Score.regLinear_spec",
    "Verif.Score.regLinear_errors",
    "Verif.Score.regLinearRows_spec",
    "Verif.Score.regLinearRows_errors",
    "Verif.Score.regLinearMap_spec",
    "Verif.Score.regLinearMaps_spec",
    "Verif.Score.quad_spec",
    "Verif.Score.regVariance_spec",
    "Verif.Score.regVariance_errors",
    "Verif.Score.regVariance_is_variance",
    "Verif.Score.quadMap_spec",
    "Verif.Score.regVarianceMap_spec",
    "Verif.Score.regVariances_spec",
    "Verif.Score.regVarianceMaps_spec",
    "Verif.Score.kriging_violation",
    "Verif.Score.kriging_error",
    "Verif.Score.outputs_violation",
    "Verif.Score.regResidual_violation",
    "Verif.Score.regPull_violation",
    "Verif.Score.regPull_partial",
    "Verif.Score.regUpdate_violation",
    "Verif.Score.reg_example"
   ],
   "note": "linear and linearVariance are proved in exact arithmetic. Violations: gaussianProcess never uses the kriging weight, and computes all outputs after the first with the beta of the first; the deprecated residual drops entries without partner, pull raises ZeroDivisionError, updateChi2 changes its argument and turns the int field into a float. The fit of gaussianProcess is not modelled."
  },
  {
   "property": "C76",
   "status": "partial",
   "theorems": [
    "Verif.Misc.matches_or_stuck",
    "Verif.Misc.Matches.unique",
    "Verif.Misc.returns_iff",
    "Verif.Misc.returns_of_progress",
    "Verif.Misc.positions",
    "Verif.Misc.first_match",
    "Verif.Misc.texts",
    "Verif.Misc.matches_ordered",
    "Verif.Misc.weave_between",
    "Verif.Misc.replaceall_spec",
    "Verif.Misc.split_spec",
    "Verif.Misc.pieces_spec",
    "Verif.Misc.raw_spec",
    "Verif.Misc.text_piece",
    "Verif.Misc.textTo_errors",
    "Verif.Misc.arguments",
    "Verif.Misc.anchor_violation",
    "Verif.Misc.empty_match_violation",
    "Verif.Misc.empty_text_violation",
    "Verif.Misc.groups_violation",
    "Verif.Misc.position_violation",
    "Verif.Misc.zero_violation",
    "Verif.Misc.aOrB_matches",
    "Verif.Misc.aOrB_good",
    "Verif.Misc.loop_spec",
    "Verif.Misc.loop_stuck"
   ],
   "note": "Proved for every pattern, with regcomp and regexec arbitrary: all functions agree on the successive matches, which do not overlap; the pieces of split and replaceall make up the text. Violations: the functions that go through all matches return exactly if no search meets an empty match at its start (x* never returns); ^ matches at the start of every search; nothing is found in the empty text; groups that took no part are left out, shifting the others; positions in strings count bytes; a search ends at a zero."
  },
  {
   "property": "C77",
   "status": "partial",
   "theorems": [
    "Verif.Prob.gaussLL_spec",
    "Verif.Prob.gaussCDF_isCdf",
    "Verif.Prob.gaussianCDF_spec",
    "Verif.Prob.gaussian_point",
    "Verif.Prob.gaussianQF_partial",
    "Verif.Prob.gaussianQF_violation",
    "Verif.Prob.record_spec",
    "Verif.Prob.exponentialPDF_spec",
    "Verif.Prob.expF_isCdf",
    "Verif.Prob.exponentialCDF_spec",
    "Verif.Prob.exponentialQF_spec",
    "Verif.Prob.exponential_zero_violation",
    "Verif.Prob.cauchyPDF_spec",
    "Verif.Prob.cauchyF_isCdf",
    "Verif.Prob.cauchyCDF_spec",
    "Verif.Prob.cauchyQF_spec",
    "Verif.Prob.uniform_isCdf",
    "Verif.Prob.uniform_spec",
    "Verif.Prob.uniformQF_spec",
    "Verif.Prob.weibull_isCdf",
    "Verif.Prob.weibullPDF_partial",
    "Verif.Prob.weibullCDF_partial",
    "Verif.Prob.weibull_violation",
    "Verif.Prob.weibullQF_spec",
    "Verif.Prob.lognormalPDF_spec",
    "Verif.Prob.lognormal_isCdf",
    "Verif.Prob.lognormalCDF_spec",
    "Verif.Prob.closed_parameters",
    "Verif.Prob.closed_inputs",
    "Verif.Prob.closed_example",
    "Verif.Prob.erf_strictMono",
    "Verif.Prob.erf_range",
    "Verif.Prob.tendsto_erf_atTop"
   ],
   "note": "Over the real numbers, with the OverflowError of ** and pow; densities are those of Mathlib. Violations: gaussianQF is an approximation, its median is above mu and its quantiles decrease just above the level 1/2; exponential accepts the rate 0, for which the CDF is 0 everywhere; weibullCDF raises OverflowError far from zero, and weibullPDF at zero is nan for shapes below 1; the squares in gaussianLL, cauchyPDF and lognormalPDF can raise OverflowError. lognormalQF is in C80."
  },
  {
   "property": "C78",
   "status": "partial",
   "theorems": [
    "Verif.Prob.exp_lgamma",
    "Verif.Prob.exp_logBeta",
    "Verif.Prob.gammaD_exp",
    "Verif.Prob.gammaPDF_spec",
    "Verif.Prob.gammaPDF_zero_limit",
    "Verif.Prob.chi2PDF_partial",
    "Verif.Prob.chi2PDF_zero_violation",
    "Verif.Prob.chi2PDF_none",
    "Verif.Prob.betaPDF_spec",
    "Verif.Prob.beta_half",
    "Verif.Prob.tPDF_spec",
    "Verif.Prob.fD_formula",
    "Verif.Prob.fPDF_partial",
    "Verif.Prob.fPDF_violation",
    "Verif.Prob.density_parameters",
    "Verif.Prob.density_inputs",
    "Verif.Prob.density_example",
    "Verif.Prob.gammaF_isCdf",
    "Verif.Prob.lowerP_succ",
    "Verif.Prob.lowerP_upper",
    "Verif.Prob.partialSum_spec",
    "Verif.Prob.gammaP_cases",
    "Verif.Prob.gammaP_accuracy",
    "Verif.Prob.gammaP_raises",
    "Verif.Prob.gammaP_returns",
    "Verif.Prob.gammaCDF_partial",
    "Verif.Prob.gammaCDF_violation",
    "Verif.Prob.chi2CDF_spec",
    "Verif.Prob.chi2CDF_zero_violation",
    "Verif.Prob.series_errors"
   ],
   "note": "Over the real numbers, with the OverflowError of exp and pow; lgamma is the logarithm of Mathlib's Gamma function. Violations: chi2 with no degrees of freedom has a density and a distribution function that do not belong together; fPDF raises OverflowError for many degrees of freedom; gammaCDF and chi2CDF raise a bare Exception for large arguments, because the series stops after 1000 terms. Not modelled: the continued fraction of the incomplete beta function (betaCDF, tCDF, fCDF) and the Newton iterations of gammaQF, chi2QF and betaQF."
  },
  {
   "property": "C79",
   "status": "partial",
   "theorems": [
    "Verif.Prob.nChooseK_spec",
    "Verif.Prob.nChooseK_overflow",
    "Verif.Prob.nChooseK_error",
    "Verif.Prob.sumTo_spec",
    "Verif.Prob.stepLoop_spec",
    "Verif.Prob.binomialD_spec",
    "Verif.Prob.binomP_sum",
    "Verif.Prob.binomialPDF_partial",
    "Verif.Prob.binomialPDF_violation",
    "Verif.Prob.binomialPDF_overflow_violation",
    "Verif.Prob.binomialQF_spec",
    "Verif.Prob.geometric_spec",
    "Verif.Prob.geometricQF_partial",
    "Verif.Prob.geometricQF_violation",
    "Verif.Prob.geometricQF_edges",
    "Verif.Prob.poissonPDF_spec",
    "Verif.Prob.poisson_total",
    "Verif.Prob.hyperP_sum",
    "Verif.Prob.hyperD_spec",
    "Verif.Prob.hypergeometric_partial",
    "Verif.Prob.hypergeometric_violation",
    "Verif.Prob.hypergeometricQF_partial",
    "Verif.Prob.negD_spec",
    "Verif.Prob.negP_total",
    "Verif.Prob.negativeBinomial_partial",
    "Verif.Prob.negativeBinomialCDF_violation",
    "Verif.Prob.negativeBinomialQF_partial",
    "Verif.Prob.discrete_parameters",
    "Verif.Prob.discrete_inputs"
   ],
   "note": "Over the real numbers. Violations: binomialPDF of the number of trials is 0, and raises OverflowError where the binomial coefficient does not fit a double; hypergeometricPDF of the number of white balls is 0, hypergeometricCDF above it is 0, and hypergeometricQF then runs for ever or leaves the support; negativeBinomialCDF with size 0 falls to 0 above 0; the quantiles other than binomialQF are strict, so that a level that is reached exactly gives the next number. binomialCDF goes through the incomplete beta function and is not modelled."
  },
  {
   "property": "C80",
   "status": "partial",
   "theorems": [
    "Verif.Prob.growUp_spec",
    "Verif.Prob.growDown_spec",
    "Verif.Prob.bisect_spec",
    "Verif.Prob.searchUp_spec",
    "Verif.Prob.searchBoth_spec",
    "Verif.Prob.lognormalQF_spec",
    "Verif.Prob.lognormalQF_edges",
    "Verif.Prob.poisson_lowerP",
    "Verif.Prob.gserLoop_spec",
    "Verif.Prob.gser_cases",
    "Verif.Prob.gser_ratio",
    "Verif.Prob.gser_accuracy",
    "Verif.Prob.poissonCDF_partial",
    "Verif.Prob.poissonCDF_violation",
    "Verif.Prob.poissonCDF_edges",
    "Verif.Prob.poissonLoop_spec",
    "Verif.Prob.poissonQF_partial",
    "Verif.Prob.nChooseKFcn_partial",
    "Verif.Prob.nChooseKFcn_violation",
    "Verif.Prob.lnBeta_spec",
    "Verif.Prob.erf_spec",
    "Verif.Prob.lnGamma_spec",
    "Verif.Prob.lnGamma_violation",
    "Verif.Prob.invert_errors"
   ],
   "note": "Over the real numbers: a search whose bound doubles beyond the doubles is not covered. Violations: poissonCDF raises a bare Exception for large parameters, because the series stops after 700 terms; m.special.nChooseK refuses to choose all, and returns numbers outside the range of an int; lnGamma of infinity is nan. The continued fraction of poissonCDF for parameters above x + 2 is a parameter of the model."
  },
  {
   "property": "C81",
   "status": "partial",
   "theorems": [
    "Verif.Reader.config_print_read",
    "Verif.Reader.config_read_print_read_partial",
    "Verif.Reader.config_depth",
    "Verif.Reader.config_fine",
    "Verif.Reader.config_consistent",
    "Verif.Reader.config_unknown_key",
    "Verif.Reader.config_errors_partial",
    "Verif.Reader.config_not_object_violation",
    "Verif.Reader.config_parts_violation",
    "Verif.Reader.pool_node_source",
    "Verif.Reader.pool_source",
    "Verif.Reader.cell_source",
    "Verif.Reader.pool_source_violation",
    "Verif.Reader.cell_source_violation",
    "Verif.Reader.read_example",
    "Verif.Reader.example_ok"
   ],
   "note": "Proved for every configuration whose cells are embedded and whose LiteralInt nodes hold 32-bit numbers. Violations: a cell with source json or avro is printed with its content in place of the address and cannot be read again; a pool with such a source raises TypeError for every file; a document, functions, cells or a pool that is not an object raises AttributeError or UnboundLocalError. Types are the JSON they are printed as."
  },
  {
   "property": "C82",
   "status": "partial",
   "theorems": [
    "Verif.Producer.get_sub",
    "Verif.Producer.get_assign",
    "Verif.Producer.get_assign_other",
    "Verif.Producer.assign_ok",
    "Verif.Producer.assign_root_violation",
    "Verif.Producer.remove_iff",
    "Verif.Producer.del_key",
    "Verif.Producer.del_pos",
    "Verif.Producer.splitIndex_spec",
    "Verif.Producer.split_violation",
    "Verif.Producer.getmatch_means",
    "Verif.Producer.has_iff",
    "Verif.Producer.any_means",
    "Verif.Producer.means_example",
    "Verif.Producer.group_violation",
    "Verif.Producer.nan_violation",
    "Verif.Producer.bool_violation",
    "Verif.Producer.original_like",
    "Verif.Producer.modified_still",
    "Verif.Producer.groups_named",
    "Verif.Producer.original_violation",
    "Verif.Producer.search_sound",
    "Verif.Producer.search_complete",
    "Verif.Producer.search_order",
    "Verif.Producer.indexes_spec",
    "Verif.Producer.searchFirst_spec",
    "Verif.Producer.indexes_example",
    "Verif.Producer.assignAt_partial",
    "Verif.Producer.assignAt_root_violation",
    "Verif.Producer.assignAt_inner_violation"
   ],
   "note": "Everything is proved except where the code departs: the root cannot be assigned to or removed (IndexError), also by assignAt when the root matches; a text cannot name the root or a key that looks like a number; a group around plain JSON raises AttributeError; nan is matched by LT, LE, GT, GE and Approx; true matches 1; original lacks the mark \"@\"; assignAt also replaces parts that match only after their own parts were replaced. assignAt_partial says exactly what it does: it rewrites from the inside out."
  },
  {
   "property": "C83",
   "status": "partial",
   "theorems": [
    "Verif.Chain.prefixCell_inj",
    "Verif.Chain.prefixType_inj",
    "Verif.Chain.prefixFcnDef_inj",
    "Verif.Chain.prefixAction_inj",
    "Verif.Chain.action_ne_fcn",
    "Verif.Chain.prefixFcnRef_lib",
    "Verif.Chain.prefixFcnRef_inj",
    "Verif.Chain.prefixCell_special",
    "Verif.Chain.cell_not_special",
    "Verif.Chain.docCells_nodup",
    "Verif.Chain.docFuns_nodup",
    "Verif.Chain.rename_plain",
    "Verif.Chain.into_union",
    "Verif.Chain.chainPair_plain",
    "Verif.Chain.chainPair_alike",
    "Verif.Chain.into_eq",
    "Verif.Chain.chainPair_same_names",
    "Verif.Chain.assign_plain",
    "Verif.Chain.line_fits",
    "Verif.Chain.chain_union_violation",
    "Verif.Chain.chain_promotion_violation",
    "Verif.Chain.chain_record_violation",
    "Verif.Chain.chain_names_violation",
    "Verif.Chain.chain_kept_violation",
    "Verif.Chain.chain_newArray_violation",
    "Verif.Chain.chain_params_violation"
   ],
   "note": "Names: proved in full. Types: proved for types without names (chainPair_plain, assign_plain say what is accepted) and, for the common names, for types without unions and records. Violations: unions are compared in the wrong direction, numbers are not promoted, a record that occurs twice or contains itself is refused, one type of the second engine may get only one of two names, the kept names of the first input and the last output may collide, NewArray and parameters of functions keep the old types. Not modelled: conversion of embedded cells and pools, JSON and YAML input, the chain version (whose cell is given the number 0 where JSON text is expected)."
  },
  {
   "property": "C84",
   "status": "partial",
   "theorems": [
    "Verif.Chain.walk_chain",
    "Verif.Chain.rt_chain",
    "Verif.Chain.flow_sim",
    "Verif.Chain.mapFlow_sim",
    "Verif.Chain.map_chain",
    "Verif.Chain.emit_chain",
    "Verif.Chain.map_chain_run",
    "Verif.Chain.emit_chain_run",
    "Verif.Chain.emit_funs_ok",
    "Verif.Chain.map_funs_ok",
    "Verif.Chain.document_has",
    "Verif.Chain.document_closed",
    "Verif.Chain.node_ok",
    "Verif.Chain.map_document",
    "Verif.Chain.emit_document",
    "Verif.Chain.small_fits",
    "Verif.Chain.count_ok",
    "Verif.Chain.stamp_ok",
    "Verif.Chain.twice_ok",
    "Verif.Chain.chain_counters_violation",
    "Verif.Chain.chain_union_result_violation",
    "Verif.Chain.chain_rollback_violation",
    "Verif.Chain.chain_poolDel_violation",
    "Verif.Chain.chain_inline_violation",
    "Verif.Chain.chain_emit_violation",
    "Verif.Chain.chain_hidden_violation"
   ],
   "note": "Proved for engines without begin and end, without PoolDel, CallUserFcn and references to emit, whose types keep their names, whose inline functions do not read name, instance, metadata or the counters and which have no variable of these names (CleanE); the value of a run that the model does not follow to its end is left open. Violations show that each of these conditions is needed: the counters are those of the chain, an exception rolls back all engines, PoolDel and inline functions break the document, a reference to emit goes past the other engines, a variable called name is replaced, a result that is a union is refused by the next engine."
  },
  {
   "property": "C85",
   "status": "partial",
   "theorems": [
    "Verif.Cart.encode_spec",
    "Verif.Cart.fromRows_rows",
    "Verif.Cart.fromWhole_spec",
    "Verif.Cart.grow_total",
    "Verif.Cart.grow_splits",
    "Verif.Cart.splits_leaves",
    "Verif.Cart.splitMaxDepth_depth",
    "Verif.Cart.bestField_spec",
    "Verif.Cart.score_num",
    "Verif.Cart.score_cat",
    "Verif.Cart.argsort1_sorts",
    "Verif.Cart.d1_sound",
    "Verif.Cart.pure_violation",
    "Verif.Cart.depth_violation"
   ],
   "note": "Exact arithmetic; the sort and the logarithm are parameters. Violations: a node of texts is split although it has one text only, because canSplit asks for more than none; a maximum depth of 0 still splits the root."
  },
  {
   "property": "C86",
   "status": "partial",
   "theorems": [
    "Verif.Cart.loss_le",
    "Verif.Cart.numVariance_upper",
    "Verif.Cart.numVariance_best_partial",
    "Verif.Cart.catVariance_best_partial",
    "Verif.Cart.catEntropy_best",
    "Verif.Cart.sum_sq",
    "Verif.Cart.ties_violation",
    "Verif.Cart.ties_leaf_violation",
    "Verif.Cart.places_violation",
    "Verif.Cart.entropy_count_violation",
    "Verif.Cart.entropy_leaf_violation"
   ],
   "note": "Proved in full for texts with texts (catEntropy_best); for numbers with numbers when the values differ (the reported gain is always an upper bound); for texts with numbers when all categories have rows. Violations: with equal values the cut is not the best, its gain is not the reported one, or one side is empty so that the node becomes a leaf; below a split, places among the categories that have rows are taken for categories; for numbers with texts the rows above the cut are counted with one more, and the place behind the last row is taken for a cut."
  },
  {
   "property": "C87",
   "status": "partial",
   "theorems": [
    "Verif.Cart.pfaValueType_spec",
    "Verif.Cart.pfaValue_total",
    "Verif.Cart.predict_routes",
    "Verif.Cart.routes_total",
    "Verif.Cart.train_routes",
    "Verif.Cart.document_partial",
    "Verif.Cart.pfaValueType_members",
    "Verif.Cart.pfaValue_same",
    "Verif.Cart.loaded_partial",
    "Verif.Cart.value_whole",
    "Verif.Cart.simpleTest_whole",
    "Verif.Cart.stored_walk",
    "Verif.Cart.pfaValue_whole",
    "Verif.Cart.grow_mild",
    "Verif.Cart.whole_routes_partial",
    "Verif.Cart.whole_loaded_partial",
    "Verif.Cart.unsplit_violation",
    "Verif.Cart.integer_cut_violation",
    "Verif.Cart.tag_violation",
    "Verif.Cart.distribution_violation"
   ],
   "note": "Writing, loading and walking are proved for trees that were split at least once, whose numbers are all float, all double, or all int or all long and not negative, without predictandDistribution. Violations show that each condition is needed: a tree of one leaf is written as something that is not a node; cuts of integer fields are truncated when the document is loaded, so that negative rows come to another leaf; numbers of two types together with texts are tagged with a type that the union lacks; the distribution is declared as integers and becomes 0."
  },
  {
   "property": "C88",
   "status": "partial",
   "theorems": [
    "Verif.Lloyd.newCluster_spec",
    "Verif.Lloyd.newCluster_can",
    "Verif.Lloyd.construct_spec",
    "Verif.Lloyd.randomSubset_spec",
    "Verif.Lloyd.randomSubset_errors",
    "Verif.Lloyd.trialSizes_spec",
    "Verif.Lloyd.trialSizes_fit",
    "Verif.Lloyd.closest_spec",
    "Verif.Lloyd.iterate_spec",
    "Verif.Lloyd.iterate_descends",
    "Verif.Lloyd.loop_ends",
    "Verif.Lloyd.optimize_ends",
    "Verif.Lloyd.loop_euclidean",
    "Verif.Lloyd.moving_ends",
    "Verif.Lloyd.settled",
    "Verif.Lloyd.construct_equal_violation",
    "Verif.Lloyd.trialSizes_violation",
    "Verif.Lloyd.weights_violation",
    "Verif.Lloyd.weights_mean_violation",
    "Verif.Lloyd.equal_centers_violation",
    "Verif.Lloyd.minPoints_violation"
   ],
   "note": "Proved in exact arithmetic without weights, for the Euclidean metric and its square (the steps themselves for every metric): number of iterations at most cost / threshold^2 + 1 whatever the random choices are. Violations: weights are matched with the columns, so that an iteration is refused unless each cluster has one point or as many points as there are columns, and then the weights are those of the columns; two centers may become equal in an iteration with a jump; minPointsInCluster may raise the cost; maxPointsForClustering above the number of rows is refused only by random.sample; without sorting of rows the choice of a center may never end."
  },
  {
   "property": "C89",
   "status": "partial",
   "theorems": [
    "Verif.Lloyd.conditions_spec",
    "Verif.Lloyd.allChange_spec",
    "Verif.Lloyd.halfChange_spec",
    "Verif.Lloyd.allChange_needs",
    "Verif.Lloyd.halfChange_needs",
    "Verif.Lloyd.while_needs",
    "Verif.Lloyd.moving_needs",
    "Verif.Lloyd.maxIterations_rounds",
    "Verif.Lloyd.moving_partial",
    "Verif.Lloyd.clusterJumped_violation",
    "Verif.Lloyd.moving_violation",
    "Verif.Lloyd.moving_stops_violation"
   ],
   "note": "clusterJumped continues exactly if no cluster jumped, the opposite of its description, so moving() stops on a jump; maxIterations(m) makes m + 1 iterations. All others are proved."
  },
  {
   "property": "C90",
   "status": "partial",
   "theorems": [
    "Verif.Lloyd.order_spec",
    "Verif.Lloyd.pfaValue_spec",
    "Verif.Lloyd.populations_sum",
    "Verif.Lloyd.score_first",
    "Verif.Lloyd.score_unique",
    "Verif.Lloyd.score_unsorted",
    "Verif.Lloyd.loaded",
    "Verif.Lloyd.metric_args",
    "Verif.Lloyd.sorted_tie_violation",
    "Verif.Lloyd.metric_args_violation",
    "Verif.Lloyd.populations_violation"
   ],
   "note": "Proved for rows with one nearest center, and for all rows if the centers are not sorted. Violations: with sorting a row between two centers may be scored as another cluster than it was counted in; all metrics but Euclidean refer to undefined symbols; with populations the declared field has another name than the written one, so the document is refused."
  },
  {
   "property": "C91",
   "status": "partial",
   "theorems": [
    "Verif.Lib.Quant.median_spec",
    "Verif.Lib.Quant.median_splits",
    "Verif.Lib.Quant.ntile_inside",
    "Verif.Lib.Quant.ntile_outside",
    "Verif.Lib.Quant.ntile_spec",
    "Verif.Lib.Quant.ntile_mono",
    "Verif.Lib.Quant.ntile_half",
    "Verif.Lib.Quant.ntile_half_other",
    "Verif.Lib.Quant.rounds_double",
    "Verif.Lib.Quant.mem_besties",
    "Verif.Lib.Quant.besties_ne",
    "Verif.Lib.Quant.mode_spec",
    "Verif.Lib.Quant.mode_single_partial",
    "Verif.Lib.Quant.mode_tie_violation"
   ],
   "note": "Median and ntile are proved, the position of ntile rounded as doubles are (arrays of at most 2^53 elements), the interpolation in exact arithmetic. Violation: with an even number of most frequent numbers the mode is their mean, which need not be an element. Values of the mode are compared by their JSON text."
  },
  {
   "property": "C92",
   "status": "partial",
   "theorems": [
    "Verif.Lib.LogSum.lnsum_product",
    "Verif.Lib.LogSum.lnsum_special",
    "Verif.Lib.LogSum.mean_spec",
    "Verif.Lib.LogSum.geomean_spec_partial",
    "Verif.Lib.LogSum.geomean_zero",
    "Verif.Lib.LogSum.geomean_negative_violation",
    "Verif.Lib.LogSum.logsumexp_spec_partial",
    "Verif.Lib.LogSum.logsumexp_bounds",
    "Verif.Lib.LogSum.logsumexp_nan",
    "Verif.Lib.LogSum.logsumexp_infinity_violation",
    "Verif.Lib.LogSum.logsumexp_shift"
   ],
   "note": "Real arithmetic. geomean is proved for positive numbers, with a violation for negative ones (a complex result, or a positive mean of negative numbers); logsumexp is proved if no number is plus infinity and one is finite, with a violation otherwise (nan instead of the infinity)."
  },
  {
   "property": "C93",
   "status": "partial",
   "theorems": [
    "Verif.Producer.Transform.findFields_json",
    "Verif.Producer.Transform.findFields_mem",
    "Verif.Producer.Transform.fields_spec_partial",
    "Verif.Producer.Transform.fields_text_violation",
    "Verif.Producer.Transform.replace_json",
    "Verif.Producer.Transform.eval_subst",
    "Verif.Producer.Transform.replace_text_violation",
    "Verif.Producer.Transform.order_spec",
    "Verif.Producer.Transform.exprs_indexed",
    "Verif.Producer.Transform.exprs_named",
    "Verif.Producer.Transform.clash_violation",
    "Verif.Producer.Transform.numpy_spec_partial",
    "Verif.Producer.Transform.transform_spec_partial",
    "Verif.Producer.Transform.transform_missing",
    "Verif.Producer.Transform.transform_constant_violation",
    "Verif.Producer.Transform.null_violation",
    "Verif.Producer.Transform.operators_agree",
    "Verif.Producer.Transform.round_violation",
    "Verif.Producer.Transform.remainder_violation",
    "Verif.Producer.Transform.expr_spec_partial",
    "Verif.Producer.Transform.newArray_spec_partial",
    "Verif.Producer.Transform.let_spec_partial"
   ],
   "note": "Expressions are trees of calls, references and literals; PrettyPFA is not parsed. The numpy form is proved for numpy functions that agree on elements and for expressions that mention a column. Violations: a text literal counts as a field and is substituted; an expression without columns gives one number instead of a column; null cannot be converted; % and %% become the same numpy function; a keyword _0 is lost beside positional expressions."
  },
  {
   "property": "C94",
   "status": "partial",
   "theorems": [
    "Verif.Stat.Plane.onAxis_total",
    "Verif.Stat.Plane.onAxis_unique",
    "Verif.Stat.Plane.belongs_unique",
    "Verif.Stat.Plane.onAxis_tests",
    "Verif.Stat.Plane.adds_flow",
    "Verif.Stat.Plane.addAt2_ok",
    "Verif.Stat.Plane.binIndex_ok",
    "Verif.Stat.Plane.fill_spec_partial",
    "Verif.Stat.Plane.fill_errors",
    "Verif.Stat.Plane.fill_lost_violation"
   ],
   "note": "Proved in exact arithmetic, for every point. Violation: a weight is lost in a histogram that lacks the optional counters, so the sum does not grow by it."
  },
  {
   "property": "C95",
   "status": "partial",
   "theorems": [
    "Verif.La.Numpy.inverseRows_matrix",
    "Verif.La.Numpy.inverse_spec",
    "Verif.La.Numpy.inverse_singular_violation",
    "Verif.La.Numpy.inverse_pseudo",
    "Verif.La.Numpy.inverse_errors",
    "Verif.La.Numpy.inverseMaps_spec",
    "Verif.La.Numpy.det_spec",
    "Verif.La.Numpy.det_inverse",
    "Verif.La.Numpy.det_bad",
    "Verif.La.Numpy.det_errors",
    "Verif.La.Numpy.detMaps_spec",
    "Verif.La.Numpy.orthogonal",
    "Verif.La.Numpy.eigenBasis_spec_partial",
    "Verif.La.Numpy.eigenBasis_zero_violation",
    "Verif.La.Numpy.eigenBasis_errors",
    "Verif.La.Numpy.mahalanobis_spec",
    "Verif.La.Numpy.dist_metric",
    "Verif.La.Numpy.dist_eigenBasis",
    "Verif.La.Numpy.mahalanobis_errors",
    "Verif.La.Numpy.mahalanobis_singular_violation",
    "Verif.La.Numpy.regMahalanobis_violation",
    "Verif.La.Numpy.mahalanobisMaps_spec",
    "Verif.La.Numpy.mahalanobisMaps_errors"
   ],
   "note": "Real numbers; numpy.linalg does what its documentation says. The basis is proved for positive eigenvalues that differ. Violations: a singular matrix raises LinAlgError in la.inverse and both distances; the eigenvalue zero gives infinities; model.reg.mahalanobis lets covariances of wrong size pass."
  },
  {
   "property": "C96",
   "status": "partial",
   "theorems": [
    "Verif.Pretty.asExpr_mini_partial",
    "Verif.Pretty.json_back",
    "Verif.Pretty.type_back",
    "Verif.Pretty.asExpr_head",
    "Verif.Pretty.sample_ok",
    "Verif.Pretty.poolDel_unsayable_violation",
    "Verif.Pretty.empty_unsayable_violation",
    "Verif.Pretty.shadow_unsayable_violation",
    "Verif.Pretty.cond_one_violation",
    "Verif.Pretty.fill_drops_violation",
    "Verif.Pretty.cell_assign_violation",
    "Verif.Pretty.assign_fill_violation",
    "Verif.Pretty.else_unchecked_violation",
    "Verif.Pretty.error_code_violation",
    "Verif.Pretty.duplicate_key_violation",
    "Verif.Pretty.record_name_violation",
    "Verif.Pretty.fixed_subs_violation",
    "Verif.Pretty.dotted_get",
    "Verif.Pretty.dotted_to",
    "Verif.Pretty.record_string_violation",
    "Verif.Pretty.int_fraction",
    "Verif.Pretty.array_param_refused"
   ],
   "note": "Proved for trees, not for text: asExpr_mini_partial has the condition Say, and asExpr_head proves for trees that are not substitutions that its conditions on names are necessary. Violations: PoolDel, empty arrays and objects, a cond of one branch and variables that share the name of a cell or pool cannot be written; positional arguments beside key: value are dropped; two assignments at once do not change cells; an else clause is not checked; error codes that are names raise AttributeError; repeated keys are dropped; a record is named after a call; the name of a fixed type cannot be substituted. Missing: unnamed types, whose names come from a counter."
  },
  {
   "property": "C97",
   "status": "partial",
   "theorems": [
    "Verif.Pretty.Lex.operator_text",
    "Verif.Pretty.Lex.operator_idiv",
    "Verif.Pretty.Lex.operator_inj",
    "Verif.Pretty.Lex.flagOf_iff",
    "Verif.Pretty.Lex.foreach_flag",
    "Verif.Pretty.Lex.cast_flag",
    "Verif.Pretty.Lex.dotname_split",
    "Verif.Pretty.Lex.dotname_longest",
    "Verif.Pretty.Lex.lex_comments",
    "Verif.Pretty.Lex.lex_comment_last",
    "Verif.Pretty.Lr.parses_sound",
    "Verif.Pretty.Lr.parses_complete",
    "Verif.Pretty.Lr.parser_ends",
    "Verif.Pretty.Lr.Fails.unique",
    "Verif.Pretty.Lr.run_map",
    "Verif.Pretty.Lex.lex_written",
    "Verif.Pretty.Lex.stuck_partial",
    "Verif.Pretty.Lex.stuck_last_violation",
    "Verif.Pretty.Lex.minus_number_violation",
    "Verif.Pretty.exprOk",
    "Verif.Pretty.exprShapes",
    "Verif.Pretty.exprLive",
    "Verif.Pretty.expressions_sound",
    "Verif.Pretty.expressions_end",
    "Verif.Pretty.expressions_read",
    "Verif.Pretty.sem_defined",
    "Verif.Pretty.reads_unique",
    "Verif.Pretty.reads_objects",
    "Verif.Pretty.fine",
    "Verif.Pretty.written_read",
    "Verif.Pretty.written_means_partial",
    "Verif.Pretty.left_first",
    "Verif.Pretty.right_first",
    "Verif.Pretty.chain_refused",
    "Verif.Pretty.index_call_violation",
    "Verif.Pretty.index_name",
    "Verif.Pretty.minus_read_violation",
    "Verif.Pretty.assigned_argument_refused",
    "Verif.Pretty.last_line_violation",
    "Verif.Pretty.sample_can",
    "Verif.Pretty.can_type",
    "Verif.Pretty.can_json",
    "Verif.Pretty.can_mini",
    "Verif.Pretty.text_means_partial",
    "Verif.Pretty.sample_words"
   ],
   "note": "Texts of expressions; the document around them is not part of this claim. text_means_partial derives Cans from Words, a condition on the words and numbers of the expressions themselves. written_means_partial has the condition Say of C96 and Cans (names that are no reserved words, strings without the character 0, floats that Python prints so that they can be read). The tables of the LALR(1) automaton were computed outside and are checked: every step follows the grammar, no run is endless, and the precedences are those of the code's table on all shapes of Shapes.lean. Violations: an index after a call belongs to the whole expression before it; x-1 is refused, as a name and a number; an error in the last of several lines is an IndexError."
  },
  {
   "property": "C98",
   "status": "partial",
   "theorems": [
    "Verif.Pretty.docOk",
    "Verif.Pretty.docShapesOk",
    "Verif.Pretty.docLive",
    "Verif.Pretty.document_sound",
    "Verif.Pretty.document_end",
    "Verif.Pretty.document_read",
    "Verif.Pretty.document_sections_partial",
    "Verif.Pretty.doc_fine",
    "Verif.Pretty.lexD_written",
    "Verif.Pretty.sections_written",
    "Verif.Pretty.document_written_partial",
    "Verif.Pretty.dreads_unique",
    "Verif.Pretty.dreads_made",
    "Verif.Pretty.document_order",
    "Verif.Pretty.document_parts",
    "Verif.Pretty.alias_seen",
    "Verif.Pretty.alias_before_violation",
    "Verif.Pretty.crlf_heading_violation",
    "Verif.Pretty.word_heading_violation",
    "Verif.Pretty.later_section_violation",
    "Verif.Pretty.name_string_violation",
    "Verif.Pretty.no_list_violation",
    "Verif.Pretty.source_text_violation",
    "Verif.Pretty.sampleDoc_say",
    "Verif.Pretty.sampleDoc_can",
    "Verif.Pretty.definition_seen",
    "Verif.Pretty.definition_only",
    "Verif.Pretty.section_lists",
    "Verif.Pretty.section_plain",
    "Verif.Pretty.section_unknown",
    "Verif.Pretty.single_list",
    "Verif.Pretty.pool_object",
    "Verif.Pretty.cell_args",
    "Verif.Pretty.cell_errors",
    "Verif.Pretty.doc_canC",
    "Verif.Pretty.document_means_partial",
    "Verif.Pretty.sampleDoc_words"
   ],
   "note": "document_means_partial derives CanC from WordDoc, a condition on the words of the configuration. document_written_partial has the conditions SayDoc (those of C96 for expressions, types and JSON; initial values given as JSON; shared and rollback not both) and CanC (those of C97). resolveTypes at the end is not modelled: types are their JSON. Violations: a heading after CR LF is refused; any word of small letters with a colon at the beginning of a line is a heading; of two sections with one heading the later wins; name in quotes is an AttributeError; cells, pools and fcns that are no lists are a TypeError; a cell keeps its JSON whatever its source; a type that is used before its definition stays a name."
  },
  {
   "property": "C99",
   "status": "partial",
   "theorems": [
    "Verif.Types.types_back_partial",
    "Verif.Types.type_back_partial",
    "Verif.Types.again_name",
    "Verif.Types.nameIn_full",
    "Verif.Types.full_inj",
    "Verif.Types.node_comes",
    "Verif.Types.rec_comes",
    "Verif.Types.tree_fitsEnv",
    "Verif.Types.tree_back",
    "Verif.Types.placeholder_second_violation",
    "Verif.Types.bare_name_violation"
   ],
   "note": "types_back_partial has the conditions Fits and FitsEnv: names have one definition each, no dots in their last part and are not those of Avro, the reader's checks pass, no default is null, and a name without namespace is not inside a record with one. Violations: such a name comes back in the namespace of the record, as another type; AvroPlaceholder.toJson shares one memo between all calls, so that the second time a named type is printed as its name, which a new reader refuses. The reader is avro's, as documented."
  }
 ]
}