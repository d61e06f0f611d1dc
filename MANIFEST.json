{
 "claims": [
  {
   "property": "C01",
   "status": "proved",
   "theorems": [
    "Verif.Memory.addresses_distinct",
    "Verif.Memory.new_address_fresh",
    "Verif.Memory.new_fails_iff_exhausted"
   ],
   "note": "All histories, arbitrary destructors (destructor requests depend on the object's contents)."
  },
  {
   "property": "C02",
   "status": "proved",
   "theorems": [
    "Verif.Memory.object_lives_iff_referenced",
    "Verif.Memory.destroyed_only_by_last_release"
   ],
   "note": "Arbitrary destructors; fewer than 2^32 logged events so that the 32-bit counter cannot wrap."
  },
  {
   "property": "C03",
   "status": "proved",
   "theorems": [
    "Verif.Memory.null_is_noop",
    "Verif.Memory.unknown_address_throws",
    "Verif.Memory.reference_ops_isolated",
    "Verif.Memory.release_not_last_isolated",
    "Verif.Memory.add_increments"
   ],
   "note": ""
  },
  {
   "property": "C04",
   "status": "proved",
   "theorems": [
    "Verif.Heap.programs_never_undefined",
    "Verif.Heap.no_dangling_references",
    "Verif.Heap.count_eq_references"
   ],
   "note": "Fewer than 2^32-1 reference slots."
  },
  {
   "property": "C05",
   "status": "proved",
   "theorems": [
    "Verif.Heap.memory_management_invisible",
    "Verif.Heap.acyclic_garbage_destroyed",
    "Verif.Heap.cyclic_garbage_leaks_refuted"
   ],
   "note": "Refinement to a heap without memory management, plus completeness for acyclic graphs; the leak theorem documents the limit (cycles), which the property excludes."
  },
  {
   "property": "C06",
   "status": "partial",
   "theorems": [
    "Verif.Scope.lookup_innermost_partial",
    "Verif.Scope.inherited_lookup",
    "Verif.Scope.class_lookup_continues",
    "Verif.Scope.enclosing_scope_refuted"
   ],
   "note": "exact for chains without inheritance; own-then-bases-then-surroundings order for classes; false for run-time objects with a base, where the surroundings of the base win over the own ones (witness)"
  },
  {
   "property": "C07",
   "status": "partial",
   "theorems": [
    "Verif.Scope.declare_iff_absent",
    "Verif.Scope.declare_iff_absent_partial",
    "Verif.Scope.declared_resolves",
    "Verif.Scope.declaration_isolated",
    "Verif.Scope.declarations_history",
    "Verif.Scope.declare_unique_refuted",
    "Verif.Scope.takeover_iff_absent",
    "Verif.Scope.takeover_resolves",
    "Verif.Scope.takeover_isolated"
   ],
   "note": "full for blocks; for classes and namespaces the uniqueness check ignores methods and imported symbols (witness)"
  },
  {
   "property": "C08",
   "status": "partial",
   "theorems": [
    "Verif.Scope.access_enforced",
    "Verif.Scope.access_monotone_partial",
    "Verif.Scope.access_monotone_refuted"
   ],
   "note": "enforcement for all scopes; monotonicity except at the laxest level for classes with a base (witness)"
  },
  {
   "property": "C09",
   "status": "partial",
   "theorems": [
    "Verif.Scope.resolved_method_applicable",
    "Verif.Scope.overload_innermost_partial",
    "Verif.Scope.overload_inherited",
    "Verif.Scope.overload_nearest",
    "Verif.Scope.overload_object",
    "Verif.Scope.final_method_wins",
    "Verif.Scope.signatures_unique",
    "Verif.Scope.define_method_effect",
    "Verif.Scope.overload_lax_refuted",
    "Verif.Scope.overload_final_refuted"
   ],
   "note": "applicability for all scopes; the nearest offering scope for chains without base, for classes with any base classes in any namespaces and classes (own class, its bases, then what it stands in) at the levels private to public, and for lines of run-time objects without final methods (restricted lookup). Refuted at the laxest level, where inherited methods come after those of the surroundings, and for objects whose base has a final method"
  },
  {
   "property": "C10",
   "status": "proved",
   "theorems": [
    "Verif.Lex.literal_round_trip",
    "Verif.Lex.literal_in_text",
    "Verif.Lex.literal_alone",
    "Verif.Lex.tokens_as_written"
   ],
   "note": "At every boundary and within every properly written text a quoted text gives exactly one literal token with that content."
  },
  {
   "property": "C11",
   "status": "partial",
   "theorems": [
    "Verif.Lex.slash_comment_invisible",
    "Verif.Lex.hash_comment_invisible_partial",
    "Verif.Lex.hash_comment_refuted",
    "Verif.Lex.tokens_as_written"
   ],
   "note": "'//' comments are invisible everywhere outside of strings and comments; '#' comments at every boundary. Refuted: '#' directly behind a word joins the word with the next line."
  },
  {
   "property": "C12",
   "status": "partial",
   "theorems": [
    "Verif.Lex.block_comment_invisible_partial",
    "Verif.Lex.block_comment_is_blank_partial",
    "Verif.Lex.block_comment_refuted",
    "Verif.Lex.tokens_as_written"
   ],
   "note": "Holds with exact line numbers unless a slash or star follows the comment directly; refuted there (a token is lost, or undefined behaviour)."
  },
  {
   "property": "C13",
   "status": "partial",
   "theorems": [
    "Verif.Lex.token_lines_partial",
    "Verif.Lex.lines_never_decrease",
    "Verif.Lex.token_lines_refuted"
   ],
   "note": "Lines never decrease: proved for every text. Lines are true: proved for every properly written text without escaped line ends in literals; refuted with them."
  },
  {
   "property": "C14",
   "status": "partial",
   "theorems": [
    "Verif.Lex.words_one_to_one_raw",
    "Verif.Lex.words_one_to_one_partial",
    "Verif.Lex.words_one_to_one_refuted"
   ],
   "note": "One to one before the merging passes for all words; afterwards unless a number is followed by a name or 'operator' occurs (refuted there)."
  },
  {
   "property": "C15",
   "status": "partial",
   "theorems": [
    "Verif.Lex.end_of_file_refuted",
    "Verif.Lex.end_of_file_partial",
    "Verif.Lex.end_of_file_word_lost"
   ],
   "note": "Refuted: the last word of a text without final line end is lost, and nothing else is. Holds for texts that end at a boundary."
  },
  {
   "property": "C16",
   "status": "partial",
   "theorems": [
    "Verif.Lex.operators_refuted",
    "Verif.Lex.blank_between_symbols_irrelevant",
    "Verif.Lex.compound_between_names",
    "Verif.Lex.merging_preserves_text_partial"
   ],
   "note": "Characters written together are merged; but blanks between them make no difference (refuted), and '%=' carries a wrong text."
  },
  {
   "property": "C17",
   "status": "proved",
   "theorems": [
    "Verif.Expr.spelling_read",
    "Verif.Expr.parse_print",
    "Verif.Expr.parse_print_error",
    "Verif.Expr.print_unambiguous",
    "Verif.Expr.parentheses_redundant"
   ],
   "note": "For every token list that spells an expression (grammar in Expr/Spec.lean, any redundant parentheses), parsing gives exactly the typed tree of that expression, or an error when it does not type check; includes calls, casts, assignments, conditionals. Mirrors states independently that the tree has the operators and operands of the source."
  },
  {
   "property": "C18",
   "status": "proved",
   "theorems": [
    "Verif.Expr.chain_left_to_right",
    "Verif.Expr.chain_last_operand"
   ],
   "note": "Chains of any length at each of the levels, operands being arbitrary tighter-binding expressions."
  },
  {
   "property": "C19",
   "status": "partial",
   "theorems": [
    "Verif.Expr.and_binds_tighter_refuted",
    "Verif.Expr.conditional_binds_weaker_refuted",
    "Verif.Expr.boolean_precedence_partial",
    "Verif.Expr.conditional_precedence_partial"
   ],
   "note": "The property is false of the code: a || b && c groups as (a || b) && c and a == b ? c : d as a == (b ? c : d). The partial theorems state the actual grouping for all operands."
  },
  {
   "property": "C20",
   "status": "proved",
   "theorems": [
    "Verif.Brackets.balanced_found",
    "Verif.Brackets.statement_block_extracted",
    "Verif.Brackets.declaration_block_extracted",
    "Verif.Brackets.extractors_agree",
    "Verif.Brackets.extracted_block_sound"
   ],
   "note": "parentheses, square and curly brackets; both block extractors"
  },
  {
   "property": "C21",
   "status": "proved",
   "theorems": [
    "Verif.Brackets.sane_iff_balanced",
    "Verif.Brackets.proper_sane"
   ],
   "note": "quotation marks never reach the check as tokens"
  },
  {
   "property": "C22",
   "status": "proved",
   "theorems": [
    "Verif.Types.typing_is_first_registration",
    "Verif.Types.typing_never_changes",
    "Verif.Types.registration_is_local"
   ],
   "note": "The table is characterised completely by the history of registrations."
  },
  {
   "property": "C23",
   "status": "proved",
   "theorems": [
    "Verif.Types.type_errors_classified"
   ],
   "note": "Stated on the history of registrations."
  },
  {
   "property": "C24",
   "status": "partial",
   "theorems": [
    "Verif.Types.accepted_operation_fails_refuted",
    "Verif.Types.accepted_operation_runs_partial"
   ],
   "note": "The property is false: unary plus, binary ~, and & and | on int16/int64 are accepted and always fail. The partial theorem says exactly these fail."
  },
  {
   "property": "C25",
   "status": "partial",
   "theorems": [
    "Verif.Types.static_type_wrong_refuted",
    "Verif.Types.static_type_honoured_partial",
    "Verif.Types.static_type_honoured_others",
    "Verif.Types.cast_has_target_type"
   ],
   "note": "The property is false: the value has the left operand's type. The partial theorem characterises exactly the pairs for which the prediction holds."
  },
  {
   "property": "C26",
   "status": "partial",
   "theorems": [
    "Verif.Ints.arith_exact_or_undefined",
    "Verif.Ints.arith_undefined_iff",
    "Verif.Ints.eval_exact_or_undefined",
    "Verif.Ints.mixed_width_arith_refuted"
   ],
   "note": "Holds for operands of one type and for whole expressions; with a wider right operand the code truncates silently (mixed_width_arith_refuted)."
  },
  {
   "property": "C27",
   "status": "proved",
   "theorems": [
    "Verif.Str.int_text_roundtrip",
    "Verif.Str.int_text_injective",
    "Verif.Str.int_text_form"
   ],
   "note": "Stream extraction and insertion of integers are modelled by their contract in the C locale."
  },
  {
   "property": "C28",
   "status": "partial",
   "theorems": [
    "Verif.Str.text_false_iff",
    "Verif.Str.bool_text_roundtrip_partial",
    "Verif.Str.bool_text_roundtrip_refuted"
   ],
   "note": "The characterisation is proved; the round trip fails for false, which prints as 0 and reads back as true."
  },
  {
   "property": "C29",
   "status": "partial",
   "theorems": [
    "Verif.Ints.int16_sequence_mod_partial",
    "Verif.Ints.int16_eval_mod",
    "Verif.Ints.assign_inRange",
    "Verif.Ints.assign_exact",
    "Verif.Ints.int16_range_refuted",
    "Verif.Ints.not_exact",
    "Verif.Ints.int16_not_refuted"
   ],
   "note": "Modulo 2^16 correct for all sequences; the range claim fails after ++, and ! sees more than 16 bits (witnesses)."
  },
  {
   "property": "C30",
   "status": "partial",
   "theorems": [
    "Verif.Interp.finally_runs_partial",
    "Verif.Interp.exit_skips_finally_refuted",
    "Verif.Interp.pendingReplaced_refuted"
   ],
   "note": "iff between a try statement with and without its finally block; missing: a try block left by exit or by an exception of an iterator (refuted), and the identity of the pending exception (C84)"
  },
  {
   "property": "C31",
   "status": "proved",
   "theorems": [
    "Verif.Interp.unmatched_exception",
    "Verif.Interp.first_matching_handler",
    "Verif.Interp.first_matching_handler_object",
    "Verif.Interp.untyped_handler",
    "Verif.Interp.try_without_exception",
    "Verif.Interp.try_without_clauses"
   ],
   "note": "a try statement without any clause catches everything, which the language intends (the compiler treats it so)"
  },
  {
   "property": "C32",
   "status": "proved",
   "theorems": [
    "Verif.Interp.while_unrolls",
    "Verif.Interp.while_ends"
   ],
   "note": "iff, over interpreter states"
  },
  {
   "property": "C33",
   "status": "partial",
   "theorems": [
    "Verif.Interp.scopes_released_partial",
    "Verif.Interp.forLeft_refuted",
    "Verif.Interp.dotThrow_refuted"
   ],
   "note": "missing: executions with an event of Spec.Event or exit; a for statement left by break, return or an exception keeps its scope"
  },
  {
   "property": "C34",
   "status": "proved",
   "theorems": [
    "Verif.Interp.and_short_circuit",
    "Verif.Interp.or_short_circuit",
    "Verif.Interp.logical_left_throws"
   ],
   "note": ""
  },
  {
   "property": "C35",
   "status": "proved",
   "theorems": [
    "Verif.Interp.switch_unrolls",
    "Verif.Interp.switch_without_cases_unrolls",
    "Verif.Interp.switch_runs_chosen",
    "Verif.Interp.switch_without_cases"
   ],
   "note": "iff, over interpreter states; continue inside a switch executes the switch again, as in the code"
  },
  {
   "property": "C36",
   "status": "proved",
   "theorems": [
    "Verif.Interp.nothing_after_jump",
    "Verif.Interp.nothing_after_raise"
   ],
   "note": ""
  },
  {
   "property": "C37",
   "status": "partial",
   "theorems": [
    "Verif.Interp.call_restores_partial",
    "Verif.Interp.exit_in_call_refuted"
   ],
   "note": "missing: events of Spec.Event and exit; exit in a called method is undefined behaviour"
  },
  {
   "property": "C38",
   "status": "partial",
   "theorems": [
    "Verif.Check.jumps_stay_inside_partial",
    "Verif.Check.jumps_stay_inside_refuted"
   ],
   "note": "Holds for accepted programs whose for statements have no block as third part; refuted for a break in such a block."
  },
  {
   "property": "C39",
   "status": "partial",
   "theorems": [
    "Verif.Interp.statement_meaning_partial",
    "Verif.Interp.forLeft_refuted"
   ],
   "note": "specification: Spec.ForLoop; missing: loops left by break, return or exception, where the loop's scope stays (refuted)"
  },
  {
   "property": "C40",
   "status": "partial",
   "theorems": [
    "Verif.Interp.statement_meaning_partial",
    "Verif.Interp.foreachThrow_refuted"
   ],
   "note": "specification: Spec.EachLoop; missing: exceptions of the iterator (refuted)"
  },
  {
   "property": "C41",
   "status": "partial",
   "theorems": [
    "Verif.Interp.negated_operators_partial",
    "Verif.Interp.nand_refuted",
    "Verif.Interp.nor_refuted"
   ],
   "note": "1 !& 0 is false and 0 !| 1 is true"
  },
  {
   "property": "C42",
   "status": "partial",
   "theorems": [
    "Verif.Check.checked_exceptions_partial",
    "Verif.Check.no_exception_leaves_partial",
    "Verif.Check.interpreter_exceptions_partial",
    "Verif.Check.rethrow_refuted",
    "Verif.Check.handler_refuted",
    "Verif.Check.finally_refuted",
    "Verif.Check.callee_refuted"
   ],
   "note": "Holds without rethrow and without throwing handlers or finally blocks, up to null accesses, native errors and exceptions of methods marked throws; refuted by four accepted scripts."
  },
  {
   "property": "C43",
   "status": "partial",
   "theorems": [
    "Verif.Check.non_void_returns_partial",
    "Verif.Check.non_void_returns_refuted",
    "Verif.Check.every_return_fits"
   ],
   "note": "Holds for accepted bodies whose branching statements are balanced; the compile time control flow keeps only the last control statement, so a method that returns in one branch only is accepted. Every return in an accepted method carries a value of the declared type."
  },
  {
   "property": "C44",
   "status": "partial",
   "theorems": [
    "Verif.Methods.misfit_rejected",
    "Verif.Methods.parameter_binding_partial",
    "Verif.Methods.object_before_default",
    "Verif.Methods.parameter_binding_refuted"
   ],
   "note": "missing: a default value used after an argument that is an object; the code binds that object instead (object_before_default describes the failure, parameter_binding_refuted is a witness)"
  },
  {
   "property": "C45",
   "status": "proved",
   "theorems": [
    "Verif.Methods.order_irreflexive",
    "Verif.Methods.order_transitive",
    "Verif.Methods.order_total"
   ],
   "note": "strict total order on name and parameter types"
  },
  {
   "property": "C46",
   "status": "proved",
   "theorems": [
    "Verif.Generic.instance_names_distinct",
    "Verif.Generic.instance_arguments_distinct"
   ],
   "note": "for names that are identifiers (no brackets, no comma)"
  },
  {
   "property": "C47",
   "status": "partial",
   "theorems": [
    "Verif.Generic.class_instantiated_partial",
    "Verif.Generic.method_instantiated",
    "Verif.Generic.method_instantiated_once",
    "Verif.Generic.instantiated_once",
    "Verif.Generic.member_argument_lost",
    "Verif.Generic.member_argument_refuted",
    "Verif.Generic.ancestor_argument_refuted",
    "Verif.Generic.member_parameter_refuted",
    "Verif.Generic.parameter_passing"
   ],
   "note": "methods: full; members and ancestors with type arguments: refuted for arguments that are no type parameter of the class (become Object), for parameters at another position (rejected), and for ancestors (not replaced)"
  },
  {
   "property": "C48",
   "status": "partial",
   "theorems": [
    "Verif.Classes.override_rules",
    "Verif.Classes.override_replaces",
    "Verif.Classes.rejected_unchanged_partial",
    "Verif.Classes.override_accepted_partial",
    "Verif.Classes.rejected_unchanged_refuted",
    "Verif.Classes.member_lost_refuted",
    "Verif.Classes.inherited_redefinition_refuted",
    "Verif.Classes.final_inherited_refuted",
    "Verif.Classes.inherited_methods"
   ],
   "note": "Rules and replacement proved for every accepted redefinition; a rejected definition that redefines two methods deletes one, a member of the same name is lost, redefining a taken-over method reads freed memory, and rules are never checked against inherited methods (refuted)"
  },
  {
   "property": "C49",
   "status": "partial",
   "theorems": [
    "Verif.Classes.prepared_after_ancestors",
    "Verif.Classes.cycle_never_accepted",
    "Verif.Classes.acyclic_processed",
    "Verif.Classes.cycle_rejected_partial",
    "Verif.Classes.long_cycle_refuted"
   ],
   "note": "Order, acceptance of acyclic graphs and non-acceptance of cycles proved; rejection with an error only for cycles of at most two classes: longer ones recurse forever (refuted)"
  },
  {
   "property": "C50",
   "status": "proved",
   "theorems": [
    "Verif.Enums.enum_members",
    "Verif.Enums.enum_ascending",
    "Verif.Enums.enum_unique",
    "Verif.Enums.explicit_value"
   ],
   "note": "Exact characterisation of accepted declarations and their members"
  },
  {
   "property": "C51",
   "status": "partial",
   "theorems": [
    "Verif.Imports.loading_terminates",
    "Verif.Imports.libraries_analysed_once",
    "Verif.Imports.script_analysed_twice_refuted"
   ],
   "note": "Termination for every import graph and at-most-once analysis of libraries are proved; the script file itself is analysed twice if a library imports it (refuted)."
  },
  {
   "property": "C52",
   "status": "partial",
   "theorems": [
    "Verif.Imports.imports_complete_partial",
    "Verif.Imports.unresolvable_import_fails_partial",
    "Verif.Imports.unresolved_is_missing",
    "Verif.Imports.only_imports_loaded",
    "Verif.Imports.import_loads_other_file_refuted"
   ],
   "note": "Complete unless an import leads through a missing directory whose name is also that of a library file: then that file is loaded instead (refuted)."
  },
  {
   "property": "C53",
   "status": "proved",
   "theorems": [
    "Verif.SemVer.version_roundtrip",
    "Verif.SemVer.version_printed_valid",
    "Verif.SemVer.no_text_not_valid"
   ],
   "note": "Exact characterisation: round trip iff the label has no plus sign and the last number is not negative."
  },
  {
   "property": "C54",
   "status": "partial",
   "theorems": [
    "Verif.SemVer.version_lt_irrefl",
    "Verif.SemVer.version_lt_asymm_partial",
    "Verif.SemVer.version_lt_trans_partial",
    "Verif.SemVer.version_lt_total_partial",
    "Verif.SemVer.version_lt_lexicographic",
    "Verif.SemVer.prerelease_before_release",
    "Verif.SemVer.version_eq_ne",
    "Verif.SemVer.version_lt_asymm_refuted",
    "Verif.SemVer.version_lt_trans_refuted"
   ],
   "note": "Asymmetry and transitivity fail for two different non-empty labels; proved for all other versions."
  },
  {
   "property": "C55",
   "status": "proved",
   "theorems": [
    "Verif.SemVer.nextBugfix_least",
    "Verif.SemVer.nextMinor_least",
    "Verif.SemVer.nextMajor_least"
   ],
   "note": ""
  },
  {
   "property": "C56",
   "status": "partial",
   "theorems": [
    "Verif.Pkg.violating_request_installs_nothing",
    "Verif.Pkg.installed_respects_restrictions_partial",
    "Verif.Pkg.restrictions_loaded",
    "Verif.Pkg.restriction_of_dependency_refuted",
    "Verif.Pkg.restriction_of_interpreter_refuted"
   ],
   "note": "Proved for requested modules; refuted for modules installed as dependencies (restrictions are not checked for them) and for the interpreter's own entry (the hardcoded one wins)."
  },
  {
   "property": "C57",
   "status": "partial",
   "theorems": [
    "Verif.Pkg.resolution_terminates_partial",
    "Verif.Pkg.dependencies_installed_partial",
    "Verif.Pkg.cyclic_dependencies_refuted",
    "Verif.Pkg.dependency_without_version_refuted",
    "Verif.Pkg.dependency_of_installed_refuted"
   ],
   "note": "Termination for dependency relations without infinite chains, completeness up to modules already installed; refuted for cyclic dependencies, dependencies without a minimal version and dependencies of modules already installed."
  },
  {
   "property": "C58",
   "status": "partial",
   "theorems": [
    "Verif.Pkg.install_never_downgrades_partial",
    "Verif.Pkg.upgrade_never_downgrades",
    "Verif.Pkg.upgrade_offers",
    "Verif.Pkg.explicit_version_forces_all_refuted",
    "Verif.Pkg.upgrade_reinstalls_refuted",
    "Verif.Pkg.upgrade_between_prereleases_refuted",
    "Verif.Pkg.upgrade_only_asked"
   ],
   "note": "Proved for requests without any explicit version and for upgrades; refuted: an explicit version for one module forces all of them, an upgrade of several modules installs earlier ones again in an equal version, pre-releases are each newer than the other."
  },
  {
   "property": "C59",
   "status": "partial",
   "theorems": [
    "Verif.Debug.breakpoints_partial",
    "Verif.Debug.stops_at_partial",
    "Verif.Debug.delete_number",
    "Verif.Debug.remove_absent_refuted",
    "Verif.Debug.steps_partial"
   ],
   "note": "Refinement of the ordered set to a map from places to conditions, for all command sequences; removing a breakpoint that is not set is undefined (refuted), the command line of slang-dbg never does that"
  },
  {
   "property": "C60",
   "status": "proved",
   "theorems": [
    "Verif.Str.split_at_first",
    "Verif.Str.split_absent",
    "Verif.Str.split_is_splitBy"
   ],
   "note": ""
  },
  {
   "property": "C61",
   "status": "proved",
   "theorems": [
    "Verif.Str.trim_removes_maximal_runs",
    "Verif.Str.trim_left_removes_maximal_run",
    "Verif.Str.trim_right_removes_maximal_run",
    "Verif.Str.trim_idempotent"
   ],
   "note": ""
  },
  {
   "property": "C62",
   "status": "proved",
   "theorems": [
    "Verif.Str.words_exact",
    "Verif.Str.words_default",
    "Verif.Str.words_unique"
   ],
   "note": ""
  },
  {
   "property": "C63",
   "status": "partial",
   "theorems": [
    "Verif.Str.substr_slice",
    "Verif.Str.substr_rest",
    "Verif.Str.substr_out_of_range",
    "Verif.Str.strpos_char",
    "Verif.Str.strpos_out_of_range_partial",
    "Verif.Str.strpos_out_of_range_refuted",
    "Verif.Str.strfind_first",
    "Verif.Str.strfind_out_of_range_refuted",
    "Verif.Str.strlpad_pads",
    "Verif.Str.strrpad_pads",
    "Verif.Str.pad_invalid"
   ],
   "note": "All proved except that strpos accepts the index just behind the text and strfind answers -1 for a position outside the text (refuted)."
  },
  {
   "property": "C64",
   "status": "partial",
   "theorems": [
    "Verif.Threads.thread_created_partial",
    "Verif.Threads.thread_found_partial",
    "Verif.Threads.thread_reuse_refuted",
    "Verif.Threads.thread_delete_refuted",
    "Verif.Threads.thread_overflow_refuted"
   ],
   "note": "Up to 2^32 threads; ids are reused after all threads are removed, deleting has no effect, and the 2^32+1st thread is lost (refuted)"
  },
  {
   "property": "C65",
   "status": "proved",
   "theorems": [
    "Verif.Coll.list_is_sequence",
    "Verif.Coll.list_is_sequence_with_erase_partial",
    "Verif.Coll.list_pop_back_refuted",
    "Verif.Coll.list_erase_size_refuted",
    "Verif.Coll.list_pop_front_refuted"
   ],
   "note": "Refinement of a mathematical sequence for every history of the operations the property names (and clear, contains, empty); the second theorem adds erase of an index other than size and foreach. The refutations concern pop_back, erase( size ) and foreach over a list emptied by pop_front, which the property does not name."
  },
  {
   "property": "C66",
   "status": "partial",
   "theorems": [
    "Verif.Coll.vector_is_sequence_partial",
    "Verif.Coll.vector_pop_back_refuted",
    "Verif.Coll.vector_pop_only_refuted",
    "Verif.Coll.vector_pop_front_refuted",
    "Verif.Coll.vector_erase_size_refuted"
   ],
   "note": "Every history without pop_back of a non-empty vector, erase( size ), and insert or foreach while the vector is empty because pop_front took its only element; for these the property is refuted."
  },
  {
   "property": "C67",
   "status": "partial",
   "theorems": [
    "Verif.Coll.stack_is_lifo_partial",
    "Verif.Coll.stack_size_and_exceptions",
    "Verif.Coll.stack_peek_is_pop",
    "Verif.Coll.stack_pop_refuted",
    "Verif.Coll.stack_clear_refuted"
   ],
   "note": "For every history: size and exceptions are right and peek returns what pop would return. Values are right as long as no pop happened with more than one element; refuted otherwise. clear never ends unless the stack is empty."
  },
  {
   "property": "C68",
   "status": "partial",
   "theorems": [
    "Verif.Coll.set_insertions_ascending",
    "Verif.Coll.set_is_ascending_sequence_partial",
    "Verif.Coll.set_duplicates_refuted",
    "Verif.Coll.set_last_refuted"
   ],
   "note": "Ascending order is proved for all insertion histories; the absence of duplicates is refuted."
  },
  {
   "property": "C69",
   "status": "partial",
   "theorems": [
    "Verif.Coll.map_is_finite_map_partial",
    "Verif.Coll.map_insert_refuted",
    "Verif.Coll.map_indexOf_refuted"
   ],
   "note": "Refinement of a mathematical map for every history that inserts no key twice; refuted for insert of a key that is present, and indexOf."
  },
  {
   "property": "C70",
   "status": "partial",
   "theorems": [
    "Verif.Memory.destructor_self_reference_refuted"
   ],
   "note": "The code violates it: a destructor that takes and drops a reference to its own object recurses without end. The well-behaved case is covered by C02."
  },
  {
   "property": "C71",
   "status": "partial",
   "theorems": [
    "Verif.Str.path_decomposes",
    "Verif.Str.filename_of_plain",
    "Verif.Str.extension_decomposes",
    "Verif.Str.pathname_of_plain_refuted",
    "Verif.Str.extension_within_filename_refuted"
   ],
   "note": "The extension of a file in a directory with a dot may span the separator (refuted); names without separator are returned as their own directory part (refuted)."
  },
  {
   "property": "C72",
   "status": "partial",
   "theorems": [
    "Verif.Ints.compare_same_width",
    "Verif.Ints.compare_wider_left",
    "Verif.Ints.compare_wider_right_refuted"
   ],
   "note": "Wrong when the right operand is wider than the left one."
  },
  {
   "property": "C73",
   "status": "proved",
   "theorems": [
    "Verif.Lex.integer_literals",
    "Verif.Lex.fraction_literals",
    "Verif.Expr.marked_types",
    "Verif.Expr.unmarked_types"
   ],
   "note": "Literals in the statement x = literal; for every name x: tokens, and the type of the expression read from them."
  },
  {
   "property": "C74",
   "status": "partial",
   "theorems": [
    "Verif.Scope.base_private_hidden_partial",
    "Verif.Scope.base_private_refuted",
    "Verif.Scope.base_private_method_refuted",
    "Verif.Classes.object_private_hidden_partial"
   ],
   "note": "false for the lookups of the compiler (witness); holds for variable lookups from run-time objects"
  },
  {
   "property": "C75",
   "status": "partial",
   "theorems": [
    "Verif.Scope.overload_layout_partial",
    "Verif.Scope.overload_layout_refuted"
   ],
   "note": "false for ambiguous overload sets, which are accepted (witness); holds for unambiguous calls"
  },
  {
   "property": "C76",
   "status": "partial",
   "theorems": [
    "Verif.Brackets.sane_source_no_overrun_partial",
    "Verif.Brackets.sane_source_overrun_refuted"
   ],
   "note": "false as stated: the check only counts; proved where the part in front of the bracket does not close more than it opens"
  },
  {
   "property": "C77",
   "status": "partial",
   "theorems": [
    "Verif.Expr.parser_terminates",
    "Verif.Expr.accepted_is_spelled_partial",
    "Verif.Expr.no_expression_rejected",
    "Verif.Expr.missing_operand_rejected",
    "Verif.Expr.unclosed_parenthesis_rejected",
    "Verif.Expr.malformed_rejected_refuted",
    "Verif.Expr.superfluous_argument_accepted_refuted",
    "Verif.Expr.superfluous_last_argument_refuted",
    "Verif.Expr.type_as_operand_refuted"
   ],
   "note": "The property is false of the code: a b follows a null pointer, f(1 2, 3) is accepted as f(1, 3), f(1, 2 3) is undefined, int + 3 is accepted. Proved for all inputs: the parser stops, accepted texts are spellings in the grammar without its ambiguity conditions, and three classes of errors are refused."
  },
  {
   "property": "C78",
   "status": "partial",
   "theorems": [
    "Verif.Types.assignable_to_ancestors_partial",
    "Verif.Types.assignable_only_to_named_ancestors",
    "Verif.Types.assignable_to_distant_ancestors_refuted",
    "Verif.Types.assignment_has_target_type",
    "Verif.Types.user_types_keep_builtins"
   ],
   "note": "Assignment to the class itself and to the ancestors its declaration names is proved, and refuted for the ancestors of these; the other two parts of the property are proved."
  },
  {
   "property": "C79",
   "status": "proved",
   "theorems": [
    "Verif.Lex.words_classified"
   ],
   "note": ""
  },
  {
   "property": "C80",
   "status": "partial",
   "theorems": [
    "Verif.Expr.class_operator_chain_refuted",
    "Verif.Expr.class_operator_called_partial",
    "Verif.Expr.class_operator_not_called"
   ],
   "note": "The property is false of the code: only an operator whose left operand is a plain name calls the method of the class; x + y + z builds a built-in addition on the result of the first call."
  },
  {
   "property": "C81",
   "status": "partial",
   "theorems": [
    "Verif.Types.user_comparison_typed",
    "Verif.Types.user_arithmetic_typed_partial",
    "Verif.Types.user_arithmetic_result_refuted"
   ],
   "note": "Comparison operators get the result type of the first matching method. Arithmetic operators get the class itself whatever the method returns, so the property is false for them."
  },
  {
   "property": "C82",
   "status": "partial",
   "theorems": [
    "Verif.Expr.integer_constant_read",
    "Verif.Expr.integer_constant_partial",
    "Verif.Expr.large_constant_refuted"
   ],
   "note": "Constants of 2^63 and above become 2^63-1 without an error (large_constant_refuted)."
  },
  {
   "property": "C83",
   "status": "partial",
   "theorems": [
    "Verif.Interp.script_meaning_partial",
    "Verif.Interp.run_unique",
    "Verif.Interp.meaning_unique",
    "Verif.Interp.every_event_matters"
   ],
   "note": "missing: executions in which one of the fifteen events comes up (each one refuted by a witness) and exit"
  },
  {
   "property": "C84",
   "status": "partial",
   "theorems": [
    "Verif.Interp.statement_meaning_partial",
    "Verif.Interp.rethrowOther_refuted",
    "Verif.Interp.pendingReplaced_refuted"
   ],
   "note": "holds as long as no other exception came up (Spec.Exec.rethrow, tryFinally)"
  },
  {
   "property": "C85",
   "status": "partial",
   "theorems": [
    "Verif.Interp.statement_meaning_partial",
    "Verif.Interp.ctorReturn_refuted",
    "Verif.Interp.ctorThrow_refuted",
    "Verif.Interp.assignThrow_refuted",
    "Verif.Interp.foreachThrow_refuted",
    "Verif.Interp.operatorThrow_refuted",
    "Verif.Interp.validateNull_refuted"
   ],
   "note": "holds for calls, operators, conditions and arguments; the listed constructs are refuted"
  },
  {
   "property": "C86",
   "status": "partial",
   "theorems": [
    "Verif.Interp.statement_meaning_partial",
    "Verif.Interp.dotArgs_refuted",
    "Verif.Interp.dotThrow_refuted"
   ],
   "note": "holds for literal arguments and methods that do not throw"
  },
  {
   "property": "C87",
   "status": "partial",
   "theorems": [
    "Verif.Interp.exit_ends_script_partial",
    "Verif.Interp.nothing_after_raise",
    "Verif.Interp.exit_in_call_refuted",
    "Verif.Interp.exit_skips_finally_refuted"
   ],
   "note": "holds in the method a script starts with, at any depth of blocks, branches, while loops and try blocks; below blocks in called methods it is undefined behaviour"
  },
  {
   "property": "C88",
   "status": "partial",
   "theorems": [
    "Verif.Classes.instantiable_partial",
    "Verif.Classes.inherited_abstract_refuted",
    "Verif.Classes.interface_refuted",
    "Verif.Classes.abstract_class_refuted",
    "Verif.Classes.distant_abstract_refuted",
    "Verif.Classes.overload_order_refuted"
   ],
   "note": "Exact for abstract methods the class itself declares, in hierarchies of any depth; inherited abstract methods, interface methods and the abstract/interface declaration itself are not checked, implementing a method of a distant ancestor leaves a deleted method in use, and overloads with default values depend on addresses (refuted)"
  },
  {
   "property": "C89",
   "status": "partial",
   "theorems": [
    "Verif.Enums.enum_decided_partial",
    "Verif.Enums.enum_without_semicolon_refuted",
    "Verif.Enums.enum_overflow_refuted",
    "Verif.Enums.enum_rest_ignored"
   ],
   "note": "Decided for declarations with a semicolon and small values; without the semicolon the end of the token list is read (refuted), counting beyond 2^63-1 overflows (refuted), and tokens behind the semicolon are ignored"
  },
  {
   "property": "C90",
   "status": "partial",
   "theorems": [
    "Verif.Debug.config_roundtrip_partial",
    "Verif.Debug.words_split",
    "Verif.Debug.config_blank_refuted"
   ],
   "note": "Round trip for texts without blanks; breakpoints in files with a blank in the name are lost (refuted); the JSON file itself is not modelled"
  },
  {
   "property": "C91",
   "status": "partial",
   "theorems": [
    "Verif.Imports.import_meaning_depends_on_history_refuted",
    "Verif.Imports.imports_complete_partial"
   ],
   "note": "Refuted for imports of scripts; proved part: a library's import is taken from the library's own folder whenever a file of that name exists there."
  },
  {
   "property": "C92",
   "status": "partial",
   "theorems": [
    "Verif.Pkg.unpacked_versions_asked_for_partial",
    "Verif.Pkg.dependency_too_old_refuted",
    "Verif.Pkg.dependency_too_new_refuted"
   ],
   "note": "Refuted: any installed version satisfies a dependency, the maximum is never looked at. Proved: what is unpacked is a version asked for."
  },
  {
   "property": "C93",
   "status": "partial",
   "theorems": [
    "Verif.Coll.queue_is_fifo_partial",
    "Verif.Coll.queue_peek_refuted",
    "Verif.Coll.queue_foreach_refuted"
   ],
   "note": "Every history in which peek is used with at most one element and foreach not after the only element was dequeued; refuted otherwise."
  },
  {
   "property": "C94",
   "status": "partial",
   "theorems": [
    "Verif.Coll.double_linked_list_is_sequence_partial",
    "Verif.Coll.double_linked_push_front_refuted",
    "Verif.Coll.double_linked_pop_back_refuted",
    "Verif.Coll.double_linked_pop_front_refuted"
   ],
   "note": "Every history without push_front on an empty list, pop_back of a non-empty one, erase( size ), and foreach over a list emptied by pop_front; refuted for these."
  },
  {
   "property": "C95",
   "status": "partial",
   "theorems": [
    "Verif.Coll.range_visits_partial",
    "Verif.Coll.range_negative_step_refuted",
    "Verif.Coll.range_empty_refuted"
   ],
   "note": "Proved for positive steps and start <= end; refuted for all negative steps with end < start."
  },
  {
   "property": "C96",
   "status": "partial",
   "theorems": [
    "Verif.Coll.iterator_visits_partial",
    "Verif.Coll.iterator_visits_taken_refuted",
    "Verif.Coll.reverse_iterator_refuted"
   ],
   "note": "Forward iteration proved except for a collection emptied by pop_front, for which it is refuted; reverse iteration refuted for every non-empty collection."
  },
  {
   "property": "C97",
   "status": "partial",
   "theorems": [
    "Verif.Coll.copy_is_independent_partial",
    "Verif.Coll.copy_shares_items_refuted"
   ],
   "note": "Access by index survives any number of push_back on the copy; foreach and erase on the copy refuted."
  },
  {
   "property": "C98",
   "status": "partial",
   "theorems": [
    "Verif.Interp.delete_refuted"
   ],
   "note": "Refuted for every variable: delete of a variable does not change anything."
  },
  {
   "property": "C99",
   "status": "partial",
   "theorems": [
    "Verif.Stmt.method_read_partial",
    "Verif.Stmt.method_print_read_partial",
    "Verif.Stmt.spelling_unambiguous",
    "Verif.Stmt.declared_once",
    "Verif.Stmt.control_statements",
    "Verif.Stmt.throws_declared",
    "Verif.Stmt.thrown_kept",
    "Verif.Stmt.names_in_scope",
    "Verif.Stmt.names_may_hide",
    "Verif.Stmt.else_after_semicolon_refuted",
    "Verif.Stmt.jump_in_bare_loop_refuted"
   ],
   "note": "Proved for all spellings, surroundings and depths, with the exact tree or rejection as the result, except for an else behind a branch that ends with a semicolon and break/continue in a loop whose body is no block (both refuted), and variables named like types. The rules for names, control statements and exceptions are also stated in terms of the statements alone."
  },
  {
   "property": "C100",
   "status": "partial",
   "theorems": [
    "Verif.Names.qualified_name_exact",
    "Verif.Names.qualified_name_partial",
    "Verif.Names.qualified_name_refuted"
   ],
   "note": "false when the first name is a member of the own class: if the rest cannot be found there, the first names are dropped and the rest is looked up in the block (witness); exact characterisation; full when the first name is no member"
  },
  {
   "property": "C101",
   "status": "partial",
   "theorems": [
    "Verif.Names.member_access_partial",
    "Verif.Names.variable_access",
    "Verif.Names.member_access_refuted",
    "Verif.Names.deep_access_refuted",
    "Verif.Names.base_access",
    "Verif.Names.this_access"
   ],
   "note": "exact for x.y through variables; for longer paths public unless a part before it is this, base or an object of the own class; false through members of the own class and behind objects of the own class (witnesses)"
  },
  {
   "property": "C102",
   "status": "partial",
   "theorems": [
    "Verif.Names.local_name_partial",
    "Verif.Names.member_hides_local",
    "Verif.Names.local_name_refuted"
   ],
   "note": "false: members hide locals and parameters (witness, and proved for all programs); holds when the class has no such member"
  },
  {
   "property": "C103",
   "status": "partial",
   "theorems": [
    "Verif.Names.null_member_partial",
    "Verif.Names.null_call_partial",
    "Verif.Names.null_member_refuted",
    "Verif.Names.null_assign_refuted",
    "Verif.Names.null_call_refuted"
   ],
   "note": "false: a null reference falls through to the object that holds it or to the surroundings of its class, and failed assignments cannot be caught (witnesses); holds for reading and calling when nothing around declares the name"
  },
  {
   "property": "C104",
   "status": "partial",
   "theorems": [
    "Verif.Names.const_variable_partial",
    "Verif.Names.const_call_partial",
    "Verif.Names.const_member_refuted"
   ],
   "note": "variables, parameters and static members, for assignments, increments, decrements and calls; false for const members (witness); missing: aliasing through references and by-reference parameters"
  },
  {
   "property": "C105",
   "status": "partial",
   "theorems": [
    "Verif.Names.const_method_partial",
    "Verif.Names.const_method_simple",
    "Verif.Names.const_method_refuted",
    "Verif.Names.const_method_calls"
   ],
   "note": "members named without this; false for members named with this (witness)"
  },
  {
   "property": "C106",
   "status": "partial",
   "theorems": [
    "Verif.Names.static_call_partial",
    "Verif.Names.static_member_refuted"
   ],
   "note": "calls; false for variables (witness)"
  },
  {
   "property": "C107",
   "status": "partial",
   "theorems": [
    "Verif.Names.run_time_member_partial",
    "Verif.Names.run_time_static_refuted",
    "Verif.Names.run_time_private_refuted",
    "Verif.Names.object_symbols"
   ],
   "note": "non-static members of the class itself and non-private members of its bases; false for static members and private members of bases (witnesses)"
  },
  {
   "property": "C108",
   "status": "partial",
   "theorems": [
    "Verif.Decl.declarations_read_partial",
    "Verif.Decl.declarations_print_read_partial",
    "Verif.Decl.declarations_unambiguous",
    "Verif.Decl.analysis_ends",
    "Verif.Decl.stable_enum_refuted",
    "Verif.Decl.late_replication_refuted",
    "Verif.Decl.nested_interface_refuted",
    "Verif.Decl.replication_body_refuted",
    "Verif.Decl.parameter_separators_refuted"
   ],
   "note": "Every regular list of declarations is read as meant, from each of its spellings, and every file is read to an end. Refuted: enumerations with visibility and feature state, replication behind other ancestors, replication with a body, members behind an interface in an interface, separators of parameters."
  },
  {
   "property": "C109",
   "status": "partial",
   "theorems": [
    "Verif.Vars.class_variable_accepts_partial",
    "Verif.Vars.class_variable_accepts_refuted"
   ],
   "note": "exact for references in careful programs: the class last held counts, not the declared one; refuted in general by Base b = new Derived(); b = new Base();"
  },
  {
   "property": "C110",
   "status": "partial",
   "theorems": [
    "Verif.Vars.variables_hold_their_type_partial",
    "Verif.Vars.variables_hold_their_type_refuted"
   ],
   "note": "for all runs of programs that hide no members and cast with care; refuted with C-style casts"
  },
  {
   "property": "C111",
   "status": "proved",
   "theorems": [
    "Verif.Vars.assigned_objects_are_shared",
    "Verif.Vars.assignment_changes_only_its_target"
   ],
   "note": "no destruction of objects in this model"
  },
  {
   "property": "C112",
   "status": "proved",
   "theorems": [
    "Verif.Vars.equality_is_identity"
   ],
   "note": ""
  },
  {
   "property": "C113",
   "status": "partial",
   "theorems": [
    "Verif.Vars.is_follows_the_object_partial",
    "Verif.Vars.is_follows_the_object_refuted",
    "Verif.Vars.null_is_instance_refuted"
   ],
   "note": "exact for references to objects; interfaces of interfaces are not recognised, null answers to the class last held"
  },
  {
   "property": "C114",
   "status": "partial",
   "theorems": [
    "Verif.Vars.called_function_is_the_compiled_one_partial",
    "Verif.Vars.called_function_is_the_compiled_one_refuted"
   ],
   "note": "for careful programs; refuted by a member hidden behind one of another type"
  },
  {
   "property": "C115",
   "status": "partial",
   "theorems": [
    "Verif.Vars.atomic_variables_are_independent_partial",
    "Verif.Vars.atomic_variables_are_independent_refuted",
    "Verif.Vars.casts_leave_their_argument_refuted"
   ],
   "note": "for programs without atomic references; refuted with new int(1)"
  },
  {
   "property": "C116",
   "status": "partial",
   "theorems": [
    "Verif.Vars.assigning_null_partial",
    "Verif.Vars.assigning_null_refuted",
    "Verif.Vars.assigned_reference_exactly"
   ],
   "note": "the literal with its type; exact otherwise: null from a member never assigned or from a parameter leaves the old object in the variable"
  },
  {
   "property": "C117",
   "status": "proved",
   "theorems": [
    "Verif.Files.handles_are_new",
    "Verif.Files.other_handles_are_untouched"
   ],
   "note": "every history, no assumption; the C library is a parameterised model"
  },
  {
   "property": "C118",
   "status": "partial",
   "theorems": [
    "Verif.Files.unknown_handles_are_rejected_partial",
    "Verif.Files.stale_handles_refuted",
    "Verif.Files.files_work_as_expected_partial"
   ],
   "note": "numbers never given out are rejected in every history; refuted for every closed handle and for the handle 0 of a failed fopen: the stream used does not exist"
  },
  {
   "property": "C119",
   "status": "partial",
   "theorems": [
    "Verif.Files.freads_reads_the_next_bytes_partial",
    "Verif.Files.failed_reads_are_reported_refuted",
    "Verif.Files.short_reads_are_reported_refuted"
   ],
   "note": "files that can be read; refuted: reading an unreadable file gives an empty text, short reads give a number, bytes other than 0 and 1 read as bool are undefined"
  },
  {
   "property": "C120",
   "status": "partial",
   "theorems": [
    "Verif.Files.text_is_read_back_partial",
    "Verif.Files.text_with_zero_byte_refuted",
    "Verif.Files.numbers_are_read_back"
   ],
   "note": "all int values; all texts without zero byte; refuted with one: it is cut there"
  },
  {
   "property": "C121",
   "status": "partial",
   "theorems": [
    "Verif.Files.fgets_gives_the_next_line_partial",
    "Verif.Files.fgets_gives_a_part_partial",
    "Verif.Files.fgets_loses_a_line_refuted"
   ],
   "note": "sizes up to 1024: whole lines, the first n - 1 bytes of longer ones, and a last line without line break; refuted for 2048: every two adjacent lines shorter than 1023 bytes are both consumed and only the second is returned"
  },
  {
   "property": "C122",
   "status": "partial",
   "theorems": [
    "Verif.Files.file_open_partial",
    "Verif.Files.file_open_reports_failure_refuted",
    "Verif.Files.file_write_reports_success_refuted",
    "Verif.Files.file_write_int_reports_success_refuted",
    "Verif.Files.closed_file_refuted",
    "Verif.Files.file_methods",
    "Verif.Files.file_close_once",
    "Verif.Files.access_modes_partial",
    "Verif.Files.access_mode_readWrite_refuted"
   ],
   "note": "open of files that can be opened, close, access modes except ReadWrite; refuted: failed open and use after close are undefined, write returns false on success, ReadWrite is read only"
  },
  {
   "property": "C123",
   "status": "partial",
   "theorems": [
    "Verif.Text.charAt_is_the_character",
    "Verif.Text.contains_iff",
    "Verif.Text.startsWith_iff",
    "Verif.Text.endsWith_iff_partial",
    "Verif.Text.endsWith_longer_refuted",
    "Verif.Text.indexOf_is_the_first",
    "Verif.Text.lastIndexOf_is_the_last",
    "Verif.Text.between_refuted"
   ],
   "note": "all but EndsWith with a longer text (raises an exception instead of false) and s[first, last] (the last character is the number of characters)"
  },
  {
   "property": "C124",
   "status": "partial",
   "theorems": [
    "Verif.Text.replace_replaces_the_first",
    "Verif.Text.removeCharAt_removes",
    "Verif.Text.trimLeftBy_cuts",
    "Verif.Text.trimRightBy_cuts_partial",
    "Verif.Text.trimRightBy_more_refuted",
    "Verif.Text.trim_removes_blanks_partial",
    "Verif.Text.one_side_and_assignment",
    "Verif.Text.trim_whitespace_refuted",
    "Verif.Text.length_is_right_partial",
    "Verif.Text.append_length_refuted"
   ],
   "note": "Trim for blanks, refuted for every other whitespace; Length for every history without <<, refuted for every use of << with a non-empty text; TrimRight with too large a number does not throw"
  },
  {
   "property": "C125",
   "status": "partial",
   "theorems": [
    "Verif.Text.replaceAll_leaves_none",
    "Verif.Text.replaceAll_replaces_each_partial",
    "Verif.Text.replaceAll_ends_partial",
    "Verif.Text.replaceAll_ends_refuted",
    "Verif.Text.replaceAll_once_refuted"
   ],
   "note": "proved if old and new have no character in common (both non-empty); ends if new is shorter; refuted: never ends whenever old occurs in new and in the text, replaces what comes up by replacing"
  },
  {
   "property": "C126",
   "status": "partial",
   "theorems": [
    "Verif.Text.split_gives_the_pieces_partial",
    "Verif.Text.split_join_partial",
    "Verif.Text.split_empty_separator_refuted",
    "Verif.Text.current_is_the_last_piece",
    "Verif.Text.nextWith_skips_refuted"
   ],
   "note": "all texts and all non-empty separators; refuted: an empty separator never ends, next( separator ) skips a piece (for every text)"
  },
  {
   "property": "C127",
   "status": "partial",
   "theorems": [
    "Verif.Text.characters_partial",
    "Verif.Text.characters_refuted",
    "Verif.Text.peek_is_next"
   ],
   "note": "the characters in order, but for every text an empty text is given behind the last one"
  },
  {
   "property": "C128",
   "status": "proved",
   "theorems": [
    "Verif.Args.options_then_script",
    "Verif.Args.script_runs_iff",
    "Verif.Args.environment_folders"
   ],
   "note": "--spec is taken with its query; the file name must not be an option unless -f precedes it"
  },
  {
   "property": "C129",
   "status": "partial",
   "theorems": [
    "Verif.Args.handler_gives_the_arguments_partial",
    "Verif.Args.script_gets_its_arguments_partial",
    "Verif.Args.handler_lookup",
    "Verif.Args.directory_name",
    "Verif.Args.blank_in_argument_refuted",
    "Verif.Args.false_argument_refuted",
    "Verif.Args.second_equals_refuted",
    "Verif.Args.quotes_refuted"
   ],
   "note": "words and key=value without blanks, line breaks, quotes, backslashes, further equals signs, and not empty or the word false; refuted for every argument with a blank, every empty argument or word false that is not last (the assertion fails), every second equals sign, every pair of quotes"
  },
  {
   "property": "C130",
   "status": "partial",
   "theorems": [
    "Verif.Heap.inherited_never_undefined",
    "Verif.Heap.inherited_no_dangling",
    "Verif.Heap.inherited_count_eq_references",
    "Verif.Heap.inherited_members_leak_refuted",
    "Verif.Heap.inherited_leak_exists",
    "Verif.Heap.inherited_garbage_destroyed_partial"
   ],
   "note": "proved with inherited members: no undefined behaviour, nothing referred to is missing, counts are exact; release is refuted for every object with a reference in an inherited member (the referred object exists forever) and proved for histories where no destroyed object still held anything there; members of the class itself are C05"
  },
  {
   "property": "C131",
   "status": "partial",
   "theorems": [
    "Verif.Objs.new_members_partial",
    "Verif.Objs.generic_string_member_refuted",
    "Verif.Objs.static_member_of_class",
    "Verif.Objs.generic_static_member_refuted",
    "Verif.Objs.object_created"
   ],
   "note": "proved for all members except those without value whose type is a type parameter replaced by string: these read 0 (refuted for every such class); static members are proved for plain classes and refuted for every instance of a generic class, which has none"
  },
  {
   "property": "C132",
   "status": "partial",
   "theorems": [
    "Verif.Objs.own_constructor_runs_partial",
    "Verif.Objs.nearest_constructor_runs",
    "Verif.Objs.new_rejected_iff",
    "Verif.Objs.default_constructor_runs",
    "Verif.Objs.private_constructor_never_runs",
    "Verif.Objs.private_constructor_refuted",
    "Verif.Objs.specialized_constructor_refuted",
    "Verif.Objs.private_constructor_fails_late_refuted",
    "Verif.Objs.final_constructor_refuted",
    "Verif.Objs.nearest_destructor_runs_partial",
    "Verif.Objs.final_destructor_refuted"
   ],
   "note": "proved: a fitting constructor of the class that is not private runs unless an ancestor has a final one; the default constructor; which destructor runs; when new is rejected. Refuted for all classes: new C() succeeds although every fitting constructor is private or none fits, running an ancestor's; a private constructor never runs, also inside the class"
  },
  {
   "property": "C133",
   "status": "partial",
   "theorems": [
    "Verif.Coll.iterator_is_cursor_partial",
    "Verif.Coll.peek_refuted",
    "Verif.Coll.previous_at_start_refuted",
    "Verif.Coll.vector_previous_refuted"
   ],
   "note": "proved for List and every history of calls, except hasPrevious and previous before the first next, and peek of other elements. Refuted for all lists: peek(k) gives the element k+1 places ahead; before the first next, hasPrevious is true and previous accesses null; in a Vector previous never gives an element"
  },
  {
   "property": "C134",
   "status": "partial",
   "theorems": [
    "Verif.Calc.number_text_partial",
    "Verif.Calc.condition_text_partial",
    "Verif.Calc.minus_minus_refuted"
   ],
   "note": "proved from the characters to the value for all formulas of + - * / % and negation, all six comparisons and conditions with !, && and ||, if no two minus signs meet (Apart) and && and || are not mixed without parentheses (C19). Refuted for a minus before a negated operand, in every layout: u - -v is read as u-- with v left over"
  },
  {
   "property": "C135",
   "status": "partial",
   "theorems": [
    "Verif.Whole.script_accepted_partial",
    "Verif.Whole.script_prints_partial",
    "Verif.Whole.layout_irrelevant_partial",
    "Verif.Whole.output_unique_partial",
    "Verif.Whole.script_unique",
    "Verif.Whole.Demo.own_initial_value_refuted",
    "Verif.Whole.Demo.parameter_twice_refuted",
    "Verif.Whole.Demo.break_in_for_refuted",
    "Verif.Whole.Demo.continue_in_switch_refuted"
   ],
   "note": "proved from the characters of the script to the characters it prints, for all programs of the small language (Whole/Spec.lean), all spellings and layouts and all terminating executions. Restricted by what the code gets wrong: two minus signs that meet (C134), && and || mixed without parentheses (C19), the name of a new variable in its own initial value (own_initial_value_refuted), and break or return inside a for loop, whose scope is then never left (break_in_for_refuted; continue is covered), and continue inside a switch, which starts the switch again instead of the next round of the loop (continue_in_switch_refuted). Blocks of a switch must end with a jump (the parser insists), and there must be a case. Refuted: a parameter declared again in the body of its function is accepted and fails at the call (parameter_twice_refuted). Texts are compared only by the type checker (C140), not in the conditions of the language"
  },
  {
   "property": "C136",
   "status": "partial",
   "theorems": [
    "Verif.Json.document_read_partial",
    "Verif.Json.numbers_refuted",
    "Verif.Json.scalar_refuted",
    "Verif.Json.letter_escape_refuted",
    "Verif.Json.capital_exponent_refuted"
   ],
   "note": "proved for all arrays and objects in all layouts, with numbers read as strings. Refuted: a document is read as its value exactly if it contains no number (numbers_refuted); documents that are a single value are always rejected; escapes with a letter give the letter; a capital E as exponent is rejected. Escapes with \\u are not in the grammar of the specification"
  },
  {
   "property": "C137",
   "status": "partial",
   "theorems": [
    "Verif.Json.written_document_partial",
    "Verif.Json.written_read_partial",
    "Verif.Json.write_plain",
    "Verif.Json.false_first_refuted",
    "Verif.Json.false_first_read_refuted",
    "Verif.Json.unescaped_refuted"
   ],
   "note": "proved for values whose texts and keys need no escapes and whose arrays of several values do not begin with false; numbers come back as strings (C136). Refuted: no text with a quotation mark or a backslash survives (unescaped_refuted), and an array that begins with false loses its first comma whatever follows (false_first_refuted)"
  },
  {
   "property": "C138",
   "status": "partial",
   "theorems": [
    "Verif.Json.reading_ends_partial",
    "Verif.Json.brackets_diverge_refuted",
    "Verif.Json.missing_bracket_refuted",
    "Verif.Json.garbage_refuted"
   ],
   "note": "proved: reading ends for every text whose last character other than blanks is not an opening bracket. Refuted: opening brackets alone keep it busy for ever (in the program until the stack is used up); one closing bracket may be missing; after one closing bracket too many anything that can be split into tokens is accepted"
  },
  {
   "property": "C139",
   "status": "partial",
   "theorems": [
    "Verif.Whole.script_outcomes_partial",
    "Verif.Whole.script_ends_iff_partial",
    "Verif.Whole.script_fails_iff_partial",
    "Verif.Whole.script_forever_iff_partial",
    "Verif.Whole.wrong_not_ended_partial"
   ],
   "note": "proved for all programs of the language of C135 in all layouts. Missing is what is missing from C135. Memory and the stack of C++ are unbounded in the model: endless recursion counts as running forever"
  },
  {
   "property": "C140",
   "status": "partial",
   "theorems": [
    "Verif.Whole.script_checked_partial",
    "Verif.Whole.script_rejected_partial",
    "Verif.Whole.unknown_function_rejected_partial",
    "Verif.Whole.stray_jump_rejected_partial",
    "Verif.Whole.result_of_void_rejected_partial",
    "Verif.Whole.return_without_result_rejected_partial",
    "Verif.Whole.call_result_of_void_rejected_partial",
    "Verif.Whole.void_result_rejected_partial",
    "Verif.Whole.missing_result_rejected_partial",
    "Verif.Whole.undeclared_rejected_partial",
    "Verif.Whole.second_default_rejected_partial",
    "Verif.Whole.block_without_jump_rejected_partial",
    "Verif.Whole.Demo.function_as_value_refuted",
    "Verif.Whole.Demo.lost_result_refuted",
    "Verif.Whole.Demo.good_result_refuted",
    "Verif.Whole.Demo.counted_truth_refuted",
    "Verif.Whole.Demo.nothing_printed_refuted"
   ],
   "note": "proved for all programs of the language of C135 whose variables are not named like functions, with the rules as the code has them: the last jump or block of a function decides whether it returns a result, the last jump or block of a switch block whether it ends with a jump, conditions may be numbers or texts, variables take values of other types except texts for numbers, and + appends anything to a text. False of the code: a function's name used as a variable is not found, the end of a function without its result is not found, and some functions that always return are rejected, and ++ and -- are accepted for truth values and then fail when they run (counted_truth_refuted); and print(h()) and return h() are accepted for functions h without a result, printing an empty line (nothing_printed_refuted)"
  },
  {
   "property": "C141",
   "status": "partial",
   "theorems": [
    "Verif.Json.Build.built_document_partial",
    "Verif.Json.Build.built_read_partial",
    "Verif.Json.Build.truth_refuted",
    "Verif.Json.Build.injection_refuted",
    "Verif.Json.Build.second_document_refuted"
   ],
   "note": "proved for all objects without truth values whose texts need no escapes. False of the code: every truth value is written as 1 or 0, a text with quotation marks can make members of its own, and the functions of StructuredBuilder.os never begin a new document"
  },
  {
   "property": "C142",
   "status": "partial",
   "theorems": [
    "Verif.SemVer.Script.version_read",
    "Verif.SemVer.Script.version_roundtrip_partial",
    "Verif.SemVer.Script.compare_partial",
    "Verif.SemVer.Script.before_total",
    "Verif.SemVer.Script.greater_is_less",
    "Verif.SemVer.Script.next_after",
    "Verif.SemVer.Script.next_least",
    "Verif.SemVer.Script.build_refuted",
    "Verif.SemVer.Script.build_in_label_refuted",
    "Verif.SemVer.Script.label_refuted",
    "Verif.SemVer.Script.label_order_refuted"
   ],
   "note": "proved for all texts and, for printing and ordering, for versions whose label does not count as false. False of the code: a build is printed but never read back and becomes a part of the label; a label like \"false\" is lost when printed, and with it versions are neither less nor greater nor equal"
  },
  {
   "property": "C143",
   "status": "partial",
   "theorems": [
    "Verif.Trees.sequence_episode",
    "Verif.Trees.fallback_episode",
    "Verif.Trees.inverter_episode",
    "Verif.Trees.reactive_starts_over",
    "Verif.Trees.tree_is_formula_partial",
    "Verif.Trees.force_refuted",
    "Verif.Trees.star_refuted"
   ],
   "note": "proved for sequences, fallbacks, reactive nodes and inverters. False of the code: the decorators that force a result never tick their child, a starred sequence counts a child that is not finished as failed"
  },
  {
   "property": "C144",
   "status": "partial",
   "theorems": [
    "Verif.Csv.open_rows",
    "Verif.Csv.table_read_partial",
    "Verif.Csv.column_index",
    "Verif.Csv.last_row_refuted",
    "Verif.Csv.titles_refuted",
    "Verif.Csv.second_file_refuted",
    "Verif.Csv.quoted_refuted"
   ],
   "note": "proved for all tables whose fields have no comma and no line break and whose last row is ended by a line break, read without titles into a new reader. False of the code: a last row without a line break is lost, a reader for a table with titles reads the titles only, a second file is added to the first, quotation marks do not protect commas"
  },
  {
   "property": "C145",
   "status": "partial",
   "theorems": [
    "Verif.Global.type_names_mean_the_nearest_type_partial",
    "Verif.Global.type_used_early_refuted",
    "Verif.Global.member_is_type_refuted",
    "Verif.Global.member_hides_type_refuted",
    "Verif.Global.interface_parents_refuted",
    "Verif.Global.class_named_like_its_namespace_refuted"
   ],
   "note": "proved for all programs whose names are identifiers, in which types are declared before they are used, a class is not declared behind one of the same name around it, names of types are not those of members, methods or namespaces around them, and the heads of interfaces use full names. False of the code otherwise: types are looked up while declarations are read, so that the order decides; names of members are taken for types; the ancestors of interfaces are not looked up."
  },
  {
   "property": "C146",
   "status": "partial",
   "theorems": [
    "Verif.Global.classes_are_those_declared_partial",
    "Verif.Global.inner_class_refuted",
    "Verif.Global.second_class_in_namespace_refuted"
   ],
   "note": "proved for all programs in which a class is not declared behind one of the same name around it and no name of a type is that of a member, method or namespace around it, in any order of the declarations. False of the code otherwise: the name of a class is looked up before it is declared, so that F in A.B behind a class A.F becomes A.B.A.F."
  },
  {
   "property": "C147",
   "status": "partial",
   "theorems": [
    "Verif.Global.rejected_iff_declared_twice_partial",
    "Verif.Global.second_class_in_namespace_refuted",
    "Verif.Global.class_named_like_its_namespace_refuted"
   ],
   "note": "proved under the conditions of C146, overloads of methods and entries of enumerations aside. False of the code otherwise: a second class of the same name in a namespace is accepted (as A.A.F), and a class with the name of a namespace around it is rejected."
  },
  {
   "property": "C148",
   "status": "partial",
   "theorems": [
    "Verif.Global.load_append",
    "Verif.Global.namespace_dotted",
    "Verif.Global.namespace_in_parts",
    "Verif.Global.namespace_visibility_refuted"
   ],
   "note": "all three laws are proved for all programs and all states, with the visibility of the first part for the whole. False of the code: the visibility of later parts is ignored."
  },
  {
   "property": "C149",
   "status": "proved",
   "theorems": [
    "Verif.Sudoku.calculate_ends",
    "Verif.Sudoku.calculate_keeps_numbers",
    "Verif.Sudoku.calculate_forced",
    "Verif.Sudoku.calculate_lists",
    "Verif.Sudoku.calculate_covers",
    "Verif.Sudoku.calculate_solved"
   ],
   "note": "for all boards with SizeX = SizeY = Repeat (any number; the program uses 3) that can be made by new, set, calculate and solve in any order, and all solutions; being reported as solved means a solution if the given numbers do not contradict each other."
  },
  {
   "property": "C150",
   "status": "partial",
   "theorems": [
    "Verif.Sudoku.solve_keeps_partial",
    "Verif.Sudoku.solve_reports_refuted",
    "Verif.Sudoku.solve_finds_refuted"
   ],
   "note": "proved: the rules and the given numbers are kept. False of the code: the search has no successful end, so that it reports a solution exactly when the board was full before (for all boards); and values left by an earlier attempt rule out right ones, so that it can stop with empty places although there is a solution."
  },
  {
   "property": "C151",
   "status": "partial",
   "theorems": [
    "Verif.Sudoku.set_checked",
    "Verif.Sudoku.findEmptyCell_spec",
    "Verif.Sudoku.isSane_refuted"
   ],
   "note": "setting and finding are proved for all boards. False of the code: isSane refuses every board, as a number is always used by its own place; for the same reason setting a number again where it is already is refused."
  },
  {
   "property": "C152",
   "status": "partial",
   "theorems": [
    "Verif.Debug.unconditional_stops",
    "Verif.Debug.literal_condition_partial",
    "Verif.Debug.variable_condition_refuted"
   ],
   "note": "False of the code: a condition that names a variable always stops, for all programs and values after all sessions, since its names are looked up in the scope of the last stop, which is gone. Proved: conditions between literals and breakpoints without condition. The comparison of values and the recognition of literals are parameters."
  },
  {
   "property": "C153",
   "status": "partial",
   "theorems": [
    "Verif.Debug.frame_moves_partial",
    "Verif.Debug.frame_kept",
    "Verif.Debug.down_past_end_refuted",
    "Verif.Debug.first_stop_frame_refuted"
   ],
   "note": "proved: selecting by up, down and number, for all stacks, except down from the innermost frame; other commands keep the selection. False of the code: that down leaves the stack so that the next up stays (for all stacks), and a stop does not select the innermost frame (at the first stop, up does nothing and down goes to the second oldest frame)."
  },
  {
   "property": "C154",
   "status": "partial",
   "theorems": [
    "Verif.Debug.print_shows",
    "Verif.Debug.modify_changes_partial",
    "Verif.Debug.modify_type_refuted",
    "Verif.Debug.watches_set",
    "Verif.Debug.watches_shown"
   ],
   "note": "proved: dotted names, print, watches, and that modify changes exactly the variable named. False of the code: the new value is always a text, whatever the type of the variable."
  },
  {
   "property": "C155",
   "status": "partial",
   "theorems": [
    "Verif.Debug.goes_on_iff_partial",
    "Verif.Debug.told_goes",
    "Verif.Debug.not_told_stays_partial"
   ],
   "note": "for all lines except the commands execute, thread and load, which are left out of the model"
  },
  {
   "property": "C156",
   "status": "partial",
   "theorems": [
    "Verif.Generic.arguments_read",
    "Verif.Generic.missing_arguments_object",
    "Verif.Generic.too_many_arguments",
    "Verif.Generic.separators_refuted",
    "Verif.Generic.nested_arguments_refuted"
   ],
   "note": "proved: reading, missing and superfluous arguments. False of the code: commas may be missing (same arguments for all lists), and a generic type as argument is read as three arguments."
  },
  {
   "property": "C157",
   "status": "partial",
   "theorems": [
    "Verif.Net.values_arrive_partial",
    "Verif.Net.small_values_arrive",
    "Verif.Net.reads_takes",
    "Verif.Net.int_in_pieces",
    "Verif.Net.values_arrive_refuted",
    "Verif.Net.end_not_told_refuted"
   ],
   "note": "proved: texts and truth values for every schedule without failures; all values when every call moves what was asked for; what reads gives for every count. False of the code: an int outside 0..255 that arrives in pieces is received as another number, and after the end every read gives zero."
  },
  {
   "property": "C158",
   "status": "partial",
   "theorems": [
    "Verif.Net.failure_told_partial",
    "Verif.Net.failure_told_refuted",
    "Verif.Net.text_sent_in_order",
    "Verif.Net.count_of_bytes_partial",
    "Verif.Net.count_of_bytes_refuted"
   ],
   "note": "proved: exceptions for all functions but reads, prefixes for texts, counts for all functions but writes. False of the code: a failing reads ends as Throw without an exception, writes returns 1 for every text."
  },
  {
   "property": "C159",
   "status": "partial",
   "theorems": [
    "Verif.Net.client_writes_when_connected",
    "Verif.Net.client_writes_reach",
    "Verif.Net.reconnect_refuted",
    "Verif.Net.bind_told_refuted"
   ],
   "note": "proved: refusals and what reaches the operating system. False of the code: after Close every Connect fails (the closed handle is used again), Bind never says yes."
  },
  {
   "property": "C160",
   "status": "partial",
   "theorems": [
    "Verif.Calc.assertion_told_partial",
    "Verif.Calc.assertion_unequal_refuted",
    "Verif.Calc.assertion_truth_refuted",
    "Verif.Calc.assertion_signs_refuted",
    "Verif.Calc.assertion_object_refuted"
   ],
   "note": "proved for conditions on int variables and flags without !=, without true and false and without a sign behind a minus sign. False of the code: a failed assert(a != b) says (a == b); true and false are told as 1 and 0; -(-n) is told as --n; the object in front of an operator of a class is not told."
  },
  {
   "property": "C161",
   "status": "partial",
   "theorems": [
    "Verif.Embed.specification_lists_methods",
    "Verif.Embed.extensions_complete_partial",
    "Verif.Embed.specification_search",
    "Verif.Embed.extension_answer",
    "Verif.Embed.extension_cut_refuted",
    "Verif.Embed.extension_order_refuted"
   ],
   "note": "proved: the list and the search for all histories; what the answer of addExtension means; all methods if no method is in the way of a later one. False of the code: a method that is already there hides all further methods of the extension, and addExtension says yes nonetheless; with default values the order decides what can be called."
  },
  {
   "property": "C162",
   "status": "partial",
   "theorems": [
    "Verif.Embed.called_by_name_partial",
    "Verif.Embed.called_by_name_short",
    "Verif.Embed.split_dotted",
    "Verif.Embed.called_by_name_refuted"
   ],
   "note": "proved: when the namespaces exist, and in both directions for names with at most one namespace. False of the code: a namespace that is not found inside is looked for outside, A.A.f calls A.f."
  },
  {
   "property": "C163",
   "status": "partial",
   "theorems": [
    "Verif.Str.Config.config_values_partial",
    "Verif.Str.Config.config_indexed",
    "Verif.Str.Config.config_missing",
    "Verif.Str.Config.config_last_line_refuted"
   ],
   "note": "proved for all lines that a line end follows; a last line without line end is lost (witness)"
  },
  {
   "property": "C164",
   "status": "proved",
   "theorems": [
    "Verif.Str.extract_quoted",
    "Verif.Str.extract_unquoted"
   ],
   "note": ""
  },
  {
   "property": "C165",
   "status": "partial",
   "theorems": [
    "Verif.Log.logger_key_partial",
    "Verif.Log.logger_key_blank_refuted",
    "Verif.Log.logger_negative_length",
    "Verif.Log.io_logger_key_partial",
    "Verif.Log.io_logger_short_key_refuted"
   ],
   "note": "proved for keys that do not end in a blank (such a blank is lost, witness); System.IO.Logger raises an exception for keys shorter than the length (refuted)"
  },
  {
   "property": "C166",
   "status": "partial",
   "theorems": [
    "Verif.Log.file_log_contents",
    "Verif.Log.appending_log_refuted",
    "Verif.Log.file_log_lines_refuted"
   ],
   "note": "contents proved for all messages without zero bytes; the appending logger empties its file, and no line breaks are written (refuted)"
  },
  {
   "property": "C167",
   "status": "partial",
   "theorems": [
    "Verif.Ints.power_is_the_power_partial",
    "Verif.Ints.power_small_exponent_refuted",
    "Verif.Ints.squares"
   ],
   "note": "proved for exponents from 1 on, exactly when the result fits; for exponents below 1 the value itself is returned (refuted); float and double are not modelled"
  },
  {
   "property": "C168",
   "status": "partial",
   "theorems": [
    "Verif.Libc.strchr_first_partial",
    "Verif.Libc.strrchr_last_partial",
    "Verif.Libc.strchr_absent_refuted",
    "Verif.Libc.strpbrk_first_partial",
    "Verif.Libc.strpbrk_absent_refuted",
    "Verif.Libc.strstr_first_partial",
    "Verif.Libc.strstr_absent_refuted",
    "Verif.Libc.spans"
   ],
   "note": "proved for texts without zero bytes where there is an occurrence; without one the call is undefined (refuted)"
  },
  {
   "property": "C169",
   "status": "partial",
   "theorems": [
    "Verif.Libc.strcmp_compares_partial",
    "Verif.Libc.strcmp_zero_byte_refuted",
    "Verif.Libc.strncmp_compares_partial",
    "Verif.Libc.strcat_joins",
    "Verif.Libc.strncat_refuted",
    "Verif.Libc.strncat_exception_refuted"
   ],
   "note": "comparison proved for texts without zero bytes (behind one everything is equal, witness); strncat leaves out the first num characters instead of appending num, and throws otherwise (refuted)"
  },
  {
   "property": "C170",
   "status": "partial",
   "theorems": [
    "Verif.Libc.case_partial",
    "Verif.Libc.case_again",
    "Verif.Libc.case_other_refuted"
   ],
   "note": "proved for ASCII texts; a byte from 128 on is passed as a negative char, which is undefined (refuted)"
  },
  {
   "property": "C171",
   "status": "partial",
   "theorems": [
    "Verif.Libc.environment_partial",
    "Verif.Libc.putenv_refuted"
   ],
   "note": "proved for all sequences of getenv and setenv without zero bytes; putenv leaves a pointer to a text that is gone, so that reading the variable is undefined (refuted)"
  },
  {
   "property": "C172",
   "status": "partial",
   "theorems": [
    "Verif.Web.requests_are_answered_partial",
    "Verif.Web.incomplete_request_refuted"
   ],
   "note": "proved for requests with path, method, URI and query string; without them the process of the request ends in an undefined way (refuted)"
  },
  {
   "property": "C173",
   "status": "partial",
   "theorems": [
    "Verif.Web.script_sees_request_partial",
    "Verif.Web.missing_parameter_refuted",
    "Verif.Web.requests_are_answered_partial"
   ],
   "note": "proved if the server was not started with a variable of that name; such a variable shows through for a missing parameter (refuted)"
  },
  {
   "property": "C174",
   "status": "partial",
   "theorems": [
    "Verif.Repo.index_newest_partial",
    "Verif.Repo.index_bad_file_refuted",
    "Verif.Repo.index_false_refuted"
   ],
   "note": "proved for files named after a module and a version; a file with a version that cannot be read makes the whole index fail, and modules whose name counts as false are left out (refuted)"
  },
  {
   "property": "C175",
   "status": "partial",
   "theorems": [
    "Verif.Repo.check_ok_iff_partial",
    "Verif.Repo.check_missing_refuted",
    "Verif.Repo.check_later_refuted"
   ],
   "note": "the answer is characterised exactly: only modules read earlier are compared; a missing module and one read later are not noticed (refuted)"
  },
  {
   "property": "C176",
   "status": "partial",
   "theorems": [
    "Verif.Anc.class_ancestors_partial",
    "Verif.Anc.class_ancestors_exact",
    "Verif.Anc.ancestors_of_kind",
    "Verif.Anc.inherits_from_written",
    "Verif.Anc.ancestor_lost_refuted",
    "Verif.Anc.ancestor_twice_refuted"
   ],
   "note": "characterised exactly for all lists: of ancestors with the same kind and name those with as many type arguments as the first are kept, the others are lost; an ancestor written twice is held twice (both refuted)"
  },
  {
   "property": "C177",
   "status": "partial",
   "theorems": [
    "Verif.Query.query_tokens_partial",
    "Verif.Query.letter_q_refuted",
    "Verif.Query.number_at_end_refuted"
   ],
   "note": "characterised exactly for all queries, accepted and rejected; the letter q is missing among the letters, and a number at the end of a query is rejected (both refuted)"
  },
  {
   "property": "C178",
   "status": "partial",
   "theorems": [
    "Verif.Query.explain_partial",
    "Verif.Query.explain_missing",
    "Verif.Query.other_queries",
    "Verif.Query.select_refuted",
    "Verif.Query.false_title_refuted"
   ],
   "note": "EXPLAIN for all tables whose first title is not empty or false; every SELECT query raises an exception (refuted for all queries, with what is behind FROM as a parameter)"
  },
  {
   "property": "C179",
   "status": "partial",
   "theorems": [
    "Verif.Trace.uncaught_report_partial",
    "Verif.Trace.fault_refuted",
    "Verif.Trace.rethrow_refuted",
    "Verif.Trace.final_refuted"
   ],
   "note": "for all scripts, with any number of handlers at a try statement, in which nothing can raise an exception between the begin of a handler and a rethrow in it or in a final block of a try statement with handlers; failing accesses are reported without place and calls, and an exception that is handled in a handler or a final block replaces the one that is going on (all three refuted)"
  },
  {
   "property": "C180",
   "status": "partial",
   "theorems": [
    "Verif.Files.scanner_text_partial",
    "Verif.Files.scanner_grown_refuted",
    "Verif.Files.scanner_missing_refuted"
   ],
   "note": "the text of a new scanner is always the whole file; after reset for files that have not become longer since the scanner was made, else cut off (refuted); a file that cannot be opened is undefined behaviour (refuted)"
  },
  {
   "property": "C181",
   "status": "partial",
   "theorems": [
    "Verif.Dump.text_of_object_partial",
    "Verif.Dump.text_ends_iff_partial",
    "Verif.Dump.cyclic_refuted",
    "Verif.Dump.member_name_refuted",
    "Verif.Dump.inherited_refuted"
   ],
   "note": "the text is exactly the page of the tree of what is shown, and it ends exactly if there is no endless way along what is shown; it does not end for an object that is part of itself, inherited members are never shown, and members that refer to objects are shown as <anonymous> (all three refuted)"
  },
  {
   "property": "C182",
   "status": "partial",
   "theorems": [
    "Verif.Heap.shutdown_iff_partial",
    "Verif.Heap.shutdown_of_acyclic_partial",
    "Verif.Heap.shutdown_of_ordered_partial",
    "Verif.Heap.shutdown_refuted",
    "Verif.Heap.shutdown_leaked_refuted"
   ],
   "note": "exact condition for a proper shutdown after any history with any variables left: every object that no variable holds is deleted, through the objects that refer to it, before its own turn; otherwise an object is deleted twice. If no object is part of itself and all variables are gone, nothing is left and the shutdown is proper; whenever any object is left although all variables are gone, it is undefined (proved for every such history, a refutation of the property), and a variable that is never destroyed is enough without any cycle. Script destructors are taken as empty"
  }
 ]
}