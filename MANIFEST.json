{
 "claims": [
  {
   "property": "C01",
   "status": "proved",
   "theorems": [
    "Verif.C01_lexes_existsUnique",
    "Verif.C01_tokens"
   ],
   "note": "Every text has exactly one token sequence; the tokenizer computes it; tokens and skipped blanks reproduce the text."
  },
  {
   "property": "C02",
   "status": "proved",
   "theorems": [
    "Verif.C02_parse_iff_grammar"
   ],
   "note": "Soundness and completeness against an inductive grammar, including the returned annotations."
  },
  {
   "property": "C03",
   "status": "proved",
   "theorems": [
    "Verif.C03_prior_kept"
   ],
   "note": "Prior results stay in front; on failure exactly the completed annotations are appended."
  },
  {
   "property": "C04",
   "status": "proved",
   "theorems": [
    "Verif.C04_reparse",
    "Verif.C04_roundtrip",
    "Verif.C04_not_identity_on_escapes"
   ],
   "note": "Round trip for texts needing no escapes; what comes back in general; witness that escapes are not undone (as stated in the claim)."
  },
  {
   "property": "C05",
   "status": "proved",
   "theorems": [
    "Verif.C05_integers_exact",
    "Verif.C05_arguments_exact"
   ],
   "note": "Positional value, 32 bit bound, no wrapped value."
  },
  {
   "property": "C06",
   "status": "proved",
   "theorems": [
    "Verif.C06_literal_reads_back",
    "Verif.C06_reading_deterministic"
   ],
   "note": "Against a specification of C++ string literal reading, for any following text."
  },
  {
   "property": "C07",
   "status": "proved",
   "theorems": [
    "Verif.C07_makeValidIdentifier_spec",
    "Verif.C07_valid",
    "Verif.C07_idempotent"
   ],
   "note": ""
  },
  {
   "property": "C08",
   "status": "proved",
   "theorems": [
    "Verif.C08_in_bounds",
    "Verif.C08_result"
   ],
   "note": "Index-based in-place loop with explicit out-of-bounds outcome."
  },
  {
   "property": "C09",
   "status": "partial",
   "theorems": [
    "Verif.C09_names_can_collide",
    "Verif.C09_distinct_iff_partial",
    "Verif.C09_never_root"
   ],
   "note": "The full claim is false (a::b, a_b, a_b_2); names are distinct exactly under the stated condition on base names."
  },
  {
   "property": "C10",
   "status": "partial",
   "theorems": [
    "Verif.C10_no_double_free",
    "Verif.C10_no_use_after_free_partial",
    "Verif.C10_self_alias_uses_freed",
    "Verif.C10_no_leak"
   ],
   "note": "No double free and no leak for all histories; use after free only by passing a value's own string to its setString (witness)."
  },
  {
   "property": "C11",
   "status": "partial",
   "theorems": [
    "Verif.C11_value_semantics",
    "Verif.C11_moved_from_unreadable",
    "Verif.C11_moved_from_readable_partial"
   ],
   "note": "Observations equal those of plain values for all histories; moved-from safety fails for move assignment of a string into a non-string (witness) and holds otherwise."
  },
  {
   "property": "C12",
   "status": "proved",
   "theorems": [
    "Verif.C12_no_silent_ignore",
    "Verif.C12_no_text_ignored",
    "Verif.C12_texts_read",
    "Verif.C12_malformed_reported"
   ],
   "note": "Documented use or an error for this declaration naming the annotation; unreadable text is a parse error."
  },
  {
   "property": "C13",
   "status": "proved",
   "theorems": [
    "Verif.C13_accepted_iff",
    "Verif.C13_effect",
    "Verif.C13_rejected",
    "Verif.C13_shape"
   ],
   "note": "Against a table of documented forms, applicability and side conditions; the error about an alias without target may be repeated in addition (stated in RejectedWith)."
  },
  {
   "property": "C14",
   "status": "proved",
   "theorems": [
    "Verif.C14_visibility",
    "Verif.C14_empty_annotation_not_visible"
   ],
   "note": "Second theorem: README.md says an empty GENPYBIND() implies visible, which the code does not do."
  },
  {
   "property": "C15",
   "status": "proved",
   "theorems": [
    "Verif.C15_spelling",
    "Verif.C15_invalid_reported"
   ],
   "note": ""
  },
  {
   "property": "C16",
   "status": "proved",
   "theorems": [
    "Verif.C16_idempotent",
    "Verif.C16_local",
    "Verif.C16_history",
    "Verif.C16_skipped"
   ],
   "note": ""
  },
  {
   "property": "C17",
   "status": "proved",
   "theorems": [
    "Verif.C17_conflict"
   ],
   "note": ""
  },
  {
   "property": "C18",
   "status": "partial",
   "theorems": [
    "Verif.C18_positions_partial",
    "Verif.C18_keep_alive_partial",
    "Verif.C18_unknown_reported_partial",
    "Verif.C18_static_wrong",
    "Verif.C18_static_off_by_one"
   ],
   "note": "False for static methods (witness, and how it fails for all of them); proved for free functions, instance methods, constructors and conversion functions."
  },
  {
   "property": "C19",
   "status": "partial",
   "theorems": [
    "Verif.C19_flags_partial",
    "Verif.C19_lost_after_args",
    "Verif.C19_flags_by_position"
   ],
   "note": "False for parameters after pybind11::args (witness); proved for all parameters not preceded by args/kwargs, and what happens in general."
  },
  {
   "property": "C38",
   "status": "partial",
   "theorems": [
    "Verif.C38_names",
    "Verif.C38_error_iff_partial",
    "Verif.C38_args_after_kwargs_accepted"
   ],
   "note": "Names and defaults proved; the error is only reported for plain parameters after kwargs (iff), not for args after kwargs (witness)."
  },
  {
   "property": "C20",
   "status": "proved",
   "theorems": [
    "Verif.C20_agree",
    "Verif.C20_errors_iff",
    "Verif.C20_attributes"
   ],
   "note": "Errors of the traversal are exactly errors of individual declarations and disagreements between relevant re-declarations."
  },
  {
   "property": "C21",
   "status": "proved",
   "theorems": [
    "Verif.C21_one_place",
    "Verif.C21_relocated",
    "Verif.C21_second_rejected",
    "Verif.C21_nothing_else"
   ],
   "note": "Quantifies over contexts that occur outside of std/reserved namespaces, and over all expose_here targets."
  },
  {
   "property": "C22",
   "status": "partial",
   "theorems": [
    "Verif.C22_reported",
    "Verif.C22_iff_partial",
    "Verif.C22_dropped_silently"
   ],
   "note": "Exact set of reported aliases proved; the iff needs that no scope is in std or a reserved namespace: out-of-line definitions of members of such namespaces are dropped silently (witness)."
  },
  {
   "property": "C53",
   "status": "partial",
   "theorems": [
    "Verif.C53_expose_here_partial",
    "Verif.C53_encourage",
    "Verif.C53_others",
    "Verif.C53_encourage_overrides",
    "Verif.C53_order_matters"
   ],
   "note": "Spelling always, visibility unless the target is also encouraged by a later alias (witnesses)."
  },
  {
   "property": "C23",
   "status": "proved",
   "theorems": [
    "Verif.C23_graphs",
    "Verif.C23_visibility",
    "Verif.C23_inherited",
    "Verif.C23_root"
   ],
   "note": ""
  },
  {
   "property": "C24",
   "status": "proved",
   "theorems": [
    "Verif.C24_hides_exactly",
    "Verif.C24_unreachable"
   ],
   "note": ""
  },
  {
   "property": "C25",
   "status": "proved",
   "theorems": [
    "Verif.C25_contexts",
    "Verif.C25_contexts_of_module"
   ],
   "note": ""
  },
  {
   "property": "C26",
   "status": "proved",
   "theorems": [
    "Verif.C26_types",
    "Verif.C26_namespaces",
    "Verif.C26_places"
   ],
   "note": "For all three analyses composed as in the tool."
  },
  {
   "property": "C27",
   "status": "partial",
   "theorems": [
    "Verif.C27_warned_about",
    "Verif.C27_enclosing_reported_partial",
    "Verif.C27_itself_not_reported"
   ],
   "note": "Exact set of reported contexts; a hidden class around the visible type is reported, not necessarily the type itself (witness)."
  },
  {
   "property": "C29",
   "status": "proved",
   "theorems": [
    "Verif.C29_graphs",
    "Verif.C29_order",
    "Verif.C29_scope"
   ],
   "note": "Order is a permutation of the nodes; every enclosing scope and directly listed exposed public base comes before."
  },
  {
   "property": "C30",
   "status": "proved",
   "theorems": [
    "Verif.C30_iff"
   ],
   "note": "Cycle reported iff the dependency relation has one; then no context is listed."
  },
  {
   "property": "C31",
   "status": "partial",
   "theorems": [
    "Verif.C31_smallest_partial",
    "Verif.C31_determined_partial",
    "Verif.C31_not_determined"
   ],
   "note": "Proved if no two contexts have the same location; false otherwise (specializations of one template share a location), shown by a witness."
  },
  {
   "property": "C32",
   "status": "partial",
   "theorems": [
    "Verif.C32_reported_partial",
    "Verif.C32_not_on_cycle"
   ],
   "note": "The reported context is on or depends on a cycle and comes first in the file; it need not be on a cycle (witness)."
  },
  {
   "property": "C33",
   "status": "partial",
   "theorems": [
    "Verif.C33_before_partial",
    "Verif.C33_base_after_derived"
   ],
   "note": "Proved if inlined bases are exposed themselves; false otherwise (witness: base exposed via expose_here in a later class, reached through an inlined unexposed base)."
  },
  {
   "property": "C42",
   "status": "partial",
   "theorems": [
    "Verif.C42_hierarchies",
    "Verif.C42_annotations",
    "Verif.C42_terminates",
    "Verif.C42_inlined",
    "Verif.C42_iff_partial",
    "Verif.C42_hidden",
    "Verif.C42_virtual_base_missed"
   ],
   "note": "Termination, soundness and hidden bases proved in general; the converse if no virtual base occurs twice in the hierarchy, false otherwise (witness)."
  },
  {
   "property": "C43",
   "status": "partial",
   "theorems": [
    "Verif.C43_iff",
    "Verif.C43_bases_partial",
    "Verif.C43_once_partial",
    "Verif.C43_listed_twice",
    "Verif.C43_once_iff",
    "Verif.C43_order"
   ],
   "note": "Membership proved in general relative to the computed inlined bases (and relative to the specification as in C42); a base can be listed twice (witness), exactly if there are two ways to reach it through inlined bases (C43_once_iff). The order is the order of declaration."
  },
  {
   "property": "C44",
   "status": "proved",
   "theorems": [
    "Verif.C44_found",
    "Verif.C44_no_policy",
    "Verif.C44_collected"
   ],
   "note": "Collected declarations characterised per declaration found by lookup; clang's lookup is an input."
  },
  {
   "property": "C39",
   "status": "proved",
   "theorems": [
    "Verif.C39_binary",
    "Verif.C39_uses",
    "Verif.C39_unary"
   ],
   "note": "Against a specification of Python's operator dispatch, for all operator kinds; stated for operators that get a name (see C40)."
  },
  {
   "property": "C40",
   "status": "partial",
   "theorems": [
    "Verif.C40_named_partial",
    "Verif.C40_nameless"
   ],
   "note": "Exact set of operators emitted without a name; it is not empty (witness: unary !, compound assignment with the class as right operand)."
  },
  {
   "property": "C36",
   "status": "proved",
   "theorems": [
    "Verif.C36_iff",
    "Verif.C36_sorted",
    "Verif.C36_duplicates",
    "Verif.C36_no_getter",
    "Verif.C36_notes",
    "Verif.C36_unique"
   ],
   "note": "For every list of members; holds for any storage derived from annotations."
  },
  {
   "property": "C37",
   "status": "partial",
   "theorems": [
    "Verif.C37_values_partial",
    "Verif.C37_unannotated"
   ],
   "note": "Proved for enums with annotations; enums without annotations that are visible by default do not export their values (witness)."
  },
  {
   "property": "C41",
   "status": "proved",
   "theorems": [
    "Verif.C41_constructors",
    "Verif.C41_conversions",
    "Verif.C41_converting"
   ],
   "note": "Exact list of emitted constructors and conversions."
  },
  {
   "property": "C56",
   "status": "proved",
   "theorems": [
    "Verif.C56_functions",
    "Verif.C56_free_operator"
   ],
   "note": "Exact list of emitted functions; in namespaces it includes operators (shown by C56_free_operator)."
  },
  {
   "property": "C57",
   "status": "proved",
   "theorems": [
    "Verif.C57_members"
   ],
   "note": "Exact list of emitted data members."
  },
  {
   "property": "C58",
   "status": "proved",
   "theorems": [
    "Verif.C58_attributes",
    "Verif.C58_class_attributes",
    "Verif.C58_readonly_ignored"
   ],
   "note": "Exact list of attributes; readonly is ignored outside of classes."
  },
  {
   "property": "C28",
   "status": "partial",
   "theorems": [
    "Verif.C28_objects",
    "Verif.C28_objects_partial",
    "Verif.C28_agree",
    "Verif.C28_reopened",
    "Verif.C28_reopened_run"
   ],
   "note": "Objects for every graph with distinct identifiers (C09), given by the first declaration of each namespace (C28_objects); they are the ones of all declarations if these agree, which holds for built graphs unless a declaration of an annotated namespace is free of annotations (C28_agree); otherwise false (witness for a whole run: second declaration annotated with module)."
  },
  {
   "property": "C34",
   "status": "proved",
   "theorems": [
    "Verif.C34_outcome",
    "Verif.C34_written",
    "Verif.C34_scoped",
    "Verif.C34_calls",
    "Verif.C34_defined"
   ],
   "note": "Exact list of everything that is written, for every input, number of files and order of iteration."
  },
  {
   "property": "C35",
   "status": "proved",
   "theorems": [
    "Verif.C35_files",
    "Verif.C35_even",
    "Verif.C35_written"
   ],
   "note": "Arithmetic and its effect on emitModule."
  },
  {
   "property": "C46",
   "status": "proved",
   "theorems": [
    "Verif.C46_definitions",
    "Verif.C46_postamble",
    "Verif.C46_exclusive",
    "Verif.C46_hidden_postamble",
    "Verif.C46_postamble_alone"
   ],
   "note": "Exact positions; a hidden postamble binding is written nevertheless."
  },
  {
   "property": "C54",
   "status": "proved",
   "theorems": [
    "Verif.C54_identifiers",
    "Verif.C54_bound"
   ],
   "note": "Number of stored identifiers at all times."
  },
  {
   "property": "C45",
   "status": "partial",
   "theorems": [
    "Verif.C45_terminates",
    "Verif.C45_result_unique",
    "Verif.C45_fixpoint_partial",
    "Verif.C45_aliases",
    "Verif.C45_missed",
    "Verif.C45_endless",
    "Verif.C45_undefined"
   ],
   "note": "terminates if finitely many specializations are reachable; everything named in the translation unit or in instantiated definitions is instantiated and added exactly once, exactly the reachable ones if they are named by aliases; specializations created only later on are missed (C45_missed), endless chains do not terminate (C45_endless), undefined templates are undefined behavior (C45_undefined)"
  },
  {
   "property": "C47",
   "status": "partial",
   "theorems": [
    "Verif.C47_standard_partial",
    "Verif.C47_no_other",
    "Verif.C47_c_standard",
    "Verif.C47_long_std",
    "Verif.C47_ansi",
    "Verif.C47_long_language"
   ],
   "note": "holds for the spellings -x and -std= with standards of C++; witnesses show that it fails for C standards, --std=, -ansi and --language="
  },
  {
   "property": "C48",
   "status": "partial",
   "theorems": [
    "Verif.C48_preserved",
    "Verif.C48_idempotent_partial",
    "Verif.C48_not_idempotent",
    "Verif.C48_dangling"
   ],
   "note": "preservation for every command; idempotence if no -std= argument ends in a single +"
  },
  {
   "property": "C49",
   "status": "partial",
   "theorems": [
    "Verif.C49_added_partial",
    "Verif.C49_kept",
    "Verif.C49_not_found",
    "Verif.C49_idempotent",
    "Verif.C49_positional"
   ],
   "note": "arguments after -- also count as flags; nothing is added if no default directory is found"
  },
  {
   "property": "C51",
   "status": "partial",
   "theorems": [
    "Verif.C51_order_partial",
    "Verif.C51_named_exists",
    "Verif.C51_no_errors",
    "Verif.C51_malformed_partial",
    "Verif.C51_trailing",
    "Verif.C51_end_of_file"
   ],
   "note": "headers of pragmas with trailing tokens are included as well; trailing tokens at the end of the file are not diagnosed"
  },
  {
   "property": "C50",
   "status": "partial",
   "theorems": [
    "Verif.C50_total",
    "Verif.C50_exit",
    "Verif.C50_files_partial",
    "Verif.C50_requested",
    "Verif.C50_stale",
    "Verif.C50_duplicate_outputs"
   ],
   "note": "Exit status for every run; created outputs are removed on error. Missing: if an error is reported before outputs are created, files of earlier runs stay in place (C50_stale)."
  },
  {
   "property": "C52",
   "status": "proved",
   "theorems": [
    "Verif.C52_stem",
    "Verif.C52_default",
    "Verif.C52_total",
    "Verif.C52_double_slash",
    "Verif.C52_root",
    "Verif.C52_directory",
    "Verif.C52_absolute",
    "Verif.C52_explicit",
    "Verif.C52_hidden_file"
   ],
   "note": "Every path; empty only for an empty stem (witness)."
  },
  {
   "property": "C55",
   "status": "proved",
   "theorems": [
    "Verif.C55_annotations",
    "Verif.C55_cycles",
    "Verif.C55_success",
    "Verif.C55_dependency_cycle",
    "Verif.C55_errors_iff",
    "Verif.C55_run"
   ],
   "note": "Whole pipeline composed from the models of all stages; exact contents of all files of a successful run."
  },
  {
   "property": "C59",
   "status": "proved",
   "theorems": [
    "Verif.C59_operators",
    "Verif.C59_binary",
    "Verif.C59_unary",
    "Verif.C59_nothing_else"
   ],
   "note": "Every class; assumes that lookup in a class finds members only."
  },
  {
   "property": "C60",
   "status": "proved",
   "theorems": [
    "Verif.C60_stream",
    "Verif.C59_nothing_else",
    "Verif.C60_unnamed"
   ],
   "note": "If the left operand refers to a class without a name a null pointer is dereferenced (witness); excluded otherwise."
  },
  {
   "property": "C61",
   "status": "proved",
   "theorems": [
    "Verif.C61_import",
    "Verif.C61_name_taken"
   ],
   "note": "Exact characterisation of successful imports and of what is executed, for every graph. C61_bases_partial shows when the condition on bases holds; name clashes are not diagnosed by the tool (C61_name_taken)."
  },
  {
   "property": "C62",
   "status": "proved",
   "theorems": [
    "Verif.C62_alias",
    "Verif.C62_imported"
   ],
   "note": "Proved for every importable order (C62_alias) and for the result of importing the generated files (C62_imported)."
  },
  {
   "property": "C63",
   "status": "partial",
   "theorems": [
    "Verif.C63_independent",
    "Verif.C63_meaning_partial",
    "Verif.C63_type_twice",
    "Verif.C63_initializer_list",
    "Verif.C63_local",
    "Verif.C63_virtual",
    "Verif.C63_anonymous",
    "Verif.C63_conversion"
   ],
   "note": "Independence of other parameters for every list; the meaning is preserved for every expression except for the cases shown to fail by the other theorems (braced functional casts of aggregates and scalars, initializer lists, parameters of lambdas, virtual calls, members of anonymous structs; a conversion at the outermost level is not printed). Template arguments are taken as printed by clang."
  },
  {
   "property": "C64",
   "status": "proved",
   "theorems": [
    "Verif.C64_dump",
    "Verif.C64_visibility",
    "Verif.C64_pruned",
    "Verif.C64_label"
   ],
   "note": "Every graph with unique parents, before and after pruning."
  },
  {
   "property": "C65",
   "status": "partial",
   "theorems": [
    "Verif.C65_block",
    "Verif.C65_file",
    "Verif.C65_run_partial",
    "Verif.C65_co_await"
   ],
   "note": "A reader for the C++ subset used by the generated files recovers every statement, for whole runs. Missing: operator co_await, whose operand is not separated from it (witness), and raw texts with unbalanced brackets."
  },
  {
   "property": "C66",
   "status": "proved",
   "theorems": [
    "Verif.C66_function",
    "Verif.C66_constructor",
    "Verif.C66_operator"
   ],
   "note": "For every storage derived from annotations and every statement emitted in any context. keep_alive of static methods is treated in C18."
  },
  {
   "property": "C67",
   "status": "proved",
   "theorems": [
    "Verif.C67_settings"
   ],
   "note": "Every declaration and list of annotations; names and visibility are treated in C14 and C15."
  },
  {
   "property": "C68",
   "status": "proved",
   "theorems": [
    "Verif.C68_introduced",
    "Verif.C68_run"
   ],
   "note": "Assumes that types and namespaces that are not dependent are not part of a template (ensured by C++)."
  },
  {
   "property": "C69",
   "status": "proved",
   "theorems": [
    "Verif.C69_module",
    "Verif.C69_placed"
   ],
   "note": "Whole runs: files, importability and the exact set of classes and enums created by importing them; C69_placed gives their place if re-opened namespaces agree (C28)."
  },
  {
   "property": "C70",
   "status": "proved",
   "theorems": [
    "Verif.C70_text",
    "Verif.C70_annotations",
    "Verif.C70_declaration",
    "Verif.C70_layout"
   ],
   "note": "Tokens after macro expansion; the stringizing operator is modelled after [cpp.stringize], reading of literals after [lex.string]."
  },
  {
   "property": "C71",
   "status": "partial",
   "theorems": [
    "Verif.C71_functions",
    "Verif.C71_constructors",
    "Verif.C71_members",
    "Verif.C71_attributes",
    "Verif.C71_enumerators",
    "Verif.C71_operators",
    "Verif.C71_complete_partial",
    "Verif.C71_run",
    "Verif.C71_template_lost",
    "Verif.C71_bare_first"
   ],
   "note": "Exact characterisation of the contents of every object for every run. That no visible function is lost holds except for specializations of function templates whose namespace has nothing else visible (witness C71_template_lost); namespaces that are annotated must not also be opened without annotations (witness C71_bare_first)."
  },
  {
   "property": "C72",
   "status": "proved",
   "theorems": [
    "Verif.C72_success_iff",
    "Verif.C72_graph",
    "Verif.C72_annotations",
    "Verif.C72_pragmas",
    "Verif.C72_reported"
   ],
   "note": "Both directions for every run. Assumes that namespaces are re-opened consistently (otherwise C28/C71 apply) and facts about C++ lookup (MembersOK, LookupOK). Two things the code overlooks are part of the statement: one trailing token at the end of the file (PragmaOK), and the class without a name as the left operand of operator<< (CanExpose.operator), which dereferences a null pointer."
  },
  {
   "property": "C73",
   "status": "proved",
   "theorems": [
    "Verif.C73_names",
    "Verif.C73_conflicts",
    "Verif.C73_static_instance",
    "Verif.C73_class_function",
    "Verif.C73_overloads",
    "Verif.C73_run",
    "Verif.C73_source",
    "Verif.C73_source_run",
    "Verif.C73_static_undiagnosed",
    "Verif.C73_class_undiagnosed",
    "Verif.C73_replaced"
   ],
   "note": "Whole runs, any class hierarchy; pybind11's rules for names are specified in Spec/Names.lean; C73_source_run states distinct names about the source code (Spec/Distinct.lean). The tool does not ensure that names do not clash: witnesses for a static and an instance method (C73_static_undiagnosed), a class and a function (C73_class_undiagnosed), and a property that replaces a method (C73_replaced)."
  },
  {
   "property": "C74",
   "status": "proved",
   "theorems": [
    "Verif.C74_properties",
    "Verif.C74_conversions",
    "Verif.C74_streams",
    "Verif.C74_exports",
    "Verif.C74_manual"
   ],
   "note": "Whole runs. For properties the contexts have to be in order, which holds after successful runs (C72_success_iff); without that, which getter or setter is used is C36. An enum without annotations that is exposed through an alias exports nothing."
  },
  {
   "property": "C75",
   "status": "partial",
   "theorems": [
    "Verif.C75_reproducible_partial",
    "Verif.C75_ties_alike_partial",
    "Verif.C75_ties"
   ],
   "note": "Whole runs, for all choices of containers. Types and namespaces, and members of the same context, are assumed to be at different places, or (members) to be found in the same order. Without this it is false: two constructors provided by the compiler are at the place of the class (C75_ties), implicit specializations of a template at that of the template (C31_not_determined)."
  },
  {
   "property": "C76",
   "status": "partial",
   "theorems": [
    "Verif.C76_ready_partial",
    "Verif.C76_ready",
    "Verif.C76_nothing_else",
    "Verif.C76_missed"
   ],
   "note": "All translation units and orders. What clang instantiates is an input (DefaultsWorld). Specializations have to exist when their template is visited (from the start, or because of default arguments visited before: C76_ready_partial); C76_ready is the unconditional case where nothing new is instantiated. Without this the claim is false: a function template specialization that is first needed by a later default argument is exposed, but its own default argument is still uninstantiated (C76_missed)."
  },
  {
   "property": "C77",
   "status": "proved",
   "theorems": [
    "Verif.C77_annotations",
    "Verif.C77_run",
    "Verif.C77_tool",
    "Verif.C77_messages",
    "Verif.C77_parse_error",
    "Verif.C77_parse_error_unique",
    "Verif.C77_cycle_moved",
    "Verif.C77_examples"
   ],
   "note": "Whole runs; reasons are stated about the source code in Spec/Reasons.lean. C77_messages covers all diagnostics (the failed assertion of the model, for `<<` with an unnamed pointee, is an abort and has no message). A dependency cycle can be reported at a context that only depends on it (C32_not_on_cycle); the reason stated here says so, and C77_cycle_moved that some context of the cycle has been moved by an alias, given that bases and enclosing contexts come first in the source. Which of the texts for parse errors is used is not modelled."
  },
  {
   "property": "C78",
   "status": "partial",
   "theorems": [
    "Verif.C78_no_trace_partial",
    "Verif.C78_any_order_partial",
    "Verif.C78_reopened"
   ],
   "note": "Whole runs, any additional code without annotations; what 'added' means is stated in Spec/Additions.lean. Without the hypotheses it is false: a namespace that is opened again without annotations adds its functions to the visible part (C78_reopened), and free operators that take an exposed type are methods of it wherever they are declared (C59). Types and namespaces of the first translation unit have to be at different places (C31_not_determined)."
  },
  {
   "property": "C79",
   "status": "partial",
   "theorems": [
    "Verif.C79_together",
    "Verif.C79_shared",
    "Verif.C79_assigned",
    "Verif.C79_elsewhere",
    "Verif.C79_bases",
    "Verif.C79_reopened_partial",
    "Verif.C79_leak",
    "Verif.C79_base_lost",
    "Verif.C79_everywhere"
   ],
   "note": "Any number of successful runs for the same translation unit, imported one after the other into one interpreter. Partial for the last sentence: a namespace that is also opened without annotations, inside of something visible, exposes the types of this part in all modules (C79_leak); C79_reopened_partial is the claim for namespaces all of whose parts contain annotations. Bases that are exposed in another module are not listed (C79_bases, C79_base_lost)."
  },
  {
   "property": "C80",
   "status": "partial",
   "theorems": [
    "Verif.C80_dispatch",
    "Verif.C80_run",
    "Verif.C80_defaults_partial",
    "Verif.C80_noconvert_default",
    "Verif.C80_required_default",
    "Verif.C80_self"
   ],
   "note": "Whole runs, for any set of Python values and conversions between them; pybind11's dispatcher is specified in Spec/Call.lean. Left out: functions that take pybind11::args or kwargs, attributes that mix functions with operators, calls of methods with a keyword argument called self. Partial for the last sentence: a default argument of another type than the parameter cannot be used if the parameter is named in noconvert (C80_noconvert_default), nor can a null pointer if it is named in required (C80_required_default). A parameter called self cannot be given by name (C80_self)."
  },
  {
   "property": "C81",
   "status": "proved",
   "theorems": [
    "Verif.C81_code",
    "Verif.C81_import",
    "Verif.C81_messages",
    "Verif.C81_run"
   ],
   "note": "Whole runs, any numbers of files. If a path is named twice code is lost (C50_duplicate_outputs)."
  },
  {
   "property": "C82",
   "status": "proved",
   "theorems": [
    "Verif.C82_read",
    "Verif.C82_accepted",
    "Verif.C82_absolute",
    "Verif.C82_rejected"
   ],
   "note": "Every list of arguments. Reading of options by LLVM and clang is modelled after its documentation; options that LLVM and clang provide themselves (such as --help) are left out."
  },
  {
   "property": "C83",
   "status": "partial",
   "theorems": [
    "Verif.C83_target_partial",
    "Verif.C83_command",
    "Verif.C83_count",
    "Verif.C83_no_header",
    "Verif.C83_swallowed",
    "Verif.C83_not_compiled"
   ],
   "note": "All calls in which sources do not directly follow the libraries or the number of files. Written in the order shown in the documentation of the function, sources after NUM_BINDING_FILES make the configuration fail (C83_swallowed), and after LINK_LIBRARIES they are linked instead of compiled (C83_not_compiled). What CMake itself does is stated in CMakeOK; nothing is built in the root directory. That the name of the target is a valid identifier is not checked (C52_explicit)."
  },
  {
   "property": "C84",
   "status": "proved",
   "theorems": [
    "Verif.C84_command",
    "Verif.C84_macro",
    "Verif.C84_no_output",
    "Verif.C84_lost_file",
    "Verif.C84_dangling"
   ],
   "note": "Commands are sequences of parts, see Spec/Command.lean. The adjusters of clang's tooling library are modelled after their source, without the driver mode cl. Commands outside of the hypotheses: a file after -- whose name looks like an option is lost (C84_lost_file), -x at the very end hides -fsyntax-only (C84_dangling); standards of other languages see C47."
  },
  {
   "property": "C85",
   "status": "partial",
   "theorems": [
    "Verif.C85_lines_partial",
    "Verif.C85_members",
    "Verif.C85_hidden",
    "Verif.C85_files",
    "Verif.C85_empty_namespace"
   ],
   "note": "All well-formed translation units, members and annotations for which the graph can be built before and after. Proved in full for members of classes and enums (C85_members, C85_hidden); for members of namespaces the same namespaces have to contain something visible, since otherwise the namespace vanishes (C85_empty_namespace)."
  },
  {
   "property": "C86",
   "status": "partial",
   "theorems": [
    "Verif.C86_total",
    "Verif.C86_single",
    "Verif.C86_exit",
    "Verif.C86_not_found",
    "Verif.C86_last",
    "Verif.C86_printed",
    "Verif.C86_left_over",
    "Verif.C86_command",
    "Verif.C86_program",
    "Verif.C86_commands",
    "Verif.C86_commands_unique"
   ],
   "note": "Everything but the last sentence is proved, which is false: if a later command is rejected because of its annotations, the code generated for an earlier one is left in the output files (C86_left_over). If the output is printed, the code for all commands is printed (C86_printed). Databases, commands without input files and ClangTool::run are modelled after clang's tooling library."
  },
  {
   "property": "C87",
   "status": "partial",
   "theorems": [
    "Verif.C87_recognizable_partial",
    "Verif.C87_deterministic",
    "Verif.C87_injective_partial",
    "Verif.C87_messages",
    "Verif.C87_ambiguous"
   ],
   "note": "Holds exactly if no argument is empty and none without spaces begins with a quote (C87_recognizable_partial is an equivalence); otherwise it is false, with examples in C87_ambiguous."
  },
  {
   "property": "C88",
   "status": "proved",
   "theorems": [
    "Verif.C88_run",
    "Verif.C88_macro",
    "Verif.C88_join",
    "Verif.C88_permuted",
    "Verif.C88_last",
    "Verif.C88_order_matters",
    "Verif.C88_empty_matters"
   ],
   "note": "The ways to rewrite annotations are an inductive relation in Spec/Interchange.lean, closed under composition; annotations about which something is reported may only be exchanged with ones about which nothing is. The last two theorems are examples that show that order within a setting and empty annotations matter."
  },
  {
   "property": "C89",
   "status": "proved",
   "theorems": [
    "Verif.C89_run",
    "Verif.C89_unannotated",
    "Verif.C89_matters"
   ],
   "note": "All well-formed translation units and pairs of non-empty names. C89_matters is an example in which a name listed by only_expose_in makes a difference."
  },
  {
   "property": "C90",
   "status": "proved",
   "theorems": [
    "Verif.C90_moved",
    "Verif.C90_comments",
    "Verif.C90_input",
    "Verif.C90_documented",
    "Verif.C90_order"
   ],
   "note": "All translation units; the new locations are any that order the declarations in the same way. That clang attaches the right comment to a declaration is not modelled: the brief text is part of the input. Positions shown along with messages are not part of the model. C90_documented and C90_order are examples in which documentation and order make a difference."
  },
  {
   "property": "C91",
   "status": "partial",
   "theorems": [
    "Verif.C91_types_partial",
    "Verif.C91_context_partial",
    "Verif.C91_run_partial",
    "Verif.C91_awkward_run",
    "Verif.C91_private_type",
    "Verif.C91_private_alias",
    "Verif.C91_using",
    "Verif.C91_bit_field",
    "Verif.C91_deleted_getter",
    "Verif.C91_variadic"
   ],
   "note": "False as stated: examples (one header, C91_awkward_run is its run without diagnostics) show that private types marked as visible or named by annotated aliases, members of bases made accessible by using-declarations, bit-fields, deleted getters and functions with an ellipsis lead to code that does not compile. Proved for all headers that avoid these (NameableTypes, NameableMembers, Suitable in Spec/Usable.lean). Types of parameters and default arguments are not covered."
  },
  {
   "property": "C92",
   "status": "proved",
   "theorems": [
    "Verif.C92_context",
    "Verif.C92_objects",
    "Verif.C92_run",
    "Verif.C92_marked",
    "Verif.C92_success",
    "Verif.C92_lines",
    "Verif.C92_unannotated"
   ],
   "note": "Requested is defined from the annotations of the declarations, without the stored attributes or the graph.  C92_run covers all statements executed on import, C92_objects classes, enums and namespaces, C92_success and C92_unannotated code without annotations."
  },
  {
   "property": "C93",
   "status": "partial",
   "theorems": [
    "Verif.C93_listed",
    "Verif.C93_connected",
    "Verif.C93_run_partial",
    "Verif.C93_mirror_partial",
    "Verif.C93_gap"
   ],
   "note": "Only public bases become bases in Python, over any number of steps; conversely every base the class is connected to by exposed or inlined classes. Partial because the converse is false in general: a class between the two that is neither exposed nor inlined cuts the connection (C93_gap)."
  },
  {
   "property": "C94",
   "status": "proved",
   "theorems": [
    "Verif.C94_tool",
    "Verif.C94_plain",
    "Verif.C94_written",
    "Verif.C94_numbers",
    "Verif.C94_unique",
    "Verif.C94_expanded"
   ],
   "note": "Macro expansion is modelled as the standard says (hide sets, arguments expanded first unless used with # or ##, __COUNTER__); expansion terminates with the given result for any sufficient number of steps. Words in annotations that are macros themselves are excluded by hypothesis: they are expanded (C94_expanded). Directives are not modelled."
  },
  {
   "property": "C95",
   "status": "partial",
   "theorems": [
    "Verif.C95_run_partial",
    "Verif.C95_imported_partial",
    "Verif.C95_private",
    "Verif.C95_hidden",
    "Verif.C95_renamed"
   ],
   "note": "False without the condition that everything with this name in the hierarchy is exposed under it: a private, hidden or renamed member of a derived class hides the functions of the base in C++ but not in Python (C95_private, C95_renamed). For C95_run_partial the method resolution order is only assumed to contain the class and its bases, classes before their bases (MroOK); C95_imported_partial is about the order Python computes (C98). C80 says what the functions that are found do."
  },
  {
   "property": "C96",
   "status": "partial",
   "theorems": [
    "Verif.C96_types_partial",
    "Verif.C96_run_partial",
    "Verif.C96_order_partial",
    "Verif.C96_visible_partial",
    "Verif.C96_hidden_partial",
    "Verif.C96_mixed"
   ],
   "note": "Holds for all sources without a class that has both an alias with expose_here and one with encourage; with both, the order of the aliases decides (C96_mixed). The comparison of two sources assumes that the graph is built without errors for both. Members of classes are the subject of C71 and C85."
  },
  {
   "property": "C97",
   "status": "proved",
   "theorems": [
    "Verif.C97_run",
    "Verif.C97_uniform",
    "Verif.C97_mismatch"
   ],
   "note": "Whether a module can be imported is characterised completely (C97_run). That accepted headers give importable modules is false: a mismatch of holders is not reported (C97_mismatch). Which texts name a std::unique_ptr is a parameter; that holders themselves compile is not modelled."
  },
  {
   "property": "C98",
   "status": "proved",
   "theorems": [
    "Verif.C98_run",
    "Verif.C98_found",
    "Verif.C98_joined",
    "Verif.C98_plain",
    "Verif.C98_single",
    "Verif.C98_mro",
    "Verif.C98_order",
    "Verif.C98_twice"
   ],
   "note": "Whether there are method resolution orders is characterised for whole runs (C98_run) and for single classes (C98_found), shown for hierarchies whose diamonds are closed by one class (C98_joined) and for those without diamonds (C98_plain, C98_single), and the orders found have the properties C95 assumes (C98_mro). C98_order and C98_twice are the cases in which the import fails."
  },
  {
   "property": "C99",
   "status": "proved",
   "theorems": [
    "Verif.C99_values",
    "Verif.C99_run",
    "Verif.C99_hidden"
   ],
   "note": "Whether values can be converted is characterised completely (C99_values, C99_run). That accepted headers give importable modules is false: a hidden type of a default argument is not reported (C99_hidden). Which types a value needs is a parameter, since types of expressions are not modelled; manual bindings are left out."
  },
  {
   "property": "C100",
   "status": "proved",
   "theorems": [
    "Verif.C100_run",
    "Verif.C100_works"
   ],
   "note": "C100_run is a characterisation; C100_works gives sufficient conditions in terms of the source code and of the places of objects (C69), for hierarchies in which whatever the bases of a class have in common comes from a single class. Manual bindings, and whether the C++ code itself compiles (C87 and others), are left out."
  },
  {
   "property": "C101",
   "status": "partial",
   "theorems": [
    "Verif.C101_hidden_partial",
    "Verif.C101_style",
    "Verif.C101_ambiguous",
    "Verif.C101_view",
    "Verif.C101_ignored",
    "Verif.C101_run",
    "Verif.C101_accepted",
    "Verif.C101_shown"
   ],
   "note": "Everything but the visibility in views is proved. The styles in views only tell what the annotations of a context itself say (C101_style), so that only explicitly hidden contexts can be recognised (C101_hidden_partial); otherwise visible and hidden contexts look the same (C101_ambiguous). For the visibility in dumps see C64. The text of DOT files and of dumps of the AST is not modelled."
  },
  {
   "property": "C102",
   "status": "proved",
   "theorems": [
    "Verif.C102_expression",
    "Verif.C102_assignment",
    "Verif.C102_run",
    "Verif.C102_left",
    "Verif.C102_right",
    "Verif.C102_mirrored",
    "Verif.C102_hidden"
   ],
   "note": "The protocol for operators (Python Language Reference 3.3.1 and 3.3.8, `py::is_operator` returning NotImplemented) is a specification in Spec/Evaluate.lean; values, conversions and methods that are not for operators are parameters. C102_mirrored and C102_hidden show that the mirrored comparison and the condition on bases cannot be left out."
  },
  {
   "property": "C103",
   "status": "proved",
   "theorems": [
    "Verif.C103_read",
    "Verif.C103_assign",
    "Verif.C103_run"
   ],
   "note": "Characterisations for modules without clashes of names (NoClash, see C73 and C100). How pybind11 implements attributes is a specification in Spec/Access.lean. Enumerators are left out (C71)."
  },
  {
   "property": "C104",
   "status": "proved",
   "theorems": [
    "Verif.C104_equal",
    "Verif.C104_unhashable"
   ],
   "note": "pybind11 setting __hash__ to None when __eq__ is defined is part of the specification (Spec/Access.lean). Of the operators, only their names and the classes they are defined for matter."
  },
  {
   "property": "C105",
   "status": "partial",
   "theorems": [
    "Verif.C105_run",
    "Verif.C105_convert",
    "Verif.C105_rejected",
    "Verif.C105_annotated_partial",
    "Verif.C105_explicit"
   ],
   "note": "That the constructor which is called is annotated is false in general: an earlier constructor that takes the value without conversions is used instead, even if it is explicit (witness C105_explicit). Proved exactly otherwise. pybind11's implicitly_convertible and the type casters are described in Spec/Implicit and Spec/Call."
  },
  {
   "property": "C106",
   "status": "proved",
   "theorems": [
    "Verif.C106_call",
    "Verif.C106_dispatch",
    "Verif.C106_run",
    "Verif.C106_ordinary"
   ],
   "note": "pybind11's dispatcher for such functions is described in Spec/Variadic.lean; overloads with and without args and kwargs may be mixed. As in C80, no keyword argument of a method is called self. Functions with parameters after args are left out."
  }
 ]
}