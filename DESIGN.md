# genpybind: formal model in Lean 4 — design and trusted base

Subject: `kljohann/genpybind` at the pinned commit in `/repo` (C++, a clang-based
generator of pybind11 bindings).  The code is not built or run here; the model
is a reading of the source.  Every definition of the model cites the file and
lines it models.

## Layout

* `lean/Verif/Basic/*`   – characters, text literals, small list facts.
* `lean/Verif/Model/*`   – the model, one file per source file or function group.
* `lean/Verif/Spec/*`    – independent specifications (grammar, reachability,
  C++ string literal decoding, Python operator dispatch, abstract stores, ...).
  They do not use the model's helpers.
* `lean/Verif/Lemmas/*`  – helper lemmas.
* `lean/Verif/Props/*`   – the property theorems only, with `example`s showing
  that their hypotheses are satisfiable.
* `properties.jsonl` (claims), `MANIFEST.json` (claim -> theorem),
  `seeded/LOG.jsonl` (deliberately wrong models and what caught them).

## Trusted base

* Lean 4.33.0 kernel; axioms at most `propext`, `Classical.choice`, `Quot.sound`.
  No own axioms, no `sorry`, no `native_decide`/`bv_decide`.
* Faithfulness of the model to the code (citations on each definition).
* Assumed behaviour of libraries, stated where used: clang `CharInfo`
  classification, `raw_ostream::write_escaped`, `StringRef::getAsInteger/split`,
  `df_iterator`/`post_order` traversal, `std::priority_queue` (returns *some*
  maximal element), `DenseMap` (iteration order unspecified), `std::map` (sorted
  iteration), `llvm::sort` (some sorted permutation), clang name lookup (given as
  an input list of found declarations).

## Not modelled

* Clang itself: parsing, Sema, name lookup, template instantiation, pretty
  printing of types (`getFullyQualifiedName`), of template arguments and of the
  expressions `AttemptFullQualificationPrinter` leaves to its base class (as parts
  between sub-expressions, see Model/DefaultArgument.lean), signal handling. The file system and the registry of
  output files are modelled by their contract (Model/Tool.lean).
* The text of dumps of the AST, the text of graphs in DOT format (labels, descriptions, attributes and edges are
  modelled, Model/Inspect.lean), and the program that displays them.
* What clang instantiates for a default argument (an input of Model/Defaults.lean, which
  models src/instantiate_default_arguments.cpp).
* Severities of diagnostics other than whether they are errors, and locations other than the declaration they are
  attached to.
* The implementation of `llvm::cl`, `CommonOptionsParser` and CMake's commands: their documented behaviour is
  modelled for the options and arguments used (Model/Options.lean, Model/Build.lean); options provided by LLVM itself
  (`--help`) and CMake lists in arguments are left out. Compilation databases are functions from files to commands, and
  removing input files from the arguments after `--` is a function given by the environment (Model/Main.lean).
* pybind11 / CPython run time, except for the small dispatch specification used
  for operators, keyword arguments and `keep_alive` indices, and the registration of
  classes and enums when the generated module is imported (Spec/Import.lean) and the names
  of attributes (Spec/Names.lean), and the choice between overloads when functions are called
  (Spec/Call.lean, Spec/Variadic.lean), converted (Spec/Implicit.lean), operators are used (Spec/Evaluate.lean) or attributes are accessed
  (Spec/Access.lean). Left out there: compatibility of holders (see C97), attributes that
  exist in every module or class, what manual bindings define.

## Properties and plan

| Id | What is modelled | How it is proved |
|----|------------------|------------------|
| C01 | `Tokenizer` over lists of bytes, one-token lookahead | induction on remaining input; every token strictly shortens it; concatenation law |
| C02 | recursive-descent `Parser` on the tokenizer state | equivalence with an inductive grammar on token lists (soundness + completeness) |
| C03 | out-parameter vector + error result | prefix theorem by induction on the parse loop |
| C04 | `Annotation::print`, `LiteralValue::print` | printed text tokenizes to the expected tokens, then C02; negation witness for escaped strings |
| C05 | `getAsInteger` on 32 bits | positional value spec; induction on digits |
| C06 | `write_escaped` | decode after encode by induction on bytes, 256-entry table for single bytes |
| C07 | `makeValidIdentifier` | against a run-collapsing spec; idempotence |
| C08 | index-based in-place loop on a buffer with explicit out-of-bounds outcome | loop invariant `out <= lastValid <= in` and refinement to the functional version |
| C09 | `DiscriminateIdentifiers` | false: witness; partial: distinct when no base name has the shape of another one plus `_N` |
| C10, C11 | `LiteralValue` special members over an explicit heap with UB outcome | ownership invariant over operation sequences, refinement to an abstract store; negative witnesses |
| C12–C17 | `ArgumentsDispatcher`, all `processAnnotation` overloads, `AnnotationStorage` | case analysis per kind, folds over annotation lists |
| C18, C19, C38 | index lookup, `emitPolicies`, `emitParameters` | positions in pybind11's argument list; negation witnesses for static methods and `py::args` |
| C20–C22 | `LookupContextCollector` on a lexical declaration tree, `DeclContextGraphBuilder` | tree induction, unique-parent invariant, reachability |
| C23–C28 | df_iterator / post_order as explicit stack machines, the graph analyses as folds over them | DFS correctness (visits = reachable nodes, parent first), then equations on the unique parent |
| C29–C33 | `lexicographicalTopologicalSort` with an abstract priority queue | Kahn invariant; greedy uniqueness; negation witnesses |
| C34, C35, C54 | `emitModule` skeleton as lists of structured output lines | induction on the sorted list; division arithmetic |
| C36, C37, C40, C41, C46 | `RecordExposer`, `EnumExposer` on structured declarations | folds and case analysis |
| C39 | emitted lambda as an expression tree | against a specification of Python's binary operator dispatch |
| C42–C44 | inlining policy worklist, `emitType`, `FoundDecl` | closure/least fixpoint; path characterisation |
| C45 | pending queue / done set | generation argument for termination, closure |
| C47–C49 | argument adjusters on string lists | induction on arguments |
| C50, C55 | pipeline as a function from stage results to outcome | case analysis over stages |
| C51 | pragma handler on token streams | case analysis, induction over pragmas |
| C52 | stem + makeValidIdentifier | from C07 |
| C53 | alias processing loop of the graph builder | induction over aliases |
| C56–C58 | `handleDeclImpl` of all exposers | selection of statements from the output of a context |
| C59, C60 | operators collected for a class, `handleDeclImpl`, `emitOperator` | membership in the proposed declarations, C39 |
| C61, C62 | files of `emitModule`, executed by the import semantics of Spec/Import.lean | induction over the introducers: invariants of variables, registered types and names; then bodies |
| C63 | `AttemptFullQualificationPrinter` with its state, over expression trees; output as tokens | mutual induction against an inductive reading relation; inversions for the cases that fail |
| C65 | text of all files (`Stmt.emit`, `Line.emit`, `fileHeader`, ...) | a reader for the used subset of C++ (Spec/Code.lean), proved to invert the printer: induction over characters, arguments, statements, lines; assumptions about copied texts are reduced to those about the input |
| C64 | `GraphPrinter`, `dumpGraph` | induction on the steps of the traversal, C23, C26 |
| C66 | `emitParameters`, `emitPolicies`, `getDocstring` on the attributes stored for a declaration | where each statement of a context comes from (`stmt_origin`), then C14-C18 for the stored attributes |
| C67 | `Annotated*Decl::processAnnotation` for all kinds | frame lemma per handler (`effect_frames`), composition of "last one wins" and "accumulates" relations over the list |
| C68 | `emitIntroducer`, `emitType` in `emitModule` on whole runs | C55, C67 and the invariant of graph building: a context without stored attributes has no annotations |
| C69 | `runTool`, then the import semantics of Spec/Import.lean on the files it leaves | composition of C55, C61, C26; existence of objects by induction along the order |
| C70 | `GENPYBIND` macro: `stringize` ([cpp.stringize]), reading the literal, `parseAllTexts` | induction on tokens; a foreign token leaves an invalid lexeme or two adjacent words, which no annotation has |
| C71 | `executionsOf` (what importing executes, C61) per object: `exposeContext` over all contexts that refer to it | C24/C26 turn default visibility and pruning into `VisibleIn` and `Fills`; re-opened namespaces agree by induction on visibility; C41, C56–C59 per context |
| C72 | `handleTranslationUnit` and everything it calls, `Spec/Success.lean` for what is to be in order | C55 splits the errors of a run by stage; per stage: C29/C66 for annotations, C20/C34 for the graph, C51 for pragmas; emission by induction on parameters and the worklist, properties through C36; C71 turns what is emitted into what lookup finds |
| C73 | `definitions` of what importing executes (C61, C71), executed by pybind11's rules for names (Spec/Names.lean) | induction on the list of definitions from the right; order of overloads from the sorted declarations of C38 through all flatMaps of emission; names that are distinct in the source code (Spec/Distinct.lean) do not clash: every definition is traced to its declaration, and different declarations never yield the same definition |
| C74 | as C71, for `finalizeRecord`, `finalizeEnum`, converting constructors, stream operators and manual bindings | C36 for properties, given that accessors are unique (C72); C71's characterisation of contexts per kind of statement |
| C75 | two runs whose inputs differ by `found` (permuted), `pick` and `iterate` only | sorted lists with the same elements at each location are equal (stable sorting); analyses only use membership; C31 for the order of contexts; what is emitted depends on `found` through the sorted declarations only |
| C76 | any list of parameters in the order of the traversal, with the specializations that are instantiated for their default arguments | positions of the traversal; what is created only grows; induction over the derivation that a specialization is available; invariant for what is instantiated |
| C77 | all places that report a diagnostic, with their arguments; message templates and their formatting (Model/Messages.lean) | a reason per kind of diagnostic (Spec/Reasons.lean); viable prefixes of the annotation grammar for parse errors; invariants of graph building for first declarations and aliases; C23–C28, C36, C72 for the module |
| C78 | whole runs (`runTool`) for two translation units, one of which contains further declarations | extension of lists and trees, what is irrelevant (Spec/Additions.lean); the graph gains contexts that are not visible (`Wider`), storages differ by fresh attributes of declarations that are not exposed (`Alike`), the rest is equal |
| C79 | several runs (`runTool`, C69), then the import semantics of Spec/Import.lean with a table of types shared by all modules (Spec/Modules.lean) | simulation: importing after other modules either proceeds as on its own or stops at a type that is already registered; induction over the list of modules |
| C80 | emitted `.def`/`init` statements with their arguments (C66, C71, C73), then pybind11's dispatcher: `argument_record`s, positional, keyword and default arguments, the two passes over overloads (Spec/Call.lean) | induction over arguments (positional part, keyword part) gives the values of all parameters; the filter of the second pass is shown to be harmless; induction over overloads; origin of every overload of an attribute by an invariant of the import |
| C81 | as C35, C50, C61 (pairs of runs) | the number of the file is monotone in the index of the context, so that collecting contexts by file gives back the list (induction over the number of files); lines of definitions have no effect on the module definition; messages do not depend on the number of files by induction over the worklist |
| C82 | src/tool.cpp:69-137, :440-472 with LLVM's reading of options (Model/Options.lean) | strong induction over the arguments: reading is the inverse of the relation that says how settings are written (Spec/Options.lean) |
| C83 | tools/genpybind.cmake (Model/Build.lean), then C82 and C81 | induction over the arguments of the call with the keyword that is being read; decimal numbers are injective, so that files are distinct |
| C84 | src/tool.cpp:492-500 (Model/Command.lean), C47 and C49 | each adjuster is a filter on the parts of a command; induction over parts with the last kept argument as state; for all commands membership and the last two options |
| C85 | C15–C34, C55 (Spec/Reannotate.lean: pairs of runs) | simulation relation between both runs, preserved by collecting, building, the analyses (relational version of the depth-first search) and by each declaration proposed to an exposer; maps of properties agree outside of the names concerned |
| C86 | src/tool.cpp:440-518 as a whole (Model/Main.lean): databases, `--extra-arg`, the loop over commands with the module name kept | closed form of the loop by induction; outputs of a successful unit are replaced whatever they were before; C84 for the extended command |
| C87 | `emitQuotedArguments`, src/tool.cpp:158-175 | the reader is a relation on texts; determinism, and reading back by induction over arguments; for the converse, literals without spaces are longer than what they denote |
| C88 | the annotation handlers of src/annotated_decl.cpp, `runTool` | Spec/Interchange.lean: relation between lists of annotations; a handler is described by the slot of the attributes it changes (Lemmas/Steady.lean, Lemmas/Commute.lean), actions on different slots commute; congruence of every stage in what the attributes of a declaration parse to (Lemmas/Respell.lean) |
| C89 | `runTool`, `hideNamespaces`, `emitModule` | Spec/ModuleName.lean: relation between two results; the two runs are compared stage by stage |
| C90 | `runTool` and everything that uses locations or `getBriefText` | Spec/Layout.lean: relation between two results that erases documentation from statements; congruence of every stage (Lemmas/Layout.lean), sorting by locations in the same order gives the same list |
| C91 | `exposeContext`, `foundDecl`, `deriveEffectiveVisibility`, `buildGraph` | Spec/Usable.lean: access of declarations and everything around them; induction on the place of a context in the graph (Lemmas/Usable.lean), then all kinds of statements |
| C92 | `exposeContext`, `deriveEffectiveVisibility`, `pruneGraph`, `emitPostamble`, `runTool` | Spec/OptIn.lean: `Requested`, from annotations, scopes and lookup only; induction on effective visibility, then all kinds of statements; for code without annotations the text of the files |
| C93 | `emittedBases`, `createFromAnnotations`, `Exposer.introducer`, `emitModule`, whole runs | Spec/Subclass.lean: `issubclass` is the closure of the base lists in the text, compared with public inheritance paths; induction on paths, skipping inlined classes |
| C94 | `expandMacros`, `readArguments`, `replaceParts`, `toolMacros`, `plainMacros` (public/genpybind/genpybind.h) | Spec/Preprocessor.lean: source code as a tree of tokens, groups and uses of the macros, with the expected result by recursion on the tree; expansion is monotone in fuel, induction on the tree with arbitrary text after it |
| C95 | `emittedBases`, `exposeContext`, `emitModule`, whole runs | Spec/Lookup.lean: C++ member lookup as a relation over the hierarchy, Python's as the first hit in any order that lists classes before their bases; C93 relates the hierarchies, C71 the members |
| C96 | `buildGraph`, `pruneGraph`, `deriveEffectiveVisibility`, `Storage.insert`, whole runs | Spec/Source.lean: scopes, stated visibility and membership in a module over declarations and their own annotations only; order of declarations and additional annotations as relations between sources |
| C97 | `Exposer.introducer`, `Exposer.contextType`, `emittedBases`, whole runs | Spec/Holder.lean: the check pybind11 makes for each base when a class is created (custom or default holder), as a walk over the lines of the module definition |
| C98 | `emittedBases`, `Exposer.contextType`, `emitModule`, whole runs | Spec/Mro.lean: Python's method resolution orders (C3, as in CPython's `pmerge`), computed class by class over the lines of the module definition; `pybind11_object` and `object`, last for every class, are left out. Lists that agree with a common order can be merged (Lemmas/MroAgree.lean); for joined hierarchies such an order is built along the shared classes |
| C99 | `emitModule`, `emitParameters`, `handleDeclGeneric`, `handleDeclEnum`, `handleDeclRecord`, whole runs | Spec/Convert.lean: the types that pybind11 looks up while a statement is executed (`converted`); the types needed by the value of a C++ expression are a parameter (`needs`), as are the types registered by other modules |
| C100 | whole runs | Spec/Working.lean: a module can be imported if no step described in Spec/Import, Holder, Mro, Convert and Names fails (`Starts`, `Works`); conditions on the source code that suffice (`Fit`) |
| C101 | traits for DOT output, `inspectGraph`, stages of `HandleTranslationUnit` (Model/Debug.lean), command line | attributes read back by a reader for styles (Spec/Debug.lean); C82 for arguments inserted into a command line; case analysis over stages |
| C102 | whole runs, statements for operators | Python's protocol for binary operators and augmented assignment (Spec/Evaluate.lean): methods that are tried, overloads for two operands, default `__ne__`; expectations in terms of operators of C++ (`Performs`, `Meant`); reduced to C71-like contents of classes, C73 and the tables of C39 |
| C103 | whole runs, statements for members, properties and attributes | descriptors of pybind11 (Spec/Access.lean); reduced to the contents of objects (C71, C74) and names (C73) |
| C104 | statements for operators | `__hash__` as set by pybind11 (Spec/Access.lean), results of comparisons (C102) |
| C105 | whole runs, statements for constructors and conversions | `implicitly_convertible` of pybind11 (Spec/Implicit.lean); reduced to calls (C80), contents of objects (C71, C74) and names (C73) |
| C106 | emitted `.def`/`init` statements of functions whose last parameters are `args` or `kwargs`, then pybind11's dispatcher with its two passes over overloads (Spec/Variadic.lean) | the result is shown to be the one for the same function without these parameters (C80), called with the arguments that are meant for the others; induction over arguments for what is left; the two passes as in C80. Parameters after `args` are left out |

## Disagreements between code and documentation / expectation

Each entry names the theorem with the concrete witness.

* C04: texts whose string arguments need escapes do not survive print and
  re-parse, because the tokenizer never undoes escapes
  (`C04_not_identity_on_escapes`).
* C09: context names can collide, e.g. for `a::b`, `a_b` and `a_b_2`
  (`C09_names_can_collide`); they are distinct exactly under the condition of
  `C09_distinct_iff_partial`.
* C10: `v.setString(v.getString())` reads freed memory
  (`C10_self_alias_uses_freed`).
* C11: move-assigning a string value into a non-string one leaves the source with
  kind `String` and a null pointer (`C11_moved_from_unreadable`).
* C13: a misplaced annotation on a type alias without usable target reports the
  alias error in addition (example after `C13_shape`, clause `extra` of
  `RejectedWith`).
* C14: README.md says that any use of the macro implies `visible`; the code
  requires non-empty text (`C14_empty_annotation_not_visible`).
* C18: for static methods `keep_alive` indices are off by one, and `this` is
  accepted (`C18_static_wrong`, `C18_static_off_by_one`).
* C19: after a `pybind11::args` parameter, `noconvert`/`required` are applied to
  the wrong argument or lost (`C19_lost_after_args`, `C19_flags_by_position`).
* C38: `args` after `kwargs` is not diagnosed (`C38_args_after_kwargs_accepted`).
* C22: a class defined out of line in a reserved namespace or `std`, e.g.
  `struct GENPYBIND(visible) __ns::X {};`, becomes a node that cannot be reached;
  it is dropped without error or warning (`C22_dropped_silently`).
* C27: a visible type in a hidden class is itself not reported if it has no visible
  members (`C27_itself_not_reported`); the hidden class is.
* C31: contexts at the same source location (implicit specializations of one class
  template) are emitted in an order that depends on the iteration order of a hash
  map keyed by addresses (`C31_not_determined`).
* C32: the context reported for a dependency cycle can be one that only depends on
  the cycle (`C32_not_on_cycle`).
* C53: a later `encourage` alias overrides the visibility transferred by
  `expose_here`, an earlier one does not (`C53_encourage_overrides`,
  `C53_order_matters`).
* C33: if an inlined base is not exposed itself, its exposed bases are listed for
  the class but need not be introduced before it (`C33_base_after_derived`).
* C42: a base is not inlined if the first path to it goes through a virtual base
  inherited privately, although a later path is public
  (`C42_virtual_base_missed`).
* C43: a base reached through two inlined bases is listed twice in
  `pybind11::class_<...>` (`C43_listed_twice`).
* C40: `!`, `co_await` and compound assignments whose first operand is not of the
  class are emitted with an empty name (`C40_nameless`).
* C37: values of an unscoped enum without annotations that is visible by default
  are not exported (`C37_unannotated`).
* C56: an operator declared in a visible namespace is exposed a second time as a
  function of the namespace, e.g. named `operator_` (`C56_free_operator`).
* C58: `readonly` is accepted for variables of namespaces but has no effect
  (`C58_readonly_ignored`; the code has a TODO comment about this).
* C28: only the annotations of the first declaration of a namespace count.  If it has
  none and contains no annotated declarations, this is not diagnosed, and a later
  declaration annotated with `module` does not result in a submodule
  (`C28_reopened`, `C28_reopened_run`).
* C46: a `postamble` binding is written even if its variable is `hidden`
  (`C46_hidden_postamble`); `postamble` without `manual` is accepted and exposes the
  lambda as an attribute (`C46_postamble_alone`).
* C45: an annotated specialization that is implicitly instantiated only while another
  one is instantiated is missed (`C45_missed`); an alias to a specialization of a
  template that is not defined leads to undefined behaviour (`C45_undefined`); an
  endless chain of aliases does not terminate (`C45_endless`).
* C47: `-std=c11` is turned into `-std=c11++17` (`C47_c_standard`); a later standard
  given as `--std=c++20` is overridden (`C47_long_std`); `-ansi` and `--language=` still
  select other standards and languages (`C47_ansi`, `C47_long_language`).
* C48: `-Xclang -std=c++14` leaves `-Xclang` behind, which takes the next argument
  (`C48_dangling`); adjusting is not idempotent for `-std=c+` (`C48_not_idempotent`).
* C49: an input named `-resource-dir` after `--` counts as a flag (`C49_positional`).
* C51: the header of a pragma with trailing tokens is included although the pragma is
  diagnosed (`C51_trailing`); at the end of a file without newline a trailing token is
  not diagnosed (`C51_end_of_file`).
* C50: if an error is reported before the outputs are created (e.g. for annotations),
  files written by an earlier run are left in place (`C50_stale`). Naming the same
  output twice loses parts of the module without an error (`C50_duplicate_outputs`).
* C60: `operator<<` whose left operand refers to a class without a name dereferences a
  null pointer (`C60_unnamed`).
* C61: two visible classes with the same name in transparent scopes (e.g. two visible
  namespaces without `module`) are not diagnosed, but importing the module fails
  (`C61_name_taken`).
* C52: the module name is empty if the file name consists of an extension only
  (`C52_hidden_file`); an explicit name is not checked (`C52_explicit`).
* C63: `T{...}` for aggregates and scalars is printed with the type repeated, e.g.
  `intint{3}` (`C63_type_twice`), similarly for constructors that take a
  `std::initializer_list` (`C63_initializer_list`); parameters of lambda expressions
  are looked up in the global namespace (`C63_local`); members of anonymous structs
  are printed with an empty name (`C63_anonymous`); qualified names suppress dynamic
  dispatch (`C63_virtual`); for `A a = 5` the default value is a Python integer
  (`C63_conversion`).
* C65: a member `operator co_await` is exposed under an empty name as
  `co_awaitlhs` (`C65_co_await`).  Holder types, return value policies and names of
  included files are copied verbatim; unbalanced brackets in them would corrupt the
  output (excluded by the assumptions `GivenTexts` and by the condition on includes).
* C71: specializations of a function template annotated as visible are not exposed if
  their namespace is not visible and contains nothing else that is, as the template
  itself carries no annotations when namespaces are pruned (`C71_template_lost`). If
  the first declaration of a namespace has no annotations but a later one is visible,
  unannotated functions are exposed or not depending on whether there are annotated
  ones (`C71_bare_first`). Neither is diagnosed.
* C72: what is checked depends on pruning and visibility: the annotations of members are read
  for contexts that are kept and not hidden only, while those of classes, enums, namespaces and
  aliases are checked everywhere. Names of parameters in `noconvert`, `required` and
  `keep_alive` are checked, unknown names in `hide_base` and `inline_base` only lead to warnings.
* C73: clashes of Python names are not diagnosed. A static and an instance method with the same
  Python name, or a function with the name of a class, lead to an ImportError
  (`C73_static_undiagnosed`, `C73_class_undiagnosed`); a property with the name of a method
  silently replaces it (`C73_replaced`).
* C74: `export_values` depends on annotations of the enum itself: an unscoped enum that is exposed
  without any annotation of its own does not export its enumerators (`C74_exports`,
  `C37_values_partial`).
* C75: the result of a run depends on addresses if declarations share a location. Constructors
  provided by the compiler are all located at the class, so their order in the generated code (and
  which overload is tried first) is left to `llvm::sort`, which is not stable (`C75_ties`; for
  contexts `C31_not_determined`). In the model sorting keeps the order in which they are found.
* C76: template specializations are visited with their template. If one is instantiated for a default
  argument that is visited later, its own default arguments are never instantiated, and exposing it
  calls `getDefaultArg` on one that is uninstantiated: a failed assertion of clang; without
  assertions, the expression of the template, with template parameters in it, is printed
  (`C76_missed`; src/instantiate_default_arguments.cpp:21-37, src/expose.cpp:357).
* C77: two diagnostics are less precise than they could be. "'expose_here' annotations form a cycle"
  is used for all dependency cycles and can be attached to a context that only depends on one
  (`C32_not_on_cycle`); an alias is nevertheless involved (`C77_cycle_moved`). The note "Previously
  exposed here" is given the name of the type, but does not show it. For `<<` with a pointer to a type
  without a name there is no diagnostic but a failed assertion.
* C78: adding code without annotations can change the module. A namespace that is annotated as
  `visible` in one header and opened again without annotations in another one exposes the functions
  and variables of the second part (lookup looks at the whole namespace), but not its types (these
  are placed in the second part, which is not visible) – `C78_reopened`.
* C79: README.md says that all declarations nested in a namespace with `only_expose_in` are only
  exposed in the modules listed. A part of the namespace that is opened without annotations, inside of
  a visible namespace, is exposed in all modules, without a diagnostic; importing two of them then
  fails (`C79_leak`). A class whose base is exposed in another module does not refer to this base, even
  if the other module has been imported (`C79_base_lost`; src/expose.cpp:1234-1249).
* C80: the default argument of a parameter is converted to a Python object when the module is imported,
  and back when the argument is omitted. `noconvert` and `required` apply to it as well: with
  `noconvert(x)` a function with `double x = 1` cannot be called without `x`
  (`C80_noconvert_default`), with `required(p)` one with `T *p = nullptr` cannot be called without `p`
  (`C80_required_default`). The tool does not report either. A parameter of a method called `self`
  cannot be given by name (`C80_self`).
* C83: the comment above `genpybind_add_module` shows the arguments for `pybind11_add_module` last, after
  `[LINK_LIBRARIES <targets>...] [NUM_BINDING_FILES <count>]`. Both are declared as keywords with several values
  (tools/genpybind.cmake:23), so that sources in this place are taken for further values: the configuration fails,
  because `2;a.cpp - 1` is no expression (`C83_swallowed`), or the sources are not compiled (`C83_not_compiled`). All uses
  in the repository have `HEADER`, which takes one value, in between.
* C84: the adjusters for output files and the like also look at the files after `--`, so that a header called
  `-options.h` is lost (`C84_lost_file`). This is clang's tooling library, not code of the project.
* C85: hiding the last visible member of a namespace also removes the module created for the namespace
  (`C85_empty_namespace`); this is intended (src/decl_context_graph_processing.cpp:168), but means that code in Python
  that uses the module fails to import it.
* C86: if there are several compilation commands for a header and a later one is rejected because of its annotations,
  the code for an earlier one stays in the output files although the tool fails (`C86_left_over`); with output to `-`
  the code for each command is printed (`C86_printed`).
* C87: `--verbose` does not quote arguments that are empty or that contain quotes but no spaces (`C87_ambiguous`).
* C91: the tool does not check access of types that are marked as visible (`C91_private_type`) or named by annotated
  aliases (`C91_private_alias`), refers to members made accessible by a using-declaration by their name in the base
  class (`C91_using`), and generates code for bit-fields (`C91_bit_field`), deleted functions annotated with `getter_for`
  or `setter_for` (`C91_deleted_getter`) and functions with an ellipsis (`C91_variadic`), all of which does not compile.
  There is no diagnostic (`C91_awkward_run`). Bit-fields, references, ellipses and qualifiers are not part of the model's
  input, as the tool does not look at them: they are given by `Spec.Traits`.
* C93: if `D` derives publicly from `H` and `H` from `B`, and only `B` and `D` are exposed, `D` is not a subclass of
  `B` in Python (`C93_gap`): `maybe_emit_bases` looks at the bases of a base only if the latter is inlined. Objects of
  type `D` cannot be passed to functions that take a `B &`, although C++ allows it, and nothing is reported.
* C94: words in annotations are subject to macro expansion because `GENPYBIND` passes its arguments on to another macro:
  after `#define visible hidden`, `GENPYBIND(visible)` hides a declaration (`C94_expanded`).
* C95: a member of a derived class hides the functions of a base with the same name in C++ even if it is private, hidden by
  an annotation or exposed under another name. In Python the functions of the base are found then, without a diagnostic
  (`C95_private`, `C95_hidden`, `C95_renamed`).
* C96: which classes are exposed does not depend on the order of declarations, except if a class has got both an alias with
  `expose_here` and one with `encourage`: the one that comes last decides whether it is visible (`C96_mixed`, see C53).
* C97: a class with `holder_type` and a base without it (or the other way around) are accepted without any diagnostic, but the
  module cannot be imported (`C97_mismatch`).
* C98: a class that derives from `B` and from a class derived from `B`, in this order, is accepted without any diagnostic, but
  there is no method resolution order for it and the module cannot be imported (`C98_order`). The same is true for a base
  that is listed twice because it is reached through two inlined bases (`C98_twice`, see C43).
* C99: a default argument or constant whose type is not exposed is accepted without any diagnostic, but the module cannot be
  imported unless another module has registered the type (`C99_hidden`).
* C101: `--inspect-graph=visibility` is described as showing the visibility of all nodes, but the styles only tell what the
  annotations of a context itself say: a private class, a class that is visible because its namespace is, and a class annotated
  with `visible` are shown in the same way (`C101_ambiguous`). `--dump-graph` shows the effective visibility (C64).
* C102: `s > 3` evaluates `operator<(int, S)` instead of `operator>(S, int)` if the former is declared first, since both become
  overloads of `__gt__` (`C102_mirrored`). A derived class with its own operator hides free operators of the same symbol for
  its bases in Python, but not in C++ (`C102_hidden`).
* C105: if a value is converted implicitly, the constructor that is called need not be the one annotated with
  `implicit_conversion`: pybind11 calls the class, and an earlier constructor that takes the value without conversions is
  preferred. An explicit constructor that takes a reference to a base is used this way for instances of a derived class
  (`C105_explicit`).
