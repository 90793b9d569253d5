{"id": "C01", "title": "Tokenizing an annotation text is total and lossless", "statement": "For every byte string given as the text of a GENPYBIND annotation, tokenizing terminates, every token before the end marker consumes at least one byte, and the token texts interleaved with the skipped horizontal whitespace reproduce the input byte for byte.", "quantifier": "every annotation text (any bytes, any length)", "why_tests_cant": "Texts are unbounded; a unit test samples a few token sequences.", "anchors": ["src/annotations/parser.cpp:Tokenizer::tokenize", "src/annotations/parser.cpp:tokenizeStringLiteral", "src/annotations/parser.cpp:tokenizeNumberLiteral", "src/annotations/parser.cpp:tokenizeIdentifier", "include/genpybind/annotations/parser.h:Tokenizer"]}
{"id": "C02", "title": "The annotation parser accepts exactly the documented comma-separated grammar", "statement": "Parsing an annotation text succeeds if and only if its token sequence is a (possibly empty, possibly trailing-comma) comma separated list of known annotation names, each optionally followed by a parenthesised comma separated list of values; on success the returned annotations are exactly the ones the grammar derivation denotes, in order.", "quantifier": "every token sequence, hence every annotation text", "why_tests_cant": "Both directions quantify over an infinite language.", "anchors": ["src/annotations/parser.cpp:Parser::parseAnnotations", "src/annotations/parser.cpp:parseAnnotationArguments", "src/annotations/parser.cpp:parseAnnotationValue", "src/annotations/parser.cpp:skipComma"]}
{"id": "C03", "title": "A malformed annotation text never corrupts annotations parsed before", "statement": "Whatever was in the result list before parsing a text is still there, unchanged and in front, after parsing, whether or not parsing fails; a failure appends only annotations that were completely parsed before the offending token.", "quantifier": "every prior result list and every annotation text, well-formed or not", "why_tests_cant": "The failing position can be anywhere in an unbounded text.", "anchors": ["src/annotations/parser.cpp:Parser::parseAnnotations", "src/annotated_decl.cpp:parseAnnotations"]}
{"id": "C04", "title": "Printing annotations and parsing them back is the identity", "statement": "Printing any list of annotations (joined with commas) and parsing the result yields the same list, for all kinds and all argument values whose strings need no escaping; for strings that do need escaping the round trip returns the escaped text, not the original.", "quantifier": "every list of annotations with arguments of any kind, number and length", "why_tests_cant": "The domain of annotations and strings is infinite.", "anchors": ["src/annotations/annotation.cpp:Annotation::print", "src/annotations/literal_value.cpp:LiteralValue::print", "src/annotations/parser.cpp:Parser::parseAnnotations", "include/genpybind/annotations/annotations.def"]}
{"id": "C05", "title": "Integer arguments are exact or rejected, never truncated", "statement": "A digit sequence in an annotation yields exactly its decimal value if that value fits 32 bits and is otherwise rejected as an invalid token; no wrapped value is ever produced.", "quantifier": "every digit sequence of any length, followed by any text", "why_tests_cant": "Overflow behaviour must hold for all lengths and values.", "anchors": ["src/annotations/parser.cpp:tokenizeNumberLiteral"]}
{"id": "C06", "title": "Every string emitted into generated code is a self-contained literal that decodes to the original bytes", "statement": "For every docstring, spelling or argument name, the emitted double-quoted literal contains no unescaped quote or line break, so it cannot terminate early or swallow following code, and reading it by the C++ string literal rules gives back exactly the original bytes, whatever text follows.", "quantifier": "every byte string and every following text", "why_tests_cant": "Docstrings are arbitrary user text.", "anchors": ["src/expose.cpp:emitStringLiteral", "src/annotations/literal_value.cpp:LiteralValue::print"]}
{"id": "C07", "title": "Derived names are valid identifiers", "statement": "Turning any non-empty text into an identifier gives a valid C++ identifier, leaves texts that already are identifiers unchanged, is idempotent, and never makes the text longer; only the empty text stays empty.", "quantifier": "every byte string", "why_tests_cant": "Quantifies over all strings (template argument lists, file stems, operator names).", "anchors": ["src/string_utils.cpp:makeValidIdentifier", "src/string_utils.cpp:isValidIdentifier"]}
{"id": "C08", "title": "In-place identifier conversion never reads or writes out of bounds nor overwrites unread input", "statement": "While a name buffer is rewritten in place into an identifier, every read and write is inside the buffer, the write position never passes the read position, and the result equals the one obtained without sharing the buffer.", "quantifier": "every buffer content and every intermediate loop state", "why_tests_cant": "Aliasing hazards depend on all prefixes and run lengths.", "anchors": ["src/string_utils.cpp:makeValidIdentifier"]}
{"id": "C09", "title": "Generated context variable names are pairwise distinct", "statement": "Different declaration contexts never get the same generated variable / expose_ function name, so the generated code does not redefine a function.", "quantifier": "every sequence of qualified names exposed by a translation unit", "why_tests_cant": "Collisions depend on the whole set of user chosen names.", "anchors": ["src/expose.cpp:DiscriminateIdentifiers::discriminate", "src/expose.cpp:TranslationUnitExposer::emitModule"]}
{"id": "C10", "title": "Literal values own their storage exactly once", "statement": "For every sequence of constructions, copies, moves, assignments (including self-assignment), setters and destructions of literal values, no string is freed twice, used after being freed, or leaked once all values are destroyed.", "quantifier": "every finite history of operations on any number of values", "why_tests_cant": "Ownership bugs depend on operation interleavings of unbounded length.", "anchors": ["src/annotations/literal_value.cpp", "include/genpybind/annotations/literal_value.h"]}
{"id": "C11", "title": "Literal values behave like immutable values under copy and move", "statement": "After any history, reading a value returns what was last stored into it (through copies and moves); a moved-from value can still be read safely.", "quantifier": "every finite history of operations on any number of values", "why_tests_cant": "Same: unbounded histories; the moved-from state is only reachable through particular operation pairs.", "anchors": ["src/annotations/literal_value.cpp"]}
{"id": "C12", "title": "No annotation is silently ignored", "statement": "For every declaration and every annotation parsed from it, either the annotation is accepted by a handler for that kind of declaration or at least one error diagnostic is reported for that declaration.", "quantifier": "every declaration kind, every annotation kind and argument list, every earlier state of the declaration's attributes", "why_tests_cant": "The product of declaration kinds, annotation kinds and argument lists is infinite.", "anchors": ["src/annotated_decl.cpp:AnnotationStorage::insert", "src/annotated_decl.cpp:processAnnotation", "src/annotated_decl.cpp:ArgumentsDispatcher"]}
{"id": "C13", "title": "Annotations take effect exactly for their documented argument lists", "statement": "Each annotation kind is accepted on a declaration if and only if the number and kinds of its arguments match one of its documented forms (and its side conditions hold); otherwise exactly one wrong-type or wrong-count error is reported and the attributes stay as they were.", "quantifier": "every annotation kind and every argument list of any length", "why_tests_cant": "Argument lists are unbounded.", "anchors": ["src/annotated_decl.cpp:ArgumentsDispatcher", "src/annotated_decl.cpp:processAnnotation"]}
{"id": "C14", "title": "The last visibility annotation wins and annotated declarations default to visible", "statement": "After processing a declaration's annotations its explicit visibility equals the one given by its last visible/hidden annotation; without one it is `visible` exactly if the declaration is not a namespace and has at least one non-empty annotation, and unspecified otherwise.", "quantifier": "every sequence of annotation texts on a declaration", "why_tests_cant": "Sequences of annotations are unbounded.", "anchors": ["src/annotated_decl.cpp:AnnotationStorage::insert", "src/annotated_decl.cpp:hasAnnotations", "src/annotated_decl.cpp:processAnnotation(NamedDeclAttrs)"]}
{"id": "C15", "title": "Custom spellings are always valid identifiers", "statement": "The spelling recorded for a declaration is empty (use the C++ name) or a valid identifier, namely the last valid name given by expose_as or module; an invalid name is reported as an error.", "quantifier": "every sequence of annotations on a declaration", "why_tests_cant": "Unbounded sequences and arbitrary strings.", "anchors": ["src/annotated_decl.cpp:processAnnotation(NamedDeclAttrs)", "src/string_utils.cpp:isValidIdentifier"]}
{"id": "C16", "title": "Annotation processing is idempotent and local", "statement": "Once a declaration's annotations have been processed, asking for them to be processed again changes nothing and reports nothing, and processing one declaration never alters the attributes of another.", "quantifier": "every storage content, every declaration, every history of insertions", "why_tests_cant": "History-dependent.", "anchors": ["src/annotated_decl.cpp:AnnotationStorage::insert", "include/genpybind/annotated_decl.h:AnnotationStorage"]}
{"id": "C17", "title": "encourage and expose_here conflict is reported in any order", "statement": "If a type alias carries both encourage and expose_here, in whatever order, repetition and mixture with other annotations, a conflict error is reported; if it carries at most one of them, none is.", "quantifier": "every sequence of annotations on a type alias", "why_tests_cant": "Order and repetition are unbounded.", "anchors": ["src/annotated_decl.cpp:processAnnotation(TypedefNameDeclAttrs)"]}
{"id": "C18", "title": "keep_alive names the patient and nurse pybind11 will actually use", "statement": "For keep_alive(a, b) the emitted indices are the positions at which pybind11 sees the return value, the implicit object and the parameters with those names; unknown names are errors.", "quantifier": "every function declaration (free, member, static, constructor) with any parameter list", "why_tests_cant": "Parameter lists are unbounded and combine with the declaration kind.", "anchors": ["src/annotated_decl.cpp:processAnnotation(FunctionDeclAttrs)", "src/expose.cpp:emitPolicies"]}
{"id": "C19", "title": "noconvert and required apply to exactly the named parameters", "statement": "A parameter's emitted pybind11::arg carries .noconvert() (.none(false)) if and only if that parameter was named in a noconvert (required) annotation.", "quantifier": "every parameter list, including pybind11::args / kwargs parameters, and every annotation list", "why_tests_cant": "Index bookkeeping must agree for all parameter lists.", "anchors": ["src/annotated_decl.cpp:make_parameter_indices_lookup", "src/expose.cpp:emitParameters"]}
{"id": "C20", "title": "Re-opened namespaces agree on their annotations", "statement": "If no error is reported, then all re-declarations of a namespace that are annotated or contain annotated declarations carry equal attributes.", "quantifier": "every translation unit, any number of re-openings in any order", "why_tests_cant": "Depends on all pairs of redeclarations.", "anchors": ["include/genpybind/lookup_context_collector.h:TraverseNamespaceDecl", "include/genpybind/lookup_context_collector.h:errorIfAnnotationsDoNotMatchFirstDecl", "src/annotated_decl.cpp:AnnotationStorage::equal"]}
{"id": "C21", "title": "Every declaration context has exactly one place in the graph", "statement": "In the built graph, every context other than the translation unit has exactly one parent: the context of its expose_here alias if there is one, else its semantic parent. A second expose_here for the same type is reported and does not add a second place.", "quantifier": "every translation unit", "why_tests_cant": "Depends on all aliases and contexts.", "anchors": ["src/decl_context_graph_builder.cpp:buildGraph", "src/decl_context_graph_builder.cpp:addEdgeForExposeHereAlias"]}
{"id": "C22", "title": "expose_here cycles are reported exactly when a context would become unreachable", "statement": "The cycle error is reported if and only if some declaration context cannot be reached from the translation unit; hence without error nothing is silently dropped from the graph.", "quantifier": "every translation unit and every placement of expose_here aliases", "why_tests_cant": "Graph-theoretic; cycles can have any length.", "anchors": ["src/decl_context_graph_processing.cpp:reportExposeHereCycles", "src/decl_context_graph_processing.cpp:reachableDeclContexts", "src/decl_context_graph_builder.cpp:buildGraph"]}
{"id": "C23", "title": "Effective visibility is inherited along the exposure path", "statement": "A context is effectively visible iff its explicit visibility says so, or it has none, is not private/protected, and the context it is exposed in is effectively visible; the translation unit is hidden by default. Every reachable context gets exactly one value.", "quantifier": "every declaration context graph, every annotation of its nodes", "why_tests_cant": "Depth of nesting is unbounded.", "anchors": ["src/decl_context_graph_processing.cpp:deriveEffectiveVisibility"]}
{"id": "C24", "title": "only_expose_in hides exactly the subtree of namespaces meant for other modules", "statement": "After applying only_expose_in, a context is hidden if it lies in (or is) a namespace whose only_expose_in list is non-empty and does not mention the current module; every other context keeps its visibility and its membership among contexts with visible declarations.", "quantifier": "every graph, every annotation, every module name", "why_tests_cant": "Nesting, siblings and re-entry of the traversal are unbounded.", "anchors": ["src/decl_context_graph_processing.cpp:hideNamespacesBasedOnExposeInAnnotation"]}
{"id": "C25", "title": "A context is recognised as containing something visible exactly when it does", "statement": "The set of contexts considered to contain visible declarations consists of the contexts that directly contain a visible declaration, or have a visible type as child, or a child namespace in the set.", "quantifier": "every graph", "why_tests_cant": "Recursive over unbounded depth.", "anchors": ["src/decl_context_graph_processing.cpp:declContextsWithVisibleNamedDecls"]}
{"id": "C26", "title": "Exactly the visibly reachable types are exposed", "statement": "After pruning, a class or enum is part of the generated module if and only if it and all enclosing classes (along the exposure path) are effectively visible.", "quantifier": "every graph and visibility assignment", "why_tests_cant": "Unbounded nesting; interplay of two analyses.", "anchors": ["src/decl_context_graph_processing.cpp:pruneGraph", "src/decl_context_graph_processing.cpp:declContextsWithVisibleNamedDecls"]}
{"id": "C27", "title": "Visible types that cannot be exposed are warned about", "statement": "Every effectively visible context that was reachable before pruning is either part of the pruned graph or reported as unreachable.", "quantifier": "every graph and visibility assignment", "why_tests_cant": "Quantifies over all contexts of all graphs.", "anchors": ["src/decl_context_graph_processing.cpp:reportUnreachableVisibleDeclContexts", "src/decl_context_graph_processing.cpp:pruneGraph"]}
{"id": "C28", "title": "Each context is attached to the nearest enclosing class or module", "statement": "Evaluating the emitted introducers, each exposed class, enum or submodule is created inside the Python object of its nearest ancestor (along the exposure path) that is a class, enum or namespace marked `module`, and inside the root module if there is none.", "quantifier": "every pruned graph", "why_tests_cant": "Unbounded nesting of namespaces.", "anchors": ["src/decl_context_graph_processing.cpp:findEnclosingScopes", "src/expose.cpp:emitIntroducer", "src/expose.cpp:TranslationUnitExposer::emitModule"]}
{"id": "C29", "title": "Contexts are emitted in dependency order, each exactly once", "statement": "If ordering succeeds the result lists every context of the graph exactly once, and each context comes after its enclosing scope and after its directly listed exposed public bases.", "quantifier": "every graph, enclosing-scope map and base relation; every iteration order of the node container", "why_tests_cant": "Topological sorting over arbitrary graphs.", "anchors": ["src/decl_context_graph_processing.cpp:lexicographicalTopologicalSort", "src/decl_context_graph_processing.cpp:declContextsSortedByDependencies"]}
{"id": "C30", "title": "Dependency cycles are detected exactly", "statement": "Ordering reports a cycle if and only if the dependency relation (enclosing scope, exposed public base) is cyclic; then nothing is emitted.", "quantifier": "every graph", "why_tests_cant": "Cycles of any length.", "anchors": ["src/decl_context_graph_processing.cpp:declContextsSortedByDependencies", "src/expose.cpp:TranslationUnitExposer::emitModule"]}
{"id": "C31", "title": "Output order is deterministic", "statement": "The emitted order is the lexicographically smallest dependency-respecting order by source position; it does not depend on the iteration order of hash containers.", "quantifier": "every graph, every permutation of the node container, every priority queue implementation", "why_tests_cant": "Hash order is address dependent; tests see one order.", "anchors": ["src/decl_context_graph_processing.cpp:lexicographicalTopologicalSort", "src/sort_decls.cpp"]}
{"id": "C32", "title": "A reported dependency cycle points at a member of the cycle", "statement": "The declaration context reported for a dependency cycle lies on such a cycle.", "quantifier": "every cyclic dependency graph", "why_tests_cant": "All shapes of cycles and downstream nodes.", "anchors": ["src/decl_context_graph_processing.cpp:lexicographicalTopologicalSort"]}
{"id": "C33", "title": "Base classes are registered before derived classes", "statement": "Every base class named in an emitted pybind11::class_<...> is introduced before that class.", "quantifier": "every exposed class hierarchy including inlined and hidden bases", "why_tests_cant": "Arbitrary hierarchies.", "anchors": ["src/expose.cpp:RecordExposer::emitType", "src/decl_context_graph_processing.cpp:declContextsSortedByDependencies"]}
{"id": "C34", "title": "Generated code declares, calls and defines each expose function exactly once, and uses variables only after their introduction", "statement": "For each worklist item the main file declares its expose_ function, introduces its variable from an already introduced one, calls the function exactly once, and exactly one output file contains its definition.", "quantifier": "every sorted context list, including re-opened namespaces", "why_tests_cant": "Depends on all lists.", "anchors": ["src/expose.cpp:TranslationUnitExposer::emitModule"]}
{"id": "C35", "title": "Definitions are split evenly and in order across output files", "statement": "With k >= 1 output files and n items, item i goes to a file index < k; the files receive consecutive chunks in order whose sizes differ by at most one.", "quantifier": "every k >= 1 and n", "why_tests_cant": "Arithmetic for all k, n.", "anchors": ["src/expose.cpp:TranslationUnitExposer::emitModule"]}
{"id": "C36", "title": "Properties have exactly one getter and at most one setter", "statement": "For each property name, if no error is reported: a read-write property is emitted iff a getter and a setter were seen, a read-only one iff only a getter, each name once, in alphabetical order; duplicates and setter-only names are errors.", "quantifier": "every sequence of members handled by a record", "why_tests_cant": "Unbounded sequences.", "anchors": ["src/expose.cpp:RecordExposer::handleDeclImpl", "src/expose.cpp:RecordExposer::emitProperties"]}
{"id": "C37", "title": "Enumerators are exported by default exactly for unscoped enums", "statement": "An exposed enum exports its values into the parent scope iff export_values says so or, without such an annotation, iff the enum is unscoped.", "quantifier": "every exposed enum, annotated or visible by default", "why_tests_cant": "All combinations of annotation state.", "anchors": ["src/expose.cpp:EnumExposer::finalizeDefinition", "README.md"]}
{"id": "C38", "title": "Named arguments match the function's parameters", "statement": "The emitted pybind11::arg list names exactly the parameters that are neither pybind11::args nor kwargs, in order; any parameter after kwargs is an error.", "quantifier": "every parameter list", "why_tests_cant": "Unbounded lists.", "anchors": ["src/expose.cpp:emitParameters", "src/expose.cpp:getPybind11ArgsType"]}
{"id": "C39", "title": "Exposed operators compute the same expression as in C++", "statement": "Evaluating a Python operator expression through an exposed operator evaluates the same C++ operator on the operands in the same order, including reflected operators for non-leading record parameters.", "quantifier": "every overloadable operator kind, arity, parameter order", "why_tests_cant": "All kinds x orders; semantic agreement with Python dispatch.", "anchors": ["src/expose.cpp:emitOperator", "src/expose.cpp:emitOperatorDefinition", "src/expose.cpp:pythonBinaryOperatorName"]}
{"id": "C40", "title": "Exposed operators always have a Python name", "statement": "Whenever an operator definition is emitted, its Python method name is non-empty.", "quantifier": "every operator kind, arity and parameter order", "why_tests_cant": "All cases of the table.", "anchors": ["src/expose.cpp:pythonUnaryOperatorName", "src/expose.cpp:pythonBinaryOperatorName", "src/expose.cpp:emitOperator"]}
{"id": "C41", "title": "Constructors that cannot be called are never exposed", "statement": "A constructor definition is emitted iff the constructor is visible, not a move constructor, not deleted and the record is not abstract; an implicit conversion only for converting single-parameter constructors.", "quantifier": "every record and constructor", "why_tests_cant": "All combinations.", "anchors": ["src/expose.cpp:RecordExposer::handleDeclImpl", "src/annotated_decl.cpp:processAnnotation(ConstructorDeclAttrs)"]}
{"id": "C42", "title": "Inlined bases are the closure of inline_base and reachable by a public unhidden path", "statement": "A base is inlined iff it is named by inline_base on the record or (transitively) on such a base, and some inheritance path to it is public and avoids hidden bases; computing this terminates for every hierarchy.", "quantifier": "every class hierarchy and every annotation of it", "why_tests_cant": "Hierarchies are unbounded DAGs.", "anchors": ["src/visible_decls.cpp:RecordInliningPolicy"]}
{"id": "C43", "title": "The emitted base list is exactly the exposed public bases visible through inlining", "statement": "A class lists a base iff that base is exposed and reached from the class through public, unhidden bases all of which (before it) are inlined; no base is listed twice, and the bases appear in the order of declaration with those of an inlined base in its place.", "quantifier": "every class hierarchy", "why_tests_cant": "Hierarchies are unbounded DAGs, including diamonds.", "anchors": ["src/expose.cpp:RecordExposer::emitType"]}
{"id": "C44", "title": "Only accessible members are collected, inherited ones only from inlined bases", "statement": "A declaration is handed to an exposer iff lookup finds it un-hidden, it is public (or has no access), it is not itself a declaration context, and, if it comes from a base, that base is inlined and the member is not a constructor or destructor; using-declarations contribute their target.", "quantifier": "every lookup result sequence", "why_tests_cant": "All combinations and sequences.", "anchors": ["src/visible_decls.cpp:ExposableDeclConsumer::FoundDecl", "src/visible_decls.cpp:collectVisibleDeclsFromDeclContext"]}
{"id": "C45", "title": "Annotated template instantiation reaches a fixpoint", "statement": "Starting from the aliases of the translation unit, every class template specialization reachable through annotated aliases and inline_base-style references of instantiated definitions is instantiated and added to its context exactly once; the worklist terminates whenever finitely many are reachable.", "quantifier": "every reference graph among specializations", "why_tests_cant": "Arbitrary graphs; duplicates in the queue.", "anchors": ["src/instantiate_annotated_templates.cpp"]}
{"id": "C46", "title": "Manual bindings appear exactly once, postamble ones last", "statement": "Each manual binding is emitted exactly once: in its context's definition, or, if marked postamble, at the end of the module body after all expose calls and in source order.", "quantifier": "every translation unit", "why_tests_cant": "All sequences of declarations.", "anchors": ["src/expose.cpp:emitManualBindings", "src/expose.cpp:emitModule", "src/expose.cpp:handleDeclImpl"]}
{"id": "C47", "title": "The effective compilation command is C++17 or later", "statement": "For every compilation command, after adjustment the last language flag before `--` is C++ and the last -std flag selects C++17 or later; a later standard requested last by the user is kept.", "quantifier": "every argument list", "why_tests_cant": "Argument lists are unbounded.", "anchors": ["src/tool.cpp:getCpp17OrLaterAdjuster"]}
{"id": "C48", "title": "Command adjustment preserves everything else", "statement": "Adjusting a compilation command keeps all other arguments, in order, and everything from `--` on untouched; adjusting twice is the same as adjusting once.", "quantifier": "every argument list", "why_tests_cant": "Argument lists are unbounded.", "anchors": ["src/tool.cpp:getCpp17OrLaterAdjuster"]}
{"id": "C49", "title": "A default resource directory is added exactly when none is given", "statement": "The command gets one -resource-dir flag before `--` iff it had none; otherwise it is unchanged.", "quantifier": "every argument list", "why_tests_cant": "Argument lists are unbounded.", "anchors": ["src/tool.cpp:getDefaultResourceDirAdjuster"]}
{"id": "C50", "title": "Exit status and outputs reflect success", "statement": "The tool reports success iff no error occurred (inverted under --xfail); if an error occurred the output files are removed unless keeping them was requested.", "quantifier": "every combination of options and error histories", "why_tests_cant": "All interleavings of errors with pipeline stages.", "anchors": ["src/tool.cpp:main", "src/tool.cpp:shouldEraseOutputFiles", "src/tool.cpp:HandleTranslationUnit"]}
{"id": "C51", "title": "Included headers in generated code follow the pragmas", "statement": "Headers named by genpybind include pragmas are emitted in source order exactly once per well-formed pragma; malformed pragmas are diagnosed.", "quantifier": "every token stream after a pragma", "why_tests_cant": "All token streams.", "anchors": ["src/pragmas.cpp"]}
{"id": "C52", "title": "The default module name is a valid identifier", "statement": "Without an explicit module name the module is named after the input file's stem turned into a valid identifier, for every file name with a non-empty stem.", "quantifier": "every path", "why_tests_cant": "All paths.", "anchors": ["src/tool.cpp:HandleTranslationUnit", "src/string_utils.cpp:makeValidIdentifier"]}
{"id": "C53", "title": "expose_here transfers name and visibility of the alias", "statement": "After graph construction the target of an accepted expose_here alias has the alias' effective spelling and visibility, whatever annotations the target itself had; encourage makes its target visible and changes nothing else.", "quantifier": "every alias and target annotation state", "why_tests_cant": "All combinations and orders.", "anchors": ["src/annotated_decl.cpp:propagateAnnotations", "src/decl_context_graph_builder.cpp:buildGraph"]}
{"id": "C54", "title": "References to context identifiers never dangle", "statement": "The number of identifiers stored while the module is emitted never exceeds the capacity reserved up front, so views of stored identifiers stay valid.", "quantifier": "every sorted context list", "why_tests_cant": "All lists.", "anchors": ["src/expose.cpp:TranslationUnitExposer::emitModule"]}
{"id": "C55", "title": "Every error is visible in the outcome of the whole pipeline", "statement": "If any stage reports an error the pipeline stops before emitting the module or marks the run failed; conversely a run without errors emits all sections of the module exactly once.", "quantifier": "every translation unit and options", "why_tests_cant": "All error points.", "anchors": ["src/tool.cpp:HandleTranslationUnit", "src/decl_context_graph_builder.cpp:buildGraph"]}
{"id": "C56", "title": "Exactly the visible functions become functions", "statement": "The functions defined for a class, namespace or the module are, in source order and once each, exactly its visible functions and methods that are not deleted, not used for a property and, in classes, not operators; each is given its expose_as name, `__call__` for call operators, or its own name as identifier, and static methods are defined as static.", "quantifier": "every context, member list and annotation state", "why_tests_cant": "All member lists and combinations of annotations.", "anchors": ["src/expose.cpp:DeclContextExposer::handleDeclImpl", "src/expose.cpp:RecordExposer::handleDeclImpl"]}
{"id": "C57", "title": "Data members are read-only exactly if constant or so annotated", "statement": "The data members defined for a class are its visible fields and static variables without manual bindings, in order; a member can be assigned from Python iff its type is not const and it is not annotated readonly.", "quantifier": "every class, member list and annotation state", "why_tests_cant": "All member lists and combinations of annotations.", "anchors": ["src/expose.cpp:RecordExposer::handleDeclImpl"]}
{"id": "C58", "title": "Attributes of namespaces are the annotated aliases and the visible variables", "statement": "In a namespace or the module an attribute is set for exactly the visible variables without manual bindings and those visible aliases of types that carry an explicit visibility and are not expose_here, in order.", "quantifier": "every namespace, member list and annotation state", "why_tests_cant": "All member lists and combinations of annotations.", "anchors": ["src/expose.cpp:DeclContextExposer::handleDeclImpl"]}
{"id": "C59", "title": "Exactly the operators of a class are defined for it", "statement": "A class defines a Python operator for exactly its visible operator members and those visible free operators found by argument dependent lookup that have an operand of the class, unless deleted, printing to a stream or without counterpart in Python; evaluating the expression in Python evaluates the declared operator on operands of the declared types, and nothing else is written for an operator.", "quantifier": "every class, member list, set of free operators and annotation state", "why_tests_cant": "All member lists and operand combinations.", "anchors": ["src/expose.cpp:collectOperatorDeclsViaArgumentDependentLookup", "src/expose.cpp:RecordExposer::handleDeclImpl", "src/expose.cpp:RecordExposer::emitOperator"]}
{"id": "C60", "title": "Stream operators become methods exactly if named", "statement": "A visible `operator<<(std::ostream &, …)` of a class becomes a method printing the object iff it is given a name; member operators `<<` and ones with other left operands are ordinary operators.", "quantifier": "every class and free operator", "why_tests_cant": "All combinations of operands and annotations.", "anchors": ["src/expose.cpp:isOstreamOperator", "src/expose.cpp:RecordExposer::handleDeclImpl"]}
{"id": "C61", "title": "Generated modules can be imported unless names clash", "statement": "Compiling, linking and importing the generated code fails, or replaces a class by a submodule, only if a class or enum has the same Python name in the same scope as another class, enum or submodule, if two types are printed in the same way, if a listed base class comes later, or if two scopes get the same variable name. Otherwise all classes and enums exist, in the module, submodule or class their scope stands for, before anything else is executed; afterwards the statements for each scope are applied to its object and the postamble bindings to the module itself.", "quantifier": "every graph, set of annotations, number of output files and order of iteration; for namespaces opened repeatedly their first declaration counts (see C28)", "why_tests_cant": "It is about the execution of the generated code, for all programs; tests import some modules without clashes.", "anchors": ["src/expose.cpp:TranslationUnitExposer::emitModule", "public/genpybind/binding-helpers.h:getObjectForType"]}
{"id": "C62", "title": "Aliases refer to exposed types irrespective of declaration order", "statement": "The attribute created for an alias of a class or enum is this class or enum if it is exposed anywhere in the module, also if it is declared later or written to another output file, and None otherwise.", "quantifier": "every importable module and alias", "why_tests_cant": "Depends on the order in which everything in the module is executed.", "anchors": ["src/expose.cpp:DeclContextExposer::handleDeclImpl", "src/expose.cpp:TranslationUnitExposer::emitModule", "public/genpybind/binding-helpers.h:getObjectForType"]}
{"id": "C63", "title": "Default arguments keep their meaning", "statement": "The text written for the default argument of a parameter, read outside of the scope of the function, denotes the same value as in the C++ source: names refer to the same declarations, types and the way of construction are the same, and omitted arguments stay omitted; what is written for one parameter does not depend on the others.", "quantifier": "every default argument expression of any depth and every list of parameters", "why_tests_cant": "Expressions are unbounded; tests print some of them.", "anchors": ["src/expose.cpp:AttemptFullQualificationPrinter", "src/expose.cpp:emitParameters"]}
{"id": "C64", "title": "Graph dumps show every context once, below its parent and with its visibility", "statement": "Dumping the graph (before or after pruning) terminates and prints exactly one line for each context below the translation unit, described by its kind, name and effective visibility; the parent of a context is the closest less indented line above it.", "quantifier": "every graph and visibility assignment", "why_tests_cant": "Graphs are unbounded.", "anchors": ["src/inspect_graph.cpp:printGraph", "src/tool.cpp:inspectGraph"]}
{"id": "C65", "title": "Generated files, read as C++, say exactly what was decided", "statement": "If a run succeeds, the text of each output file can be read as C++: splitting it at balanced brackets, string literals, commas and semicolons yields the expected includes, function declarations, the module definition and function definitions, and each statement yields exactly the registered name, the selected overload (with its constness), docstring, keyword arguments with defaults, policies and flags; nothing in names, docstrings or default values can break out of its place.", "quantifier": "every input whose C++ types, expressions and raw annotation texts (holder type, return value policy) have matching brackets, and every number of output files", "why_tests_cant": "Names, docstrings, types and default values are arbitrary texts; tests compare a few generated files.", "anchors": ["src/expose.cpp:TranslationUnitExposer::emitModule", "src/expose.cpp:emitParameters", "src/expose.cpp:emitPolicies", "src/expose.cpp:emitFunctionPointer", "src/expose.cpp:emitStringLiteral", "src/expose.cpp:emitOperator", "src/expose.cpp:emitManualBindings"]}
{"id": "C66", "title": "Calls keep the documentation, named arguments and policies of the declaration", "statement": "Every exposed function, constructor and operator carries the documentation comment of its declaration (or, for instantiations, of the template). For functions and constructors the Python arguments are the C++ parameters in order, with their names and defaults; an argument is marked no-convert or not-None exactly if one of the noconvert/required annotations names it; the return value policy is the one named by the last return_value_policy annotation; and there is a keep_alive for exactly the pairs given by keep_alive annotations, whose numbers denote the requested nurse and patient.", "quantifier": "every declaration, every list of annotations and every context in which the declaration is exposed", "why_tests_cant": "Any number of annotations on any number of parameters can be combined; tests show one annotation at a time.", "anchors": ["src/expose.cpp:emitParameters", "src/expose.cpp:emitPolicies", "src/expose.cpp:getDocstring", "src/annotated_decl.cpp:FunctionDeclAttrs"]}
{"id": "C67", "title": "Settings combine all annotations of a declaration", "statement": "If a declaration has several annotations (in one or many GENPYBIND macros) all of them take effect: switches (arithmetic, export_values, dynamic_attr, readonly, implicit_conversion) are decided by the last one given, holder_type is the text of the last one given, module, encourage, expose_here, manual and postamble hold if they are given anywhere, and names of properties, modules (only_expose_in) and bases (hide_base, inline_base) accumulate. No annotation affects the setting of another.", "quantifier": "every declaration and every list of annotations attached to it", "why_tests_cant": "Lists of annotations are unbounded and interact through shared state; tests cover few combinations.", "anchors": ["src/annotated_decl.cpp:RecordDeclAttrs", "src/annotated_decl.cpp:EnumDeclAttrs", "src/annotated_decl.cpp:MethodDeclAttrs", "src/annotated_decl.cpp:NamespaceDeclAttrs"]}
{"id": "C68", "title": "Classes, enums and submodules are introduced as annotated", "statement": "In a successful run the module definition introduces each context exactly once: a class is registered under its Python name, in the object of its scope, with its exposed bases, the holder type of the last holder_type annotation, its documentation, and dynamic_attr exactly if the last such annotation says so; an enum likewise with arithmetic; a namespace becomes a submodule (with its Python name) exactly if it is annotated with module, and otherwise shares the object it is declared in. Contexts without annotations are registered with the defaults.", "quantifier": "every successful run, every context and every list of annotations", "why_tests_cant": "Composes annotation processing, propagation from aliases, pruning, sorting and emission for unboundedly many contexts.", "anchors": ["src/expose.cpp:EnumExposer::emitIntroducer", "src/expose.cpp:RecordExposer::emitIntroducer", "src/expose.cpp:NamespaceExposer::emitIntroducer", "src/expose.cpp:RecordExposer::emitType", "src/expose.cpp:TranslationUnitExposer::emitModule"]}
{"id": "C69", "title": "A successful run yields exactly the visible classes and enums", "statement": "If the tool exits successfully, the files it leaves can be compiled and imported exactly if no names clash, and then the classes and enums of the module are exactly those that are reachable in the translation unit, not in a namespace for another module, and visible together with all types around them; each is created once, in the object of the innermost class, enum or submodule around it, before any other statement is executed.", "quantifier": "every translation unit, set of annotations, options, number of output files and order of iteration", "why_tests_cant": "It composes all stages, from annotations to the execution of the generated code; a test looks at one module.", "anchors": ["src/tool.cpp:HandleTranslationUnit", "src/expose.cpp:TranslationUnitExposer::emitModule", "src/decl_context_graph_processing.cpp:pruneGraph"]}
{"id": "C70", "title": "GENPYBIND(...) means its tokens, however they are laid out", "statement": "The attribute text made by GENPYBIND(...) is the marker followed by the tokens of its argument exactly as spelled, white space shrunk to single blanks. The use is accepted exactly if the tokens, taken one by one, form annotations, and the declaration then gets these annotations, over all uses in order; tokens of any other kind (operators, character literals, floating point, hexadecimal or too large numbers, literals with a prefix or suffix) lead to a parse error. Blanks, comments and line breaks make no difference.", "quantifier": "every sequence of preprocessing tokens, every white space between them and every number of uses on a declaration", "why_tests_cant": "Strings pass through the preprocessor's escaping, the compiler's unescaping and a separate tokenizer with different token rules; there are infinitely many token sequences and layouts.", "anchors": ["public/genpybind/genpybind.h:GENPYBIND", "src/annotated_decl.cpp:parseAnnotations", "src/annotations/parser.cpp:Parser", "src/annotations/parser.cpp:Tokenizer"]}
{"id": "C71", "title": "Objects of the module have exactly the visible functions, members, attributes and enumerators", "statement": "After importing the module of a successful run, the object of every class, enum, namespace or the module itself has exactly these contents: the functions, constructors, data members, aliases, variables, enumerators and operators that lookup finds in one of the declarations of that context (accessible, not hidden, not inherited unless from an inlined base), and that are visible, by their own annotations or, without any, because the context is visible; deleted functions, accessors of properties and move constructors aside. Contexts that do not lie in namespaces of other modules or hidden types contribute all of that, and no visible function that is declared in the translation unit is lost.", "quantifier": "every successful run, every context, and every declaration in it", "why_tests_cant": "It combines annotations, effective visibility, pruning, merging of re-opened namespaces, lookup and emission over unboundedly many contexts and members; tests look at single modules.", "anchors": ["src/expose.cpp:TranslationUnitExposer::emitModule", "src/expose.cpp:DeclContextExposer::handleDecl", "src/visible_decls.cpp:collectVisibleDeclsFromDeclContext", "src/decl_context_graph_processing.cpp:declContextsWithVisibleNamedDecls", "src/decl_context_graph_processing.cpp:deriveEffectiveVisibility"]}
{"id": "C72", "title": "A run fails exactly if something is wrong with the source code", "statement": "The tool reports an error exactly if one of the following is the case, each stated about the source code: the compiler found an error; a pragma is malformed; an output cannot be created; an annotation of a class, enum, namespace or alias cannot be read, is not allowed there, has arguments that do not make sense or contradicts another one; an alias exposes a type that has been exposed elsewhere or is not a type definition; exposed types contain each other; classes and their bases form a cycle once placed in contexts; or in a context that is not pruned a declaration has wrong annotations, a visible function has a parameter behind **kwargs, or a property has two getters, two setters or a setter only. Everything else goes through without diagnostics: contexts that are hidden or pruned are not checked.", "quantifier": "every translation unit, module name, set of pragmas and list of outputs", "why_tests_cant": "Both directions quantify over all programs: that every defect is reported and that no correct program is rejected. Tests show single diagnostics only.", "anchors": ["src/tool.cpp:GenpybindAction", "src/expose.cpp:TranslationUnitExposer::emitModule", "src/expose.cpp:RecordExposer::emitProperties", "src/expose.cpp:emitParameters", "src/decl_context_graph_builder.cpp:DeclContextGraphBuilder", "src/annotated_decl.cpp:processAnnotation", "src/pragmas.cpp:PragmaGenpybindHandler"]}
{"id": "C73", "title": "Names of an imported module: overloads in order, nothing lost unless names clash", "statement": "When the generated module is imported its objects end up with one attribute per Python name: all functions with this name, tried in the order in which they are declared in the source code, or the only other thing with this name. Nothing is lost and no import fails as long as no two things of an object have the same Python name other than functions, all of them static or none, and no function hides something else. Conversely a class with a static and an instance method of the same Python name can never be imported, whatever else is exposed, and neither can a function with the Python name of a class next to it; the tool does not diagnose this.", "quantifier": "every translation unit, every set of Python names and overloads, every class hierarchy", "why_tests_cant": "Which name wins depends on the order of the generated statements across all files and on the run-time rules of pybind11; clashes between arbitrary declarations cannot be enumerated.", "anchors": ["src/expose.cpp:NamespaceExposer::emitIntroducer", "src/expose.cpp:RecordExposer::handleDeclImpl", "src/expose.cpp:RecordExposer::finalizeDefinition", "src/expose.cpp:DeclContextExposer::emitSpelling", "src/visible_decls.cpp:collectVisibleDeclsFromDeclContext"]}
{"id": "C74", "title": "Objects have exactly the properties, conversions, printing methods, exported values and manual bindings asked for", "statement": "After importing the module of a successful run, a class has exactly the properties some visible method of it is annotated as getter for, with that method as getter, and as setter the visible method annotated as setter for it, if there is one; implicit conversions exist exactly for the visible constructors annotated with implicit_conversion, from the type of their only parameter; printing methods exactly for the visible operator<< functions for the class that are annotated with a name; enumerators are available outside of the enum exactly if export_values says so or, without it, if the enum is unscoped and annotated; and manual bindings are executed exactly for the visible annotated variables, those marked as postamble being applied to the module after everything else.", "quantifier": "every successful run, every context and every declaration in it", "why_tests_cant": "The statements are collected over all declarations of a context, across re-opened namespaces, pruning and files, and a property combines two declarations; tests look at single classes.", "anchors": ["src/expose.cpp:RecordExposer::finalizeDefinition", "src/expose.cpp:RecordExposer::emitProperties", "src/expose.cpp:RecordExposer::handleDeclImpl", "src/expose.cpp:EnumExposer::finalizeDefinition", "src/expose.cpp:DeclContextExposer::handleDecl", "src/expose.cpp:TranslationUnitExposer::emitModule"]}
{"id": "C75", "title": "Running the tool again gives the same result", "statement": "If the tool is run twice for the same source code, with the same options, then the exit code, the contents of all files, what is printed, and the diagnostics with their order are the same. This does not depend on the iteration order of hash tables, the order in which a priority queue returns equivalent elements, or the order in which name lookup finds the members of a class.", "quantifier": "all translation units and options; all orders in which the nodes of the graph are iterated, all priority queues, and all orders in which lookup finds the declarations of a context", "why_tests_cant": "Addresses, and with them the orders of hash tables, differ from run to run: a test that passes may fail the next time, and one that compares a few runs only sees a few of the orders.", "anchors": ["src/expose.cpp:TranslationUnitExposer::emitModule", "src/sort_decls.cpp:IsBeforeInTranslationUnit", "src/decl_context_graph_processing.cpp:declContextsSortedByDependencies", "src/decl_context_graph_processing.cpp:reportExposeHereCycles", "src/decl_context_graph_processing.cpp:reportUnreachableVisibleDeclContexts", "src/visible_decls.cpp:collectVisibleDeclsFromDeclContext"]}
{"id": "C76", "title": "Default arguments are instantiated before they are read", "statement": "After the default arguments of a translation unit have been instantiated, the default argument of each parameter of a valid function, as far as it has been parsed, is either absent or an expression that can be printed into the binding, or clang has reported an error. Nothing is instantiated twice, and default arguments that need no instantiation, or belong to invalid functions, are left alone.", "quantifier": "all parameters of a translation unit, with those of template specializations that are only instantiated for the sake of other default arguments, in all orders of declaration", "why_tests_cant": "Instantiating a default argument can instantiate further templates, with default arguments of their own, at any depth; tests only have default arguments that need nothing new.", "anchors": ["src/instantiate_default_arguments.cpp:InstantiateDefaultArgumentsASTConsumer::VisitParmVarDecl", "include/genpybind/instantiate_default_arguments.h:InstantiateDefaultArgumentsASTConsumer::shouldVisitTemplateInstantiations", "src/tool.cpp:GenpybindAction::CreateASTConsumer", "src/expose.cpp:emitParameters"]}
{"id": "C77", "title": "Every diagnostic is justified, names what is at fault and can be shown", "statement": "Whatever the tool reports is true: for each error, warning and note of a run there is a reason in the source code, at the declaration it is attached to. A parse error names the first token at which the text can no longer become a list of annotations (or none if something is missing at the end); a complaint about an annotation names an annotation that is spelled there and that is indeed not allowed, has a wrong number or type of arguments, an invalid name, or an unknown parameter or base; notes point at the first declaration or alias; complaints about the module refer to contexts that are moved into themselves, are not exposed although they contain something visible, or depend on themselves; those about contents to parameters, getters and setters that are visible there. All arguments a message refers to are given, and it contains them unchanged.", "quantifier": "every translation unit, every annotation text, every run and every diagnostic of it", "why_tests_cant": "Tests show that some mistakes lead to some message; that no message is ever issued without a reason, for any source code, quantifies over all programs and all the ways the analyses can fail.", "anchors": ["src/diagnostics.cpp:getCustomDiagID", "src/diagnostics.cpp:Diagnostics::report", "src/annotated_decl.cpp:processAnnotation", "src/decl_context_graph_builder.cpp:DeclContextGraphBuilder", "src/decl_context_graph_processing.cpp:reportExposeHereCycles", "src/decl_context_graph_processing.cpp:reportUnreachableVisibleDeclContexts", "src/expose.cpp:RecordExposer::emitProperties", "src/expose.cpp:emitParameters", "src/annotations/parser.cpp:Parser"]}
{"id": "C78", "title": "Declarations without annotations outside of what is visible leave no trace", "statement": "If a translation unit is extended by declarations that are neither annotated nor placed in something visible, for example by including another header or by changing private code, then the result of the tool stays the same: exit code, the contents of all files, what is printed, and the diagnostics with their order. The added code may contain namespaces, types with members, functions, variables and operators, at any depth and in between the existing declarations, as long as no annotated alias refers to them and no added operator takes a type that has been there before.", "quantifier": "all pairs of translation units one of which extends the other in this way, all options and all orders in which containers are iterated", "why_tests_cant": "The claim relates two runs over arbitrary programs, one of them with arbitrary additional code; a test can only try a few headers. That nothing leaks depends on visitor, graph, visibility propagation, pruning, lookup and emission together.", "anchors": ["src/decl_context_graph_builder.cpp:DeclContextGraphBuilder", "src/decl_context_graph_processing.cpp:deriveEffectiveVisibility", "src/decl_context_graph_processing.cpp:pruneGraph", "src/decl_context_graph_processing.cpp:declContextsWithVisibleNamedDecls", "src/visible_decls.cpp:collectVisibleDeclsFromDeclContext", "src/expose.cpp:TranslationUnitExposer::emitModule", "src/expose.cpp:DeclContextExposer::handleDecl"]}
{"id": "C79", "title": "Modules generated from the same headers can be imported together if only_expose_in shares the types out between them", "statement": "If several modules are generated from the same headers, and each one can be imported on its own, then they can be imported into the same Python interpreter, in any order, exactly if no class or enum is exposed in two of them; a class or enum is in two modules exactly if it is visible and each only_expose_in around it lists both. In particular this is the case if every exposed type is in a namespace annotated with only_expose_in and the name of a single module. All types are then registered, and each module contains the same as on its own. All declarations nested in such a namespace are left out of other modules.", "quantifier": "all translation units, any number of modules generated from it with any options, and all orders of importing them", "why_tests_cant": "Combines several runs of the tool with pybind11's table of types, which is shared by all modules of a process; tests import two modules with a few types each.", "anchors": ["src/decl_context_graph_processing.cpp:hideNamespacesBasedOnExposeInAnnotation", "src/decl_context_graph_processing.cpp:pruneGraph", "src/expose.cpp:RecordExposer::emitType", "src/expose.cpp:TranslationUnitExposer::emitModule", "README.md:only_expose_in"]}
{"id": "C80", "title": "Calling an exposed function from Python calls the C++ function it is meant for", "statement": "When exposed functions of the same name, or the constructors of a class, are called from Python, then the first one, in the order of definition, that takes the given arguments without conversions is called, or else the first one that takes them with conversions; if there is none, TypeError is raised. The value of each parameter is the positional argument at its place, or else the keyword argument with the name of the parameter, or else the default argument, and nothing that was passed is ignored. A parameter named in noconvert is never converted, and one named in required is never None. If a function is not overloaded, arguments for parameters with default arguments can be omitted.", "quantifier": "all translation units and successful runs, all attributes that consist of exposed functions or constructors, all positional and keyword arguments, and all rules for converting values", "why_tests_cant": "Combines the generated arguments with pybind11's way of choosing overloads; tests call a few functions with a few values.", "anchors": ["src/expose.cpp:emitParameters", "src/expose.cpp:emitFunctionPointer", "src/expose.cpp:DeclContextExposer::handleDeclImpl", "src/expose.cpp:RecordExposer::handleDeclImpl", "README.md:noconvert", "README.md:required"]}
{"id": "C81", "title": "Spreading the generated code over several output files changes nothing", "statement": "Runs of the tool that only differ in the output files asked for, all of which can be created and are named once, end with the same exit code and the same messages. On success the files contain, one after the other and apart from declarations of functions that are defined in another file, the same code in the same order. Importing the module built from these files creates the same objects and executes the same definitions in the same order, or raises the same error.", "quantifier": "all translation units and options, any two non-empty lists of distinct output files", "why_tests_cant": "A statement about pairs of runs for any number of files; tests compare one number of files for a few headers.", "anchors": ["src/tool.cpp:GenpybindASTConsumer", "src/expose.cpp:TranslationUnitExposer::emitModule", "tools/genpybind.cmake:NUM_BINDING_FILES"]}
{"id": "C82", "title": "The command line is accepted exactly if it makes sense, and every setting takes effect", "statement": "A command line of the tool is accepted exactly if everything before the first -- is an input or an option written in one of the documented ways (one or two dashes, value after = or as the next argument), options for which this makes no sense are not repeated, and there is exactly one input; every setting is then in effect, lists in the order given, and everything after the first -- is the compilation command. Output files are only accepted if they are - or absolute paths. If the command line is not accepted, the tool fails without writing anything, also if failure is expected.", "quantifier": "all lists of arguments", "why_tests_cant": "All lists of arguments, of any length and in any order; tests use the few command lines needed to run the tool.", "anchors": ["src/tool.cpp:OutputFilenameParser", "src/tool.cpp:g_output_files", "src/tool.cpp:g_module_name", "src/tool.cpp:g_keep_output_files", "src/tool.cpp:main"]}
{"id": "C83", "title": "genpybind_add_module builds the module it is asked for, with any number of binding files", "statement": "A module defined by genpybind_add_module is built from the generated binding files, NUM_BINDING_FILES many or one, together with all further sources given, and linked to all libraries given. The tool is called with an accepted command line that asks for exactly these files, which are distinct, the header and the name of the target as the name of the module. Apart from that the number of binding files makes no difference: the tool succeeds or fails in the same way, and the modules behave the same when imported.", "quantifier": "all calls of the function with one header, in any order of its arguments, any number of files, and all translation units", "why_tests_cant": "Combines the CMake function with the command line and two whole runs of the tool; tests use two numbers of files.", "anchors": ["tools/genpybind.cmake:genpybind_add_module", "src/tool.cpp:OutputFilenameParser", "src/expose.cpp:TranslationUnitExposer::emitModule"]}
{"id": "C84", "title": "The header is analysed with its compilation command, as C++17 or later, with annotations enabled and without output", "statement": "The command executed for the command found in the compilation database starts with the same compiler and contains all of its arguments in the same order, except for output files, dependency files, temporary files, coloured messages, language and standards before C++20. Added are the language C++, a check of the syntax only, a resource directory if there is none, C++17 in the same dialect unless the last standard is later, and finally, so that no other option can revert it, an option that turns off warnings and the macro that enables annotations, in front of the files after --. For every command the macro is defined, whatever other definitions there are, and there is no option for output.", "quantifier": "all commands that consist of any parts in any order and number; the last sentence for all lists of arguments", "why_tests_cant": "All compilation commands; tests use the commands of a single build.", "anchors": ["src/tool.cpp:main", "src/tool.cpp:getDefaultResourceDirAdjuster", "src/tool.cpp:getCpp17OrLaterAdjuster"]}
{"id": "C85", "title": "Annotations of a member only affect what is generated for this member", "statement": "If the annotations of some functions, variables, fields, constructors or enumerators are changed in any way, and the header is still accepted, then every generated file is the same as before, apart from the statements written for these declarations and for properties they are or were an accessor of. In particular, annotating members of classes with hidden removes exactly the statements for these members. The exception is a namespace that would otherwise contain nothing visible: it is left out as a whole.", "quantifier": "all translation units, sets of members, old and new annotations, numbers of output files and output files", "why_tests_cant": "A test compares the output for one header and one change; that nothing else depends on an annotation (through visibility of contexts, order of contexts, names, other members' statements) is a statement about pairs of runs on arbitrary headers.", "anchors": ["src/expose.cpp:TranslationUnitExposer::emitModule", "src/expose.cpp:DeclContextExposer::handleDecl", "src/expose.cpp:RecordExposer::handleDeclImpl", "src/annotated_decl.cpp:AnnotationStorage::insert", "src/decl_context_graph_processing.cpp:declContextsWithVisibleNamedDecls"]}
{"id": "C86", "title": "With several compilation commands for the header, success means that all of them were accepted", "statement": "The program succeeds exactly if there is at least one compilation command for the header and no error is reported for any of the resulting translation units (--xfail expects the opposite); if there is none nothing is changed. On success each output file has the contents the last command on its own leads to, and no other file is changed. Arguments given by --extra-arg-before and --extra-arg are placed in front of and behind those of the compilation command; arguments after -- replace the compilation database. If one of several commands fails, no generated code is left in the output files.", "quantifier": "all command lines, all databases with any number of commands for the header, all translation units and all files existing before", "why_tests_cant": "Tests run the tool for a single command with a single configuration; sequences of runs that share options and output files are not considered at all.", "anchors": ["src/tool.cpp:main", "src/tool.cpp:GenpybindASTConsumer", "src/tool.cpp:GenpybindAction"]}
{"id": "C87", "title": "The commands shown by --verbose can be read without ambiguity", "statement": "The arguments of the commands shown by --verbose can be told apart: reading the text as words separated by spaces, where words with spaces are string literals, gives exactly the arguments, and different commands are shown differently.", "quantifier": "all lists of arguments of any length", "why_tests_cant": "All strings, including those with spaces, quotes and backslashes in every combination; there are no tests for this.", "anchors": ["src/tool.cpp:emitQuotedArguments", "src/tool.cpp:main"]}
{"id": "C88", "title": "How annotations are written does not matter, only what they mean", "statement": "If the annotations of any declarations are written in another way that means the same, everything the tool does is the same: the files written, the code printed, everything reported, and the exit code. Ways that mean the same: other white space, a trailing comma, additional attributes of other tools; one use of the macro with several annotations or several uses (if the first is neither empty nor ends with a comma); `hidden` or `visible(false)`; a flag or the flag with argument `true`; `f(a, b)` or `f(a), f(b)` for annotations that take several names; annotations about different things in any order; leaving out an annotation that gives a single value if another one follows; leaving out a repetition. These can be combined. In contrast, the order of annotations about the same thing matters, and an empty annotation is not the same as none.", "quantifier": "all translation units, options and contents of output files, all ways to rewrite the annotations of any number of declarations by any number of the above steps", "why_tests_cant": "Each of the about twenty annotations has its own code that interprets it for five kinds of declarations, and pairs of them can interfere. Tests compare the output for one way of writing. That rewriting never has an effect is a claim about pairs of runs and all combinations of annotations.", "anchors": ["src/annotated_decl.cpp:processAnnotation", "src/annotated_decl.cpp:AnnotationStorage::insert", "src/annotations/parser.cpp:parseAnnotations"]}
{"id": "C89", "title": "The name of the module only matters where it is written and for only_expose_in", "statement": "If two names for the module are either both listed or both not listed by each namespace annotated with only_expose_in, then runs with these names, everything else being the same, report the same, have the same exit code and write the same files, except that the name is another one in the line that defines the module. Without such annotations this holds for any two names.", "quantifier": "all translation units, pairs of names, options and contents of output files", "why_tests_cant": "A test uses one name for the module of one header. That the name has no other effect, such as on names of generated functions, is a statement about pairs of runs for arbitrary headers and names.", "anchors": ["src/decl_context_graph_processing.cpp:hideNamespacesBasedOnExposeInAnnotation", "src/expose.cpp:TranslationUnitExposer::emitModule", "src/tool.cpp:GenpybindASTConsumer"]}
{"id": "C90", "title": "Layout and comments of the header only affect documentation strings", "statement": "If declarations are moved without changing their order (by blank lines, line breaks, or code and comments the tool ignores), the run has exactly the same results. If also documentation comments are added, removed or changed, what is reported, the exit code and the files written are still the same, apart from the documentation strings in statements.", "quantifier": "all translation units, all other locations in the same order, all comments on any of the declarations, options and contents of output files", "why_tests_cant": "Tests compare the output for fixed headers. Locations are used to sort declarations in several places; that only their order matters is a statement about pairs of runs for arbitrary headers.", "anchors": ["src/expose.cpp:TranslationUnitExposer::emitModule", "src/expose.cpp:getBriefText", "src/sort_decls.cpp:IsBeforeInTranslationUnit", "src/decl_context_graph_processing.cpp:reportExposeHereCycles"]}
{"id": "C91", "title": "What the generated code refers to can be referred to there", "statement": "Every function, data member, enumerator and type the generated statements refer to can be accessed from outside of classes by the name used (neither it nor anything around it is private, protected or local to a function), constructors are not deleted and belong to classes that are not abstract, functions the address of which is taken are not deleted and can be selected by pybind11::overload_cast, and data members are neither bit-fields nor references.", "quantifier": "all translation units, with any nesting of types and namespaces, aliases, using-declarations, inlined bases and templates, and all objects of the module", "why_tests_cant": "If it does not hold the generated code does not compile, which tests only show for the headers they contain; access of a declaration depends on everything around it and on the way it was found.", "anchors": ["src/visible_decls.cpp:FoundDecl", "src/expose.cpp:DeclContextExposer::handleDeclImpl", "src/expose.cpp:RecordExposer::handleDeclImpl", "src/expose.cpp:RecordExposer::emitProperties", "src/expose.cpp:emitFunctionPointer", "src/decl_context_graph_processing.cpp:deriveEffectiveVisibility"]}
{"id": "C92", "title": "Nothing is exposed that has not been asked for", "statement": "Everything executed when the module is imported is about declarations that were asked for: by an annotation that makes them visible, by an alias with expose_here or encourage, because the type or namespace they are accessible members of (or the class they are operators for) has been asked for and they do not say otherwise, or because they are manual bindings for the end of the module.  The same holds for the classes and enums created, and submodules and functions are only created for namespaces that contain something that has been asked for.  In code without any annotation for the tool nothing is found to be wrong, and the result is an empty module: the files consist of the includes and, in the first one, the definition of a module without contents.", "quantifier": "all translation units, sets of annotations, numbers of output files and module names; all successful runs for the second part", "why_tests_cant": "The default of being hidden is implemented by the interplay of effective visibility, inheritance from scopes, pruning and lookup in bases and inline namespaces; tests can only look at some unannotated declarations in some places.", "anchors": ["src/decl_context_graph_processing.cpp:deriveEffectiveVisibility", "src/decl_context_graph_processing.cpp:pruneGraph", "src/decl_context_graph_processing.cpp:declContextsWithVisibleNamedDecls", "src/visible_decls.cpp:FoundDecl", "src/expose.cpp:DeclContextExposer::handleDecl", "src/expose.cpp:TranslationUnitExposer::emitModule"]}
{"id": "C93", "title": "Subclasses in Python are public descendants in C++", "statement": "In the generated module an exposed class is a subclass (in the sense of issubclass, via any number of steps) of another exposed class only if it derives from that class in C++ along public inheritance only; private and protected bases never become visible. Conversely, a class is a subclass of every exposed public base to which there is a path all classes of which are exposed or inlined and none of which has been hidden; in particular, without inline_base and hide_base and if all classes in between are exposed, the two relations agree.", "quantifier": "all translation units with arbitrary class hierarchies (multiple, virtual, private and protected inheritance), arbitrary annotations, all successful runs and all pairs of exposed classes", "why_tests_cant": "Tests look at a handful of hierarchies of depth two; whether the transitive relation in Python matches the one in C++ for every shape of hierarchy and combination of inline_base, hide_base and unexposed classes takes an induction over paths.", "anchors": ["src/expose.cpp:RecordExposer::emitType", "src/visible_decls.cpp:RecordInliningPolicy::createFromAnnotations", "src/visible_decls.cpp:RecordInliningPolicy::shouldHide", "src/expose.cpp:TranslationUnitExposer::emitModule"]}
{"id": "C94", "title": "Annotated headers are unchanged for other compilers", "statement": "For a compiler other than the tool, a header that uses the macros of genpybind.h is the same sequence of tokens as the header without any of these uses, and the values of __COUNTER__ are not affected. When the tool reads the header, every use of GENPYBIND is an annotation whose text is what has been written between the parentheses, every use of GENPYBIND_MANUAL is a variable of its own name, everything else is unchanged; this holds for any nesting of the macros and any number of uses.", "quantifier": "All source files with balanced parentheses in which the macros are nested in any way, all tables of macros that contain those of the header and do not redefine the words it uses, all values of __COUNTER__", "why_tests_cant": "Tests compile a few annotated headers in one of the two modes; uniqueness of the names, independence from nesting and absence of any residue concern all headers", "anchors": ["public/genpybind/genpybind.h:GENPYBIND", "public/genpybind/genpybind.h:GENPYBIND_MANUAL", "public/genpybind/genpybind.h:GENPYBIND_PARENT_TYPE", "public/genpybind/genpybind.h:GENPYBIND__PRIVATE_UNIQUE__"]}
{"id": "C95", "title": "Methods called on a derived class are the ones C++ finds", "statement": "If all bases of an exposed class are public and exposed, and everything with a given name in these classes is exposed under this name, then looking up the name on the Python class results in the functions of the very class in which C++ member lookup finds the name, no matter how many bases there are and how they are shared.", "quantifier": "All translation units, classes, names, hierarchies (multiple inheritance and virtual bases included), method resolution orders that list each class before its bases, and runs of the tool.", "why_tests_cant": "Tests look at a few hierarchies with two or three classes; hiding and dominance depend on every way through a hierarchy of any depth, and on what is exposed in each of its classes.", "anchors": ["src/expose.cpp:RecordExposer::emitIntroducer", "src/expose.cpp:RecordExposer::handleDeclImpl", "src/visible_decls.cpp:collectVisibleDeclsFromDeclContext"]}
{"id": "C96", "title": "Which classes and enums are part of a module can be read off the annotations in the source", "statement": "A class or enum is part of the module exactly if it is presented in the translation unit (at its alias annotated with expose_here, or else where it is declared), no namespace around it is meant for other modules only, and it and all classes around it are visible by what their annotations (or those of their alias) state or, without such a statement, by what surrounds them. Hence the order of declarations does not matter, annotating any declarations with visible in addition never removes a class or enum, and annotating any with hidden never adds one. This does not hold for a class with aliases of both kinds: then the last alias decides.", "quantifier": "All translation units without classes that have both kinds of aliases, all ways to rearrange declarations, all sets of declarations annotated in addition, all module names.", "why_tests_cant": "Tests compare the results for a few fixed headers; that annotations never have an effect opposite to what they say, and that order is irrelevant, relates unboundedly many pairs of headers.", "anchors": ["src/decl_context_graph_builder.cpp:DeclContextGraphBuilder::buildGraph", "src/decl_context_graph_processing.cpp:deriveEffectiveVisibility", "src/annotated_decl.cpp:AnnotationStorage::insert"]}
{"id": "C97", "title": "Classes and their bases have to agree on holders, or the module cannot be imported", "statement": "The generated module can be imported exactly if the conditions of C61 hold and, for every exposed class and every base listed for it, the class has got a custom holder (the last holder_type annotation names a type other than std::unique_ptr) exactly if the base has. Without custom holders, or with one for every class, holders make no difference. A mismatch is not reported: the tool succeeds without diagnostics and the import fails.", "quantifier": "all inputs accepted by the tool (class hierarchies, annotations, orders, output files) and all interpretations of holder texts as default or custom", "why_tests_cant": "Tests use one or two classes with a holder; whether the import succeeds depends on every pair of a class and a base in the module after inlining, hiding and pruning.", "anchors": ["src/expose.cpp:RecordExposer", "src/expose.cpp:RecordExposer::emitType", "include/genpybind/annotations/annotations.def:holder_type"]}
{"id": "C98", "title": "Python finds a method resolution order for every exposed class, and it respects C++ inheritance", "statement": "The generated module can be imported exactly if the conditions of C61 hold and Python's C3 algorithm finds a method resolution order for each exposed class from the bases listed for it, and it does exactly if no base is listed twice and the order of the bases and their own orders do not contradict each other. It always does if no base of a class is a base of another one and whatever they have in common comes from a single class (as in a diamond), in particular if no exposed class is reached from another one in two ways or no class has more than one direct base. The orders that are found contain the class and its direct and indirect bases, and classes come before their bases, which is what C95 relies on. In other cases the tool may succeed without diagnostics although the import fails: struct D : B, H with H derived from B, or a base reached through two inlined bases.", "quantifier": "all inputs accepted by the tool, all class hierarchies (of any depth and width), all annotations for inlining, hiding and exposing, all orders and numbers of output files", "why_tests_cant": "Method resolution orders depend on the whole hierarchy that is left after hiding, inlining and pruning; tests have a few fixed ones.", "anchors": ["src/expose.cpp:RecordExposer::emitType", "src/expose.cpp:TranslationUnitExposer::emitModule", "src/visible_decls.cpp:RecordInliningPolicy::createFromAnnotations"]}
{"id": "C99", "title": "Default arguments and constants can be converted on import exactly if their types are exposed somewhere", "statement": "pybind11 turns default arguments and the values of exposed constants into Python objects while the module is imported. This succeeds exactly if each class or enum that is needed for one of these values is exposed in the module, no matter where and in which output file, or has been registered by another module. Enumerators and implicit conversions never prevent an import. If a type needed for a default argument is hidden, the tool succeeds without diagnostics, but the module cannot be imported.", "quantifier": "all inputs accepted by the tool, all default arguments and variables and all assignments of needed types to them, all sets of types from other modules, all orders and numbers of output files", "why_tests_cant": "It depends on all contexts having been introduced before any of their contents, for every order and every split into files; tests import a few modules, most of whose default arguments are numbers.", "anchors": ["src/expose.cpp:TranslationUnitExposer::emitModule", "src/expose.cpp:emitParameters", "src/expose.cpp:DeclContextExposer::handleDeclImpl", "src/expose.cpp:EnumExposer::handleDeclImpl", "src/expose.cpp:RecordExposer::handleDeclImpl"]}
{"id": "C100", "title": "A module whose names, types, bases, holders and values fit together can be imported, and all its attributes are there", "statement": "If the tool succeeds, the resulting module can be imported exactly if the conditions for identifiers, names of types and order of bases (C61), holders (C97), method resolution orders (C98) and converted values (C99) are met, each for the same output. These follow from conditions on the header: no context is called like another one with a number at the end, exposed types have places and printed names of their own, inlined bases are exposed, holders are the same along each inheritance, what the bases of a class have in common comes from a single class, and types of default arguments and constants are available. If in addition Python names are distinct, including those of bases, then every object has all the attributes that have been written for it, none replaced by another one.", "quantifier": "all inputs accepted by the tool that meet the conditions, all numbers and orders of output files, all sets of types from other modules, all choices of custom holders and needed types", "why_tests_cant": "The conditions have been looked at one by one, but an import fails if any of them fails, and each refers to the same order of contexts and the same files; no finite set of headers covers their combinations.", "anchors": ["src/expose.cpp:TranslationUnitExposer::emitModule", "src/expose.cpp:RecordExposer::emitType", "src/expose.cpp:RecordExposer::emitIntroducer", "src/visible_decls.cpp:RecordInliningPolicy::createFromAnnotations", "src/tool.cpp:main"]}
{"id": "C101", "title": "Options for debugging only show what is going on, as described", "statement": "Options that ask for the AST or the graph to be shown do not change what is generated, reported or returned, wherever they are placed between other options. What is shown is the graph: each of its contexts once, with its name and the contexts placed in it, before pruning with the visibility of all contexts and after pruning without the ones that are not exposed.", "quantifier": "every command line, translation unit, graph and set of options for debugging", "why_tests_cant": "Command lines and graphs are unbounded, and the output is meant for people and an external viewer.", "anchors": ["src/tool.cpp:inspectGraph", "src/tool.cpp:HandleTranslationUnit", "src/inspect_graph.cpp:viewGraph", "src/inspect_graph.cpp:DOTGraphTraits"]}
{"id": "C102", "title": "An operator in Python evaluates the operator of C++", "statement": "The result of a binary operator or augmented assignment applied to objects in Python comes from an exposed operator of C++ with the same symbol, called with the same operands in the same order and converted to the types of its parameters, or from the mirrored comparison; `!=` may be the negation of `==` if the class has no `!=`. The operator belongs to the class of one of the operands or to one of its bases. No TypeError is raised if the class of an operand, or the first of its bases with this method, has an exposed operator for it that takes the operands.", "quantifier": "every run of the tool, class hierarchy, set of operators (members and free functions), operator of Python and pair of objects", "why_tests_cant": "What is evaluated depends on names of methods, swapped operands, the order in which overloads are tried, inheritance and the protocol for reflected methods; combinations of these are unbounded.", "anchors": ["src/expose.cpp:RecordExposer::emitOperator", "src/expose.cpp:RecordExposer::emitOperatorDefinition", "src/expose.cpp:pythonBinaryOperatorName", "src/expose.cpp:RecordExposer::finalizeDefinition"]}
{"id": "C103", "title": "Attributes in Python reach the data members and accessors of C++", "statement": "Reading an attribute of an object in Python reads the visible data member with this name or calls the getter of the property, and assigning to it writes the data member if it is neither constant nor read-only or calls the setter; otherwise nothing in C++ is changed. The attribute is that of the class of the object or, if it has none with this name, of the first base that has. Variables outside of classes are copied when the module is imported, so that assignments do not reach them.", "quantifier": "every run of the tool without clashes of names, every class hierarchy, object, attribute and set of members and accessors", "why_tests_cant": "Which member is reached depends on names, annotations, access, inheritance and the method resolution order; combinations are unbounded.", "anchors": ["src/expose.cpp:RecordExposer::handleDeclImpl", "src/expose.cpp:RecordExposer::finalizeDefinition", "src/expose.cpp:DeclContextExposer::handleDeclImpl", "include/genpybind/annotations/annotations.def:MethodDeclAttrs"]}
{"id": "C104", "title": "Objects that are compared by C++ are not hashed by identity", "statement": "If two objects are compared with an operator == of C++, at least one of them cannot be hashed or has its own __hash__, so that equal objects are never mixed up or told apart in sets and dictionaries. If operator== is exposed for a class, its instances and those of derived classes cannot be hashed unless one of the classes has an attribute __hash__.", "quantifier": "every class hierarchy, set of operators, pair of objects", "why_tests_cant": "Whether an object can be hashed depends on operators of all its bases, including free functions, and on their names in Python.", "anchors": ["src/expose.cpp:RecordExposer::emitOperator", "src/expose.cpp:pythonBinaryOperatorName"]}
{"id": "C105", "title": "Implicit conversions happen exactly for constructors annotated with implicit_conversion", "statement": "When an argument is not an instance of the class a parameter has, it is converted if and only if some visible, callable constructor of this class is annotated with implicit_conversion and its parameter takes the argument without any further conversion, so conversions are never chained. The constructor that is called is the first one of the class that takes the argument without conversions; it is an annotated one, called with the argument itself, if no other constructor takes the argument.", "quantifier": "Every input, every successful run whose module is imported without clashes of names, every class of the module, every value of Python other than None and every behaviour of pybind11's type casters.", "why_tests_cant": "Which values are accepted depends on all constructors of a class and on their order; tests only cover a few classes and values.", "anchors": ["src/expose.cpp:RecordExposer::handleDeclImpl", "src/annotated_decl.cpp:ConstructorDeclAttrs", "src/expose.cpp:RecordExposer"]}
{"id": "C106", "title": "Functions with args and kwargs parameters receive exactly the arguments no other parameter takes", "statement": "When an exposed function or constructor whose last parameters are pybind11::args, pybind11::kwargs or both is called from Python, its other parameters have the values they would have without these two. The elements of args are the remaining positional arguments in their order, the items of kwargs are the keyword arguments that are not the name of another parameter. The call fails if there are remaining arguments but no parameter for them. The annotations noconvert and required still apply to the parameters they name. Among several overloads, the first one that can be called without conversions is called, or else the first one that can be called at all.", "quantifier": "Every input, every successful run whose module is imported, every exposed function with ordinary parameters followed by args and/or kwargs, every list of positional and keyword arguments and every behaviour of pybind11's type casters.", "why_tests_cant": "The number of arguments is not bounded, and which of them is passed to which parameter depends on all names and on how many have been given by position.", "anchors": ["src/expose.cpp:emitParameters", "src/expose.cpp:getPybind11ArgsType", "src/expose.cpp:emitFunctionPointer"]}
