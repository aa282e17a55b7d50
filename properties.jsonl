{"id": "C01", "title": "Blank-line compaction keeps the code and bounds blank runs", "statement": "code_set_max_consecutive_empty_lines(code, n) with n >= 0 returns a text whose non-blank lines are exactly those of the input, in order, and in which no more than n blank lines follow each other; with n < 0 the code is returned unchanged.", "quantifier": "every text (any number of lines, any whitespace) and every n", "why_tests_cant": "the bound must hold for every arrangement and mixture of blank lines, of any length", "anchors": ["src/codemanip/code_utils.py: run_length_encode, code_set_max_consecutive_empty_lines"]}
{"id": "C02", "title": "Stripping empty lines removes exactly the blank border", "statement": "strip_empty_lines(code) removes only blank lines, only at both ends: the result is a contiguous block of the input lines, neither its first nor its last line is blank, everything removed is blank, and applying it twice changes nothing.", "quantifier": "every text", "why_tests_cant": "holds for arbitrarily many blank lines on both sides and for all-blank texts", "anchors": ["src/codemanip/code_utils.py: strip_empty_lines_in_list, strip_empty_lines, strip_first_and_last_lines_if_empty"]}
{"id": "C03", "title": "Unindent removes a common left margin and only trailing spaces", "statement": "unindent_code(code) keeps the number of lines; every line loses either exactly the margin (the number of leading spaces of the first non-blank line) or nothing, plus trailing spaces; lines indented at least as much as the margin keep their relative indentation; the operation is idempotent.", "quantifier": "every text", "why_tests_cant": "relative indentation must survive for every nesting and every margin", "anchors": ["src/codemanip/code_utils.py: unindent_code, compute_code_indent_size, count_spaces_at_start_of_line, remove_trailing_spaces"]}
{"id": "C04", "title": "Indent then unindent is the identity on left-aligned code", "statement": "Indenting by k spaces (indent_code) adds exactly k spaces in front of every non-empty line, never touches the content, keeps the line count and leaves empty lines empty; unindent_code of the result gives back the original (right-stripped) code when its first non-blank line starts at column 0.", "quantifier": "every text, every k", "why_tests_cant": "round trip over all texts and all indentation sizes", "anchors": ["src/codemanip/code_utils.py: indent_code, indent_code_lines, reindent_code, unindent_code"]}
{"id": "C05", "title": "A token added before a C++ end-of-line comment lands in code, not in the comment", "statement": "add_item_before_cpp_comment / join_lines_with_token_before_cpp_comment insert the token in each line at a position that is not inside a `//` comment and not after trailing blanks; deleting the inserted token gives back the line; `//` inside a double-quoted literal is not taken for a comment.", "quantifier": "every list of lines and every token", "why_tests_cant": "must hold for every placement of quotes, escapes, slashes and blanks", "anchors": ["src/codemanip/code_utils.py: line_cpp_comment_position, last_code_position_before_cpp_comment, join_lines_with_token_before_cpp_comment, add_item_before_cpp_comment"]}
{"id": "C06", "title": "Python end-of-line comments are aligned by inserting spaces only", "statement": "align_python_comments_in_block puts all detected end-of-line comments of a block in one column (the right-most original one), inserts only spaces just before the `#`, leaves lines without such a comment unchanged, keeps the number of lines, and is idempotent.", "quantifier": "every block of text", "why_tests_cant": "the column is a maximum over an unbounded block; idempotence relates two runs", "anchors": ["src/codemanip/code_utils.py: line_python_comment_position, line_python_comment_eol_position, align_python_comments_in_block"]}
{"id": "C07", "title": "Snake-case conversion is lower-case, idempotent and only adds or merges underscores", "statement": "to_snake_case(name) contains no upper-case ASCII letter, equals the lower-cased name once underscores are erased from both, and to_snake_case(to_snake_case(name)) = to_snake_case(name).", "quantifier": "every identifier (any length, any mix of case, digits, underscores)", "why_tests_cant": "three chained regex substitutions interact on unboundedly many patterns", "anchors": ["src/codemanip/code_utils.py: to_snake_case"]}
{"id": "C08", "title": "Generated code is written only between its markers", "statement": "write_generated_code_between_markers on a file with well-formed marker pairs keeps every line outside the regions (markers included) byte for byte and in order, and the body of a region becomes exactly the inserted code, indented like its opening marker.", "quantifier": "every file content, every marker token, every code to insert", "why_tests_cant": "user code around the region must survive for every file layout", "anchors": ["src/codemanip/code_utils.py: write_generated_code_between_markers, spaces_or_tabs_at_line_start"]}
{"id": "C09", "title": "Writing generated code twice is the same as writing it once", "statement": "Running write_generated_code_between_markers again with the same code on the file it produced does not change the file (and does not write it), whatever was in the region before.", "quantifier": "every well-formed file and every code that does not itself contain the markers", "why_tests_cant": "relates two successive runs over all files and all codes", "anchors": ["src/codemanip/code_utils.py: write_generated_code_between_markers, write_text_file"]}
{"id": "C10", "title": "A file without a usable marker is reported and left untouched", "statement": "If the opening marker is absent, or is found again inside an open region, write_generated_code_between_markers raises an error and the file keeps its content; it never silently loses text outside a region.", "quantifier": "every file content", "why_tests_cant": "error paths must leave the file intact for every malformed layout", "anchors": ["src/codemanip/code_utils.py: write_generated_code_between_markers"]}
{"id": "C11", "title": "One-line comments are safe inside a C string literal", "statement": "format_cpp_comment_on_one_line(comment) contains no line break, no unescaped double quote and no dangling backslash, so that wrapping it in double quotes always gives one complete C literal.", "quantifier": "every comment text", "why_tests_cant": "the escaping is a scan over pairs of characters: every combination of backslashes, quotes and newlines matters", "anchors": ["src/codemanip/code_utils.py: escape_backslash_in_comments, format_cpp_comment_on_one_line, overlapping_pairs"]}
{"id": "C12", "title": "Space normalisation reaches a fixed point", "statement": "force_one_space always terminates; its result has no newline, no tab, no two consecutive spaces and no leading or trailing space, the same non-space characters in the same order, and normalising twice changes nothing.", "quantifier": "every text", "why_tests_cant": "the loop must terminate and normalise runs of any length", "anchors": ["src/codemanip/code_utils.py: force_one_space, remove_redundant_spaces"]}
{"id": "C13", "title": "Template substitution is simultaneous and complete", "statement": "replace_in_string / process_code_template replace each {key} by its value; when no value contains a brace the result does not depend on the order of the keys, no given placeholder remains, and text outside placeholders is untouched; a None value removes exactly the lines containing its placeholder.", "quantifier": "every template, every set of replacements", "why_tests_cant": "sequential replacement is only equivalent to simultaneous replacement under conditions on all values", "anchors": ["src/codemanip/code_utils.py: replace_in_string, replace_in_string_remove_line_if_none, process_code_template, replace_maybe_comma"]}
{"id": "C14", "title": "Replacement lists are applied in order, a bounded number of times", "statement": "RegexReplacementList.apply applies the replacements in list order, repeats until nothing changes and at most three times; if a fixed point is reached within two passes the result is stable under a further apply; add_first/add_last/merge put the new replacements at the stated end.", "quantifier": "every list of replacements (any functions on strings) and every input", "why_tests_cant": "termination and stability quantify over arbitrary replacement functions", "anchors": ["src/codemanip/code_replacements.py: RegexReplacementList.apply, add_first_replacement, add_last_replacement, merge_replacements"]}
{"id": "C15", "title": "Amalgamation terminates and includes every file at most once", "statement": "Amalgamating a header terminates for every include graph, cyclic ones included, and expands every local file at most once.", "quantifier": "every finite file system and include graph", "why_tests_cant": "include graphs with cycles and diamonds of any shape", "anchors": ["src/codemanip/amalgamated_header.py: _amalgamate_one_file, amalgamation_content"]}
{"id": "C16", "title": "Amalgamation keeps every ordinary line of every reached file", "statement": "Every line that is neither an include nor `#pragma once` of every reached local file appears in the output, lines of one file in their original order, and the expansion of an include is placed where the include was; each external include line appears exactly once.", "quantifier": "every finite file system and include graph", "why_tests_cant": "loss or duplication could appear only for particular graph shapes", "anchors": ["src/codemanip/amalgamated_header.py: _amalgamate_one_file, _extract_local_include_file, _extract_external_include_file, AmalgamationOptions"]}
{"id": "C17", "title": "A missing local include is an error, never a silent omission", "statement": "If a local include cannot be found in the base directory nor in the include sub-directories, the amalgamation raises FileNotFoundError and no header is written; the header file is written only when its content changes.", "quantifier": "every file system", "why_tests_cant": "must hold wherever in the include tree the missing file is", "anchors": ["src/codemanip/amalgamated_header.py: _amalgamate_one_file, _fwrite_content, write_amalgamate_header_file"]}
{"id": "C18", "title": "Preprocessor filtering keeps exactly the accepted primary branches", "statement": "With region filtering on, a piece of code is kept if and only if each of the #if/#ifdef/#ifndef regions enclosing it is acceptable and the code lies in the first branch of each (not after its #else/#elif).", "quantifier": "every balanced nesting of conditional directives, of any depth and length", "why_tests_cant": "unbounded nesting depth; the property is about the whole enclosing stack", "anchors": ["src/srcmlcpp/internal/filter_preprocessor_regions.py: filter_preprocessor_regions, _SrcmlPreprocessorState"]}
{"id": "C19", "title": "Preprocessor filtering removes directives together with their region and never crashes", "statement": "The filtered code is a subsequence of the input; the #if, #else and #endif of an excluded region disappear with it and those of an accepted region at kept level stay, so the result is balanced when the input is; stray #else/#endif never raise an error.", "quantifier": "every sequence of directives and code, balanced or not", "why_tests_cant": "arbitrary unbalanced sequences", "anchors": ["src/srcmlcpp/internal/filter_preprocessor_regions.py: _SrcmlPreprocessorState.process_tag, shall_ignore, filter_preprocessor_regions"]}
{"id": "C20", "title": "No C++ comment is lost or attached twice", "statement": "When comments are attached to the elements around them, every comment text of the source ends up exactly once in the result: as the comment on previous lines of the next element, as its end-of-line comment, or as a standalone comment; non-comment elements keep their order and number.", "quantifier": "every sequence of elements and comments with any positions", "why_tests_cant": "depends on positions of arbitrary sequences of elements", "anchors": ["src/srcmlcpp/internal/srcml_comments.py: get_children_with_comments, _group_consecutive_comments"]}
{"id": "C21", "title": "Scopes: accessibility is the prefix order", "statement": "A scope can access another one exactly when the other is one of its ancestors (or itself), i.e. when its path is a prefix; scope_hierarchy_list enumerates exactly those ancestors from innermost to the global scope; parsing a scope string and printing it are inverse.", "quantifier": "every pair of scopes of any depth", "why_tests_cant": "prefix order over unbounded paths", "anchors": ["src/srcmlcpp/cpp_types/scope/cpp_scope.py: CppScope.can_access_scope, scope_hierarchy_list, from_string, str_cpp"]}
{"id": "C22", "title": "Qualifying identifiers only changes identifiers", "statement": "apply_scoped_identifiers_to_code changes nothing but whole identifier tokens: everything else, in particular string literals, comments, punctuation and blanks, is kept character for character and in the same order; with no known identifier the code is unchanged.", "quantifier": "every code text, scope and identifier list", "why_tests_cant": "every interleaving of tokens, strings, comments and separators", "anchors": ["src/srcmlcpp/cpp_types/scope/cpp_scope_process.py: apply_scoped_identifiers_to_code"]}
{"id": "C23", "title": "Qualification follows C++ name lookup (innermost scope first)", "statement": "When several known identifiers match a token, the one declared in the innermost scope accessible from the current scope is used, and an identifier that is not accessible from the current scope is never used.", "quantifier": "every identifier list, scope and token", "why_tests_cant": "depends on the order of an arbitrary identifier list", "anchors": ["src/srcmlcpp/cpp_types/scope/cpp_scope_process.py: current_token_matches_scoped_identifier, apply_scoped_identifiers_to_code"]}
{"id": "C24", "title": "Terse form of an identifier still names the same entity", "statement": "make_terse_code shortens a qualified identifier only by removing a leading part of its path that is an enclosing scope of the current scope, so that looking the short name up from there gives back the qualified name.", "quantifier": "every qualified identifier and every current scope", "why_tests_cant": "prefix removal over unbounded paths", "anchors": ["src/srcmlcpp/cpp_types/scope/cpp_scope_process.py: _make_terse_scoped_identifier, make_terse_code"]}
{"id": "C25", "title": "Enum members without a value get the value C++ gives them", "statement": "get_children_with_filled_decl_values keeps all children in order, keeps explicit values, gives the first member 0 and every other member without a value the value of the previous one plus one, as the C++ standard does.", "quantifier": "every enum (any number of members, any mixture of explicit and implicit values)", "why_tests_cant": "chain of unbounded length; number formats", "anchors": ["src/srcmlcpp/cpp_types/cpp_enum.py: CppEnum.get_children_with_filled_decl_values"]}
{"id": "C26", "title": "Integer macros resolve through any chain of #define and always terminate", "statement": "int_value_from_define_name returns the value obtained by following object-like #defines through any number of indirections, parentheses and C integer literal forms, returns None when the chain is cyclic or does not end in an integer, and always terminates.", "quantifier": "every set of #defines, cyclic ones included", "why_tests_cant": "chains and cycles of any length", "anchors": ["src/srcmlcpp/cpp_types/blocks/cpp_unit.py: CppUnit._resolve_int_token, _fill_int_defines_cache, _parse_c_int_literal"]}
{"id": "C27", "title": "Published macro constants keep their value", "statement": "A #define is published only if its value is a string, integer, hexadecimal, octal or float literal, and the value written in the Python stub denotes the same number as in C++ (octal literals included).", "quantifier": "every macro value text", "why_tests_cant": "all literals of all lengths", "anchors": ["src/litgen/internal/adapted_types/adapted_define.py: _compute_define_value_type, AdaptedDefine.is_publishable, published_python_value"]}
{"id": "C28", "title": "Base class lookup finds a class visible from the current scope", "statement": "find_struct_or_class returns only a class whose name is the requested one and which is declared in a scope visible from the current one; a class is never reported as its own base, and collecting inherited virtual methods terminates.", "quantifier": "every set of classes, scopes and requested names", "why_tests_cant": "name prefixes and self-inheritance through name lookup are rare shapes", "anchors": ["src/srcmlcpp/cpp_types/blocks/cpp_block.py: CppBlock.find_struct_or_class", "src/srcmlcpp/cpp_types/classes/cpp_struct.py: base_classes, virtual_methods"]}
{"id": "C29", "title": "Type printing keeps the meaning of const", "statement": "Printing a type lists specifiers, names and modifiers once each in order; a type written with two const (pointer to const and const pointer) is printed with one const before and one after the type; more than two const is an error.", "quantifier": "every list of specifiers, type names and modifiers", "why_tests_cant": "all lists", "anchors": ["src/srcmlcpp/cpp_types/decls_types/cpp_type.py: CppType.str_code, str_return_type"]}
{"id": "C30", "title": "Namespace code tree: everything stored is emitted once, in its namespace", "statement": "After any sequence of store_code calls, the emitted code contains for each namespace path the codes stored under it, in the order of storing, nested under its parents, each exactly once; root namespaces are transparent.", "quantifier": "every sequence of store_code operations on every path", "why_tests_cant": "histories of any length over trees of any depth", "anchors": ["src/litgen/internal/context/namespaces_code_tree.py: NamespacesCodeTree.store_code, full_tree_code"]}
{"id": "C31", "title": "Stub de-duplication keeps the first of each overload signature", "statement": "dedup_stub_lines keeps every non-overloaded line, keeps for each overloaded function the first declaration of every distinct Python signature and only it, preserves the order, and leaves the @overload decorator exactly on functions that still have at least two declarations.", "quantifier": "every sequence of stub declarations", "why_tests_cant": "duplicates may be arbitrarily far apart, in any order", "anchors": ["src/litgen/internal/adapted_types/stub_overload_dedup.py: dedup_stub_lines"]}
{"id": "C32", "title": "Overload grouping is a stable permutation that makes overloads adjacent", "statement": "Grouping overloaded functions permutes the elements of a block, puts all functions of the same overloaded name next to each other in their original order, and keeps the order of first occurrences of everything else; a block without scattered overloads is unchanged.", "quantifier": "every block of elements", "why_tests_cant": "insertion indices interact for every interleaving of names", "anchors": ["src/litgen/internal/adapted_types/adapted_block.py: AdaptedBlock.group_overloaded_functions"]}
{"id": "C33", "title": "Every parameter adapter still calls the C++ function with one argument per parameter", "statement": "Whatever adapters apply (C arrays, buffers, string lists, excluded parameters, variadic formats, modifiable immutables, mutable defaults ...), the generated lambda calls the wrapped function with exactly as many arguments as it has parameters, in the parameter order.", "quantifier": "every parameter list and every set of options", "why_tests_cant": "parameter lists of any length and mixture; composition of adapters", "anchors": ["src/litgen/internal/adapt_function_params/_adapt_*.py, adapt_*.py: adapt_*", "src/litgen/internal/adapt_function_params/apply_all_adapters.py"]}
{"id": "C34", "title": "Adapted signatures stay valid: no mandatory parameter after an optional one", "statement": "If in the C++ declaration every parameter after one with a default value has a default value, the same holds of the adapted (Python visible) parameter list.", "quantifier": "every parameter list and every adapter", "why_tests_cant": "lists of any length, any subset of adapted parameters", "anchors": ["src/litgen/internal/adapt_function_params/_adapt_exclude_params.py", "src/litgen/internal/adapt_function_params/_adapt_c_string_list.py", "src/litgen/internal/adapt_function_params/_adapt_c_arrays.py", "src/litgen/internal/adapt_function_params/_adapt_variadic_format.py"]}
{"id": "C35", "title": "Parameter names of the Python function stay distinct", "statement": "If the named C++ parameters have distinct names, then the Python visible parameter list (after naming unnamed parameters and after splitting arrays) has distinct, non-empty names.", "quantifier": "every parameter list", "why_tests_cant": "collisions appear only for particular combinations of names", "anchors": ["src/litgen/internal/adapted_types/adapted_function.py: add_names_to_unnamed_params", "src/litgen/internal/adapt_function_params/_adapt_c_arrays.py: adapt_c_arrays"]}
{"id": "C36", "title": "Excluded parameters receive their C++ default value", "statement": "A parameter matched by the exclusion options disappears from the Python signature only if it has a default value, and then the C++ function is called with that default; all other parameters are kept in order.", "quantifier": "every parameter list and every exclusion predicate", "why_tests_cant": "any subset of parameters may be excluded", "anchors": ["src/litgen/internal/adapt_function_params/_adapt_exclude_params.py: adapt_exclude_params"]}
{"id": "C37", "title": "C buffers: sizes vanish from the Python signature and are derived from the arrays", "statement": "For buffer parameters followed by a size, the Python signature drops exactly the size (and stride) parameters of recognised buffers; every other parameter is kept in order and the call receives pointer, size and stride of the right array.", "quantifier": "every parameter list and option set", "why_tests_cant": "groups of up to five buffers, interleaved with other parameters", "anchors": ["src/litgen/internal/adapt_function_params/_adapt_c_buffers.py"]}
{"id": "C38", "title": "Output parameters become return values in order", "statement": "When modifiable immutables are converted to returned values, the adapted function returns the original result (if not void) followed by each converted parameter in parameter order, as a tuple exactly when there is more than one value.", "quantifier": "every parameter list and return type", "why_tests_cant": "any subset of converted parameters", "anchors": ["src/litgen/internal/adapt_function_params/adapt_modifiable_immutable_to_return.py"]}
{"id": "C39", "title": "Python names never collide with reserved words", "statement": "Names produced for Python functions, variables and enum members are never Python reserved words, and the escaping of reserved words is injective on the names that are not already escaped.", "quantifier": "every C++ name", "why_tests_cant": "all names", "anchors": ["src/litgen/internal/cpp_to_python.py: add_underscore_if_python_reserved_word, var_name_to_python, function_name_to_python"]}
{"id": "C40", "title": "Numeric buffer types: C++ type, py::array type code and back", "statement": "The tables from C++ numeric types to array type codes and back are mutually inverse on the supported base types, conversion ignores const and pointer decoration, and an unsupported type is an error.", "quantifier": "all supported types (finite table) and all decorations", "why_tests_cant": "whole table plus all other strings must be rejected", "anchors": ["src/litgen/internal/cpp_to_python.py: cpp_type_to_py_array_type, py_array_type_to_cpp_type"]}
{"id": "C41", "title": "Splitting template arguments loses nothing", "statement": "Splitting a C++ type at its first template argument list cuts it exactly at the first opening bracket and at the bracket that closes it, so that reassembling gives back the type. The translation to Python returns for every type, treats the arguments first at every depth, leaves no angle bracket, and without replacements changes only the brackets and the blanks.", "quantifier": "every type text with balanced angle brackets, of any nesting depth", "why_tests_cant": "unbounded nesting", "anchors": ["src/litgen/internal/cpp_to_python.py: _split_cpp_type_template_args, _perform_cpp_type_replacements_recursively"]}
{"id": "C42", "title": "C++ scopes map to distinct binding variables", "statement": "Two different C++ classes or namespaces never share the same generated C++ binding variable name.", "quantifier": "every pair of scopes", "why_tests_cant": "collisions only for particular names", "anchors": ["src/litgen/internal/cpp_to_python.py: cpp_scope_to_pybind_var_name, cpp_scope_to_pybind_scope_str"]}
{"id": "C43", "title": "Template specialisation decisions are consistent", "statement": "For one specialization option, a template type is never both specialised and excluded; a matching template type is specialised, synonymised or excluded; the Python name built for a specialisation contains no `::`, `&`, `*` or space; the naming and the instantiation of a function template use the same specialization.", "quantifier": "every list of options and every type", "why_tests_cant": "all option lists and types", "anchors": ["src/litgen/internal/template_options.py: _TemplateSpecializationSpec, TemplateSpecList, _apply_template_naming"]}
{"id": "C44", "title": "Publishing decision of functions", "statement": "A function is published only if it is not a destructor, not deleted, not an out-of-class definition, not excluded by name, parameter type or return type, and carries one of the API prefixes when prefixes are configured and excluded non-API functions are on.", "quantifier": "every function and every option set", "why_tests_cant": "combination of all conditions", "anchors": ["src/litgen/internal/adapted_types/adapted_function.py: init_is_function_publishable"]}
{"id": "C45", "title": "Boxed types have distinct valid names", "statement": "Each boxable C++ type gets a Python/C++ boxed class whose name is a valid identifier and different types get different names.", "quantifier": "every boxable type (finite table)", "why_tests_cant": "finite table: must be checked in full", "anchors": ["src/litgen/internal/boxed_python_type.py", "src/litgen/internal/cpp_to_python.py: is_cpp_type_immutable_for_python"]}
{"id": "C46", "title": "Custom bindings are emitted in order, once per target", "statement": "All custom code added for a scope is emitted in the order of addition with its placeholder replaced; code for the main module is emitted exactly once per generator, however many headers are processed.", "quantifier": "every history of additions and emissions", "why_tests_cant": "histories of any length, several generators", "anchors": ["src/litgen/internal/custom_bindings.py: CustomBindings"]}
{"id": "C47", "title": "Multi-file generation: writing after each header ends like writing once", "statement": "write_generated_code_for_files over any list of headers leaves in the output files what a single write after the last header would, namely the code of all headers in order.", "quantifier": "every list of headers", "why_tests_cant": "relates a history of writes to a single write", "anchors": ["src/litgen/litgen_generator.py: write_generated_code_for_files, LitgenGenerator.pydef_code, stub_code"]}
{"id": "C48", "title": "Operators are published under the right Python name or not at all", "statement": "A C++ operator is published exactly when it has a Python dunder counterpart for its arity; unary and binary forms are told apart; a spaceship operator yields comparison methods.", "quantifier": "all operators and arities", "why_tests_cant": "finite tables need full coverage; arity unbounded", "anchors": ["src/litgen/internal/adapted_types/operators.py"]}
{"id": "C49", "title": "Element tree: parents, depth and scope agree", "statement": "After filling parents every child knows its parent, the depth of an element is the number of its ancestors, and its scope is the list of names of its enclosing namespaces, classes and (scoped) enums from the outermost in.", "quantifier": "every element tree", "why_tests_cant": "trees of any depth", "anchors": ["src/srcmlcpp/cpp_types/base/cpp_element.py: fill_children_parents, depth, cpp_scope, ancestors_list"]}
{"id": "C50", "title": "Named-constructor and glue code nest namespaces correctly", "statement": "Code generated around a class inside namespaces opens them from the outermost to the innermost and closes each one exactly once.", "quantifier": "every scope depth", "why_tests_cant": "unbounded depth", "anchors": ["src/litgen/internal/adapted_types/adapted_class.py: _glue_scope_intro_outro, PythonNamedConstructorHelper.make_fake_struct_cpp_code"]}
{"id": "C51", "title": "Multi-line comments stay comments", "statement": "format_python_comment / format_cpp_comment_multiline put the indentation and the comment marker in front of every line of the comment, losing no line; cpp_comment_remove_comment_markers gives back the stripped text of a one-line comment.", "quantifier": "every comment text and indentation", "why_tests_cant": "every line of any text must carry the marker", "anchors": ["src/codemanip/code_utils.py: format_python_comment, format_cpp_comment_multiline, cpp_comment_remove_comment_markers"]}
{"id": "C52", "title": "Enumerations bind each value once, under a valid name", "statement": "The binding code of a C++ enumeration binds every member once, in order, except the one that counts the members, to the C++ value of that name (inside the enumeration for an enum class, beside it for a C enum) under a Python identifier; the stub declares the same names; distinct members keep distinct names; the options for arithmetic and flag enumerations only change the base class.", "quantifier": "every enumeration, every set of member names and comments, every combination of options", "why_tests_cant": "any number of members, any names; comments may contain quotes and comment marks", "anchors": ["src/litgen/internal/adapted_types/adapted_enum.py: AdaptedEnum.pydef_lines, AdaptedEnum.stub_lines, AdaptedEnumDecl.decl_name_cpp_decorated", "src/litgen/internal/cpp_to_python.py: enum_element_is_count", "src/codemanip/code_utils.py: var_name_contains_word"]}
{"id": "C53", "title": "Specialising a template replaces its parameter everywhere, and only it", "statement": "with_specialized_template replaces the template parameter, as a whole word, by the given type in the return type, the parameter types, the member types and, at any depth, the nested classes; everything else is kept; None is returned exactly when no type mentions the parameter; several parameters are replaced at the same time; giving the types one after the other or all at once is the same; the generator can instantiate every template that the options ask for.", "quantifier": "every type, function and class declaration, of any size and nesting depth, every list of template arguments", "why_tests_cant": "types are nested texts of any size where the parameter may occur inside longer words; classes nest to any depth", "anchors": ["src/srcmlcpp/cpp_types/decls_types/cpp_type.py: CppType.with_specialized_template", "src/srcmlcpp/cpp_types/functions/cpp_function_decl.py: CppFunctionDecl.with_specialized_template", "src/srcmlcpp/cpp_types/classes/cpp_struct.py: CppStruct.with_specialized_template", "src/srcmlcpp/cpp_types/template/cpp_i_template_host.py: CppITemplateHost._store_template_specs, str_template_specialization"]}
{"id": "C54", "title": "The adapted functions compute what the C++ function computes", "statement": "Whatever the C++ function does with its arguments, the generated lambdas hand it what the Python caller gave (the items and the length of an array, the content of a box, the text of an optional string, the default value of a hidden parameter, ...) and give back its result and what it left in its arguments (in the box, in the array, or as additional results); a buffer of the wrong type is rejected before the C++ function is called.", "quantifier": "every function, every option set, every argument, every behaviour of the C++ function; lambdas nested to any depth", "why_tests_cant": "quantifies over all C++ functions, all values and all combinations of adapters", "anchors": ["src/litgen/internal/adapt_function_params/apply_all_adapters.py: apply_all_adapters, _make_adapted_lambda_code", "src/litgen/internal/adapt_function_params/_adapt_c_buffers.py", "src/litgen/internal/adapt_function_params/_adapt_c_arrays.py", "src/litgen/internal/adapt_function_params/_adapt_c_string_list.py", "src/litgen/internal/adapt_function_params/_adapt_exclude_params.py", "src/litgen/internal/adapt_function_params/_adapt_mutable_param_with_default_value.py", "src/litgen/internal/adapt_function_params/_adapt_variadic_format.py", "src/litgen/internal/adapt_function_params/adapt_modifiable_immutable.py", "src/litgen/internal/adapt_function_params/adapt_modifiable_immutable_to_return.py", "src/litgen/internal/adapt_function_params/adapt_const_char_pointer_with_default_null.py"]}
{"id": "C55", "title": "The adapted functions show the announced parameters", "statement": "In the signature that Python sees, each C++ parameter is replaced by what its adapter announces and by nothing else: an optional for a mutable default value, a null text or a nullable pointer; a std::array of the same size or one reference per item for a C array; a box for a modifiable immutable value; a vector of strings for a C string list; all other parameters are kept, in order, with their types and default values. A function to which no adapter applies is bound as it is.", "quantifier": "every function and every option set", "why_tests_cant": "every combination of parameters; arrays of any size", "anchors": ["src/litgen/internal/adapt_function_params/apply_all_adapters.py: apply_all_adapters", "src/litgen/internal/adapted_types/adapted_decl.py: AdaptedDecl.c_array_fixed_size_to_const_std_array, c_array_fixed_size_to_mutable_new_boxed_decls", "src/litgen/internal/adapt_function_params/adapt_modifiable_immutable.py", "src/litgen/internal/adapt_function_params/adapt_modifiable_immutable_to_return.py", "src/litgen/internal/adapt_function_params/_adapt_mutable_param_with_default_value.py", "src/litgen/internal/adapt_function_params/_adapt_c_string_list.py"]}
{"id": "C56", "title": "The tree of elements of a file is the one of its XML", "statement": "Every declaration of a source file, at every depth (namespaces, classes, access sections, extern \"C\" blocks, enumerations), is represented by exactly one element of the parsed tree, in the order of the file, with the comments attached to it; something which cannot be parsed is kept as an unprocessed element and changes nothing for the others; the parser ends without an uncaught exception.", "quantifier": "every XML tree, of any depth and width", "why_tests_cant": "trees are unbounded; the places where something is dropped or where an exception escapes depend on the nesting", "anchors": ["src/srcmlcpp/internal/cpp_types_parse.py: fill_block, parse_unit, parse_struct_or_class, parse_namespace, parse_enum, parse_public_protected_private", "src/srcmlcpp/internal/srcml_comments.py: get_children_with_comments"]}
{"id": "C57", "title": "A declaration statement gives one declaration per declarator", "statement": "`T a = 1, *b[3];` gives the declarations `T a = 1` and `T *b[3]`: each declarator has the specifiers and the names of the type, its own modifiers, name, array sizes, initial value and comments.", "quantifier": "every statement with any number of declarators", "why_tests_cant": "unbounded number of declarators, and the type names are shared between the declarations by reference", "anchors": ["src/srcmlcpp/internal/cpp_types_parse.py: parse_decl_stmt, parse_decl, parse_type"]}
{"id": "C58", "title": "A type keeps its words", "statement": "The names, the specifiers and the modifiers of a type are kept in their order; its API names become specifiers; an unknown modifier is refused with an exception that is caught; a type without a name is refused.", "quantifier": "every list of words of a type", "why_tests_cant": "the loop removes items from the list it goes through; depends on the positions of the API names in lists of any length", "anchors": ["src/srcmlcpp/internal/cpp_types_parse.py: parse_type"]}
{"id": "C59", "title": "Functions and constructors keep their signature", "statement": "A function keeps its name, its return type (trailing or not), its template parameters, its parameters in order with their names and default values, its specifiers, `noexcept`, `= 0`, and whether it has a body; the same for constructors.", "quantifier": "every function with any number of parameters and of specifiers", "why_tests_cant": "signatures of any length", "anchors": ["src/srcmlcpp/internal/cpp_types_parse.py: parse_function_decl, parse_function, fill_function_decl, parse_constructor_decl, parse_constructor, parse_parameter, parse_parameter_list, parse_template"]}
{"id": "C60", "title": "A declaration keeps its parts", "statement": "A declaration keeps its type, its name, the sizes of its array, its bit field, its initial value (an expression or a list of arguments) and its comments.", "quantifier": "every declaration", "why_tests_cant": "names, array sizes and initial values are arbitrary texts, argument lists are unbounded", "anchors": ["src/srcmlcpp/internal/cpp_types_parse.py: parse_decl, _parse_init_expr, _parse_decl_initializer_list, _parse_expr, _parse_name"]}
{"id": "C61", "title": "Functions with default values in braces are recovered", "statement": "A declaration statement that is in fact a function with a default value in braces is rewritten so that srcML sees a function, and the default values of the parsed function get their braces back; other statements are left alone; in a class, a macro with the name of the class is a constructor; the documentation is kept and nothing is raised.", "quantifier": "every statement, any number of arguments, any text between braces", "why_tests_cant": "texts between the braces and lists of arguments are unbounded", "anchors": ["src/srcmlcpp/internal/fix_brace_init_default_value.py: change_decl_stmt_to_function_decl_if_suspicious, change_macro_to_constructor, _rewrite_decl_if_suspicious_fn_decl, _hack_block_replace_braces, _change_fn_params_default_to_brace_init"]}
{"id": "C62", "title": "The binding of a function is a head, a callable and its annotations", "statement": "The C++ statement that binds a function, a method or a constructor consists of its head (`m.def(\"name\",` or `.def(`, `.def_static(`, `.def(py::init`), the callable chosen for it (an address, a cast to the overload, a lambda, a type list) and, separated by commas, its annotations in a fixed order: arguments, docstring, return policy, keep alive, call guard; the text of the docstring goes into it unchanged, and brackets, strings and comments are closed.", "quantifier": "every function with any parameters, names, types, default values, comments and options", "why_tests_cant": "the annotations depend on five optional parts, on unbounded parameter lists and on arbitrary texts that pass through templates", "anchors": ["src/litgen/internal/adapted_types/adapted_function.py: pydef_lines, _pydef_without_lambda_str_impl, _pydef_with_lambda_str_impl, _pydef_constructor_str, _pydef_end_arg_docstring_returnpolicy, _pydef_pyarg_list, _pydef_method_creation_part, _pydef_flag_needs_lambda", "src/codemanip/code_utils.py: process_code_template"]}
{"id": "C63", "title": "The callable of a binding has the arguments of its annotations", "statement": "The callable of a binding takes as many arguments as pybind11 expects from the annotations and from the kind of the statement, a call in Python takes the parameters of the adapted function, two overloads are not bound by the same callable, and a function that returns a reference is bound by a callable that returns a reference.", "quantifier": "every function, method and constructor, static or not, overloaded or not, with any parameters", "why_tests_cant": "the callable depends on combinations of static, const, overloads, adapters and options with unbounded parameter lists", "anchors": ["src/litgen/internal/adapted_types/adapted_function.py: _pydef_without_lambda_str_impl, _pydef_with_lambda_str_impl, _pydef_constructor_str, _pydef_str_parent_cpp_scope_prefix, _pydef_flag_needs_lambda"]}
{"id": "C64", "title": "The stub shows the named arguments of the binding", "statement": "The names of the arguments in the binding and in the stub are the same, in the same order, with a default value in one exactly when there is one in the other; the value after `py::arg` is the C++ default value; a parameter which is `None` by default has an optional type.", "quantifier": "every function, any number of parameters, any names and default values", "why_tests_cant": "parameter lists and default values are unbounded", "anchors": ["src/litgen/internal/adapted_types/adapted_function.py: _stub_params_list_signature, _pydef_pyarg_list", "src/litgen/internal/adapted_types/adapted_decl.py: _str_pydef_as_pyarg"]}
{"id": "C65", "title": "The header of a stub", "statement": "The header of a function in the stub is on one line if the line is short enough, else it has one parameter per line and the lines make up the same text; a method has `self` as first parameter exactly when it has no `@staticmethod`; the binding and the stub agree on what is static.", "quantifier": "every function, any parameters, any limit of the length of the lines", "why_tests_cant": "the lengths of names and lists are unbounded", "anchors": ["src/litgen/internal/adapted_types/adapted_function.py: stub_lines, _stub_params_list_signature, _stub_return_type_python, _pydef_method_creation_part"]}
{"id": "C66", "title": "Policies in comments", "statement": "The return policy of a function is the word that follows the first `return_value_policy::` or `rv_policy::` in its comments, looked for in a fixed order, unless the options force `reference`; the word is a policy of the library; a `py::keep_alive<...>()` in a comment is taken as it is written.", "quantifier": "every comment, every function", "why_tests_cant": "comments are arbitrary texts", "anchors": ["src/litgen/internal/adapted_types/adapted_function.py: _pydef_fill_return_value_policy, _pydef_fill_call_policy_from_function_comment, _pydef_fill_keep_alive_from_function_comment", "src/codemanip/code_utils.py: find_word_after_token"]}
{"id": "C67", "title": "Docstrings are Python strings", "statement": "The lines of the docstring of an element in the stub are one Python string between triple quotes, whose value is the comment of the element up to spaces and a new line at its ends.", "quantifier": "every comment", "why_tests_cant": "comments are arbitrary texts with any quotes and backslashes", "anchors": ["src/litgen/internal/cpp_to_python.py: docstring_lines"]}
{"id": "C68", "title": "Data members: binding and stub agree", "statement": "For every published data member of a class, the binding and the line of the stub give it the same Python name, both say whether it is static, and both say whether it can be set, namely if it is not const or constexpr and the options do not make it read-only; the pointer in the binding is the one to this member; the docstring is a string whose value is the comment of the member; a pointer whose default value is nullptr is optional in the stub.", "quantifier": "every member (any type, specifiers, array size, comments, initial value), every set of options, both binding libraries", "why_tests_cant": "the combinations of specifiers, array sizes, comments and options are unbounded", "anchors": ["src/litgen/internal/adapted_types/adapted_class.py: AdaptedClassMember.pydef_lines, stub_lines, _str_pydef_lines_field, _str_pydef_lines_numeric_array", "src/litgen/internal/adapted_types/adapted_decl.py: AdaptedDecl"]}
{"id": "C69", "title": "Which data members are published", "statement": "The published members of a class are exactly those that can be bound (no bit fields, no references, arrays of numbers whose size is known) and that the options do not exclude, in their order; the parameters of the named constructor are among them and are not constant.", "quantifier": "every list of members, every set of options", "why_tests_cant": "lists of members are unbounded and the filters combine", "anchors": ["src/litgen/internal/adapted_types/adapted_class.py: AdaptedClassMember.check_can_publish, _is_numeric_c_array, AdaptedClass._init_add_adapted_class_member", "src/srcmlcpp/cpp_types/decls_types/cpp_decl.py: is_c_array_fixed_size_unparsable"]}
{"id": "C70", "title": "Declaration of a class: bases, holder, name, docstring", "statement": "The binding declares a class with its full C++ name and all its template arguments, exactly its public bases (or those that the callback gives), its trampoline and at most one holder, in the place of its scope, with its Python name, its flags and its docstring; the first line of the stub declares the same name with the Python names of the same bases.", "quantifier": "every class (any scope, specialization, list of bases, constructors and destructors, comments), every set of options, both binding libraries", "why_tests_cant": "lists of bases with specifiers, holders and options combine without bound", "anchors": ["src/litgen/internal/adapted_types/adapted_class.py: AdaptedClass.pydef_lines (make_pyclass_creation_code), stub_lines (str_parent_classes_python)", "src/srcmlcpp/cpp_types/base/cpp_access_type.py: from_name"]}
{"id": "C71", "title": "The binding of a class is closed C++ code", "statement": "If the names, types, values and elements of a class are closed pieces of C++ (brackets, literals and comments are closed), then the whole binding of the class is closed, with all of constructors, named constructor, inner classes, public and protected elements, copies and iteration, and it is one chain of calls ended by a semicolon (followed by the custom code).", "quantifier": "every class with any number of children, inner classes, protected methods, named constructor parameters; every set of options, both libraries", "why_tests_cant": "the nesting of inner classes and the numbers of elements are unbounded", "anchors": ["src/litgen/internal/adapted_types/adapted_class.py: AdaptedClass.pydef_lines, _cp_pydef, PythonNamedConstructorHelper.pydef_code", "src/codemanip/code_utils.py: process_code_template, indent_code"]}
{"id": "C72", "title": "Layout of the stub of a class", "statement": "The stub of a class is its first line followed by a block: every other line is empty or indented, there is at least one statement in the block; making the stub again, or making the binding afterwards, gives what it would have given the first time.", "quantifier": "every class with any children and comments, every set of options", "why_tests_cant": "bodies and comments are unbounded; most tests have classes with members and make the stub once", "anchors": ["src/litgen/internal/adapted_types/adapted_class.py: AdaptedClass.stub_lines", "src/litgen/internal/adapted_types/adapted_element.py: _elm_str_stub_layout_lines", "src/codemanip/code_utils.py: indent_code_lines, align_python_comments_in_block_lines"]}
{"id": "C73", "title": "Copies of objects", "statement": "A class gets __copy__ or __deepcopy__ in the binding exactly if the options ask for it and C++ can copy a constant object of the class; the text is one lambda that calls the copy constructor; the docstring announces exactly the copies that the binding has.", "quantifier": "every class with any list of constructors, every set of options, both libraries", "why_tests_cant": "lists of constructors with any parameters are unbounded", "anchors": ["src/litgen/internal/adapted_types/adapted_class.py: AdaptedClass._cp_shall_create_copy_impl, _cp_stub_comment, _cp_pydef", "src/srcmlcpp/cpp_types/functions/cpp_function_decl.py: is_copy_constructor", "src/srcmlcpp/cpp_types/classes/cpp_struct.py: get_user_defined_copy_constructor"]}
{"id": "C74", "title": "Constructor with named arguments in the binding", "statement": "The binding of the named constructor has the parameters of the adapted function and their Python arguments, makes exactly one object of the class, and assigns every named member, in order, from the parameter of the same name, or from its default value if the parameter was made optional and is absent.", "quantifier": "every class with any number of named members and any default values, both libraries", "why_tests_cant": "the number of members is unbounded and default values are free text that goes through a template", "anchors": ["src/litgen/internal/adapted_types/adapted_class.py: PythonNamedConstructorHelper.pydef_code"]}
{"id": "C75", "title": "The elements of a class are in its binding and in its stub", "statement": "The binding of a class has, without loss and in the order of the class, the code of its inner classes and enumerations, the constructor that it needs (none if constructors are written; else the implicit one or the named one), the code of its other public elements and of the published protected methods; the stub has, in order, all lines of its elements (one of each overload), of the same constructor and of the protected methods; iteration is in one exactly if it is in the other.", "quantifier": "every class with any number of elements, constructors, protected methods; every set of options, both libraries", "why_tests_cant": "numbers and kinds of elements are unbounded", "anchors": ["src/litgen/internal/adapted_types/adapted_class.py: AdaptedClass.pydef_lines, stub_lines", "src/litgen/internal/adapted_types/stub_overload_dedup.py: dedup_stub_lines"]}
{"id": "C76", "title": "Modules of the binding of a unit", "statement": "The binding of a unit has first what stands in no namespace or in root namespaces only; then each module once, in the order of first occurrence: a block that creates the module in its parent, with the docstring of the first occurrence, then the code of all namespaces of that name in source order, then the modules inside it; last the custom code of the main module; and nothing else.", "quantifier": "every tree of namespaces, of any depth and with any number of reopened namespaces, every set of root namespaces and options", "why_tests_cant": "depth, number and interleaving of namespaces are unbounded", "anchors": ["src/litgen/internal/adapted_types/adapted_namespace.py: AdaptedNamespace.str_pydef", "src/litgen/internal/adapted_types/adapted_unit.py: AdaptedUnit.str_pydef", "src/litgen/internal/context/namespaces_code_tree.py: NamespacesCodeTree"]}
{"id": "C77", "title": "Proxy classes of the stub of a unit", "statement": "The stub of a unit has first what stands in no namespace or in root namespaces only; then one proxy class per module, nested as the modules are, each with the stub code of all namespaces of that name in source order, indented, and its comment; and nothing else.", "quantifier": "every tree of namespaces, every set of root namespaces and options", "why_tests_cant": "depth, number and interleaving of namespaces are unbounded", "anchors": ["src/litgen/internal/adapted_types/adapted_namespace.py: AdaptedNamespace.str_stub", "src/litgen/internal/adapted_types/adapted_unit.py: AdaptedUnit.str_stub"]}
{"id": "C78", "title": "Published elements of a unit", "statement": "A unit gets, in source order with the overloads of a function grouped at the first one, an element for each empty line, comment and condition macro, for each class, function, macro and enumeration that is wanted and can be adapted, for each wanted global variable up to the first one of its statement that cannot be adapted, and for each named, not excluded namespace with a block, recursively; an element that cannot be adapted removes no other element of another statement.", "quantifier": "every tree of C++ elements, every set of options, every pattern of failures", "why_tests_cant": "trees of elements and patterns of failing elements are unbounded", "anchors": ["src/litgen/internal/adapted_types/adapted_block.py: AdaptedBlock._fill_adapted_elements"]}
{"id": "C79", "title": "Regular expressions of the standard replacements", "statement": "Every standard replacement of types, values and comments is readable by re; a match is found at a place exactly if one exists there; a replacement keeps every character at which no match begins and replaces each match once, from left to right; and a rule `\\bname\\b -> text` replaces the name wherever it is a whole word and nowhere else.", "quantifier": "every text, every regular expression built from the supported constructs, every identifier and replacement text", "why_tests_cant": "texts and expressions are unbounded; the backtracking has exponentially many paths", "anchors": ["src/codemanip/code_replacements.py: RegexReplacement.apply", "src/litgen/internal/cpp_to_python.py: standard_type_replacements, standard_value_replacements, standard_comment_replacements"]}
{"id": "C80", "title": "Translation of values", "statement": "The standard replacements translate a C++ value piece by piece: true, false, NULL, nullptr and the limits of floating numbers become their Python names, numbers lose the suffix f, F, d or D, `::` becomes `.`, everything else is kept in order; translating the result again changes nothing.", "quantifier": "every sequence of words, numbers and other characters", "why_tests_cant": "values are unbounded texts and the rules act on each other's results over several passes", "anchors": ["src/litgen/internal/cpp_to_python.py: standard_value_replacements, var_value_to_python", "src/codemanip/code_replacements.py: RegexReplacementList.apply"]}
{"id": "C81", "title": "Translation of comments", "statement": "The standard replacements of comments change only the words true, false, void, NULL, nullptr and the suffix f or d of numbers; every other word, number and character of the comment is kept in order, and the result is not changed again.", "quantifier": "every sequence of words, numbers and other characters", "why_tests_cant": "comments are unbounded texts", "anchors": ["src/litgen/internal/cpp_to_python.py: standard_comment_replacements", "src/codemanip/code_replacements.py: RegexReplacementList.apply"]}
{"id": "C82", "title": "Translation of types", "statement": "The translation of a C++ type to Python translates the arguments of a template first, at any depth: integers become int, floating numbers float, texts str, void None; const, mutable, & and * vanish; vector and array become List, tuple and pair Tuple, variant Union, optional Optional, map Dict, function Callable, smart pointers what they point to; any other template takes square brackets; every other word and character is kept in order, and nothing of the C++ tables is left.", "quantifier": "every type built from words, names and templates nested to any depth", "why_tests_cant": "types nest without bound and forty rules act on each other's results over several passes", "anchors": ["src/litgen/internal/cpp_to_python.py: standard_type_replacements, _perform_cpp_type_replacements_recursively, type_to_python", "src/codemanip/code_replacements.py: RegexReplacementList.apply"]}
{"id": "C83", "title": "Names of siblings in stub texts", "statement": "In a stub text that is translated inside nested namespaces and classes, every word which is a member of an enclosing scope and does not follow a dot gets the Python name of that scope in front of it; every other character is kept in its place, and the result does not depend on the order in which the set of members is iterated.", "quantifier": "every text, every nesting of scopes, every set of members", "why_tests_cant": "the members and the texts are unbounded, and the substitutions run one after the other on each other's results", "anchors": ["src/litgen/internal/cpp_to_python.py: qualify_sibling_types", "src/litgen/internal/context/litgen_context.py: _python_scope_members", "src/litgen/internal/adapted_types/adapted_class.py", "src/litgen/internal/adapted_types/adapted_namespace.py"]}
{"id": "C84", "title": "Names of the parameters of callables", "statement": "In a Python type every Callable loses the names of its parameters and keeps their types, wherever it is in the type and however many there are; a text without Callable is kept.", "quantifier": "every number of callables, of parameters and of parts of their types", "why_tests_cant": "types contain any number of callables with any number of parameters", "anchors": ["src/litgen/internal/cpp_to_python.py: _strip_callable_param_names"]}
{"id": "C85", "title": "Namespaces of names in Python texts", "statement": "In a translated type or value every namespace before a dot takes its Python name, the root namespaces vanish with their dot, all other words are kept, the result does not depend on the order in which Python iterates the set of namespaces, and the same text has the same translation in all the blocks of a namespace.", "quantifier": "every text, every set of namespaces, every sequence of nested blocks", "why_tests_cant": "the replacements are substring replacements over a set whose order changes from run to run", "anchors": ["src/litgen/internal/cpp_to_python.py: type_to_python, var_value_to_python", "src/litgen/internal/adapted_types/adapted_namespace.py: stub_lines", "src/litgen/internal/context/namespaces_code_tree.py"]}
{"id": "C86", "title": "Translation of default values", "statement": "With the standard options a default value is translated piece by piece (true, false, nullptr, suffixes of numbers, scopes), the names of numeric macros are replaced by their values, braces are described in words, and a specialized template class takes its Python name with its arguments translated as other values are.", "quantifier": "every sequence of words, numbers and other characters, every list of macros", "why_tests_cant": "values are unbounded texts to which the replacements of types are applied as well", "anchors": ["src/litgen/internal/cpp_to_python.py: var_value_to_python", "src/litgen/internal/template_options.py: specialized_type_python_default_value"]}
{"id": "C87", "title": "Whole translation of a type", "statement": "type_to_python removes the qualifiers static and constexpr, translates the type with the standard replacements at any depth of templates, writes scopes with dots and white space as one blank, gives the namespaces their Python names, removes the root namespaces and the names of the parameters of callables; a name of a class is never changed because of its spelling.", "quantifier": "every type built from words, names and templates nested to any depth, every set of namespaces", "why_tests_cant": "seven passes act on each other's results over unbounded texts", "anchors": ["src/litgen/internal/cpp_to_python.py: type_to_python, _perform_cpp_type_replacements_recursively, _strip_callable_param_names"]}
{"id": "C88", "title": "Detection of mutable default values", "statement": "A parameter is treated as one with a mutable default value exactly when its type is not one whose values never change (numbers, booleans, texts, a known enumeration, a type of the options) and its default value is not a literal, a word that is a value, or the construction of such a type. All literals of C++ count as immutable, an expression that is not one literal does not, const before the type does not matter, and a name reaches an enumeration as in C++.", "quantifier": "every type and default value as texts, every list of enumerations, every scope", "why_tests_cant": "default values are unbounded texts that are matched against regular expressions", "anchors": ["src/srcmlcpp/cpp_types/functions/cpp_parameter.py: _looks_like_mutable_default_value, seems_mutable_param_with_default_value", "src/litgen/internal/adapt_function_params/_adapt_mutable_param_with_default_value.py: _can_access_enum_with_type, _immutable_functions_default"]}
{"id": "C89", "title": "Qualified and terse forms of functions, and their caches", "statement": "Asking a function for its qualified form gives the function where exactly the names of the types and of the default values are qualified in the given scope (a lone void parameter is dropped), and leaves the function itself unchanged. Asking again, in the same or in another scope, gives the same answer as asking a function that was never asked. The instance of a template has the qualified types of the instance. The terse form is the qualified form without the given scope.", "quantifier": "every function, every set of identifiers, every sequence of calls, every scope", "why_tests_cant": "the answers depend on caches filled by earlier calls, in any order and number", "anchors": ["src/srcmlcpp/cpp_types/functions/cpp_function_decl.py: with_qualified_types, with_terse_types, with_specialized_template", "src/srcmlcpp/cpp_types/decls_types/cpp_decl.py: with_qualified_types, with_terse_types", "src/srcmlcpp/cpp_types/functions/cpp_parameter_list.py: with_qualified_types", "src/litgen/internal/adapted_types/adapted_class.py: _tpl_instantiate_template_for_type"]}
{"id": "C90", "title": "Text of the lambdas of the adapters", "statement": "The C++ code that is published for a function whose parameters are adapted is one lambda per adapter, one after the other. Each lambda has the name, the parameters and the return type of its adapter; its body is the input code, the call, the output code and the return, indented. The first lambda calls the function (through self for a method), each other one captures and calls the one before. When outputs are returned, the values and their types are in the same order: the result of the function, then the outputs; one value is returned as it is. The result is kept by reference only when what is called returns a reference.", "quantifier": "every function, every sequence of adapters, every number of outputs, every indentation", "why_tests_cant": "the code is made by successive textual replacements in templates, and a text that is inserted can hold the placeholder of a later one; any number of adapters can follow one another", "anchors": ["src/litgen/internal/adapt_function_params/apply_all_adapters.py: _make_adapted_lambda_code, _make_adapted_lambda_code_end, _apply_adapter", "src/litgen/internal/adapt_function_params/adapt_modifiable_immutable_to_return.py: adapt_modifiable_immutable_to_return"]}
{"id": "C91", "title": "Wrapper of an adapted constructor", "statement": "A constructor whose parameters are adapted is published through a wrapper: its declaration and its lambda have the parameters of the constructor (after the object itself, with nanobind), and the lambda makes an object of the class with the names of the parameters. The lambdas of the adapters follow, the first one captures and calls the wrapper. Without an adapter there is no code.", "quantifier": "every class, every list of parameters, both binding libraries, every sequence of adapters", "why_tests_cant": "the text depends on commas that are dropped at the end of templates, for any parameters", "anchors": ["src/litgen/internal/adapt_function_params/apply_all_adapters.py: _apply_all_adapters_on_constructor", "src/codemanip/code_utils.py: process_code_template"]}
{"id": "C92", "title": "Layout of the C++ code that is printed", "statement": "str_block prints the elements of a block one after the other, in their order: each element gives its own lines (comment above, code, comment at the end of the line), each child of a namespace, a class, an enum or an access zone is one level deeper than its parent, between the braces of the parent, enumerators are separated by commas, and each line ends with a line break. Nothing is lost, moved or put on the line of another element.", "quantifier": "every tree of elements of any depth, every indentation made of blanks", "why_tests_cant": "the code indents, strips and splits the text of children again at each level, so that a defect shows only for some nestings of comments, enums, access zones and blank lines", "anchors": ["src/srcmlcpp/cpp_types/blocks/cpp_block.py: str_block", "src/srcmlcpp/cpp_types/base/cpp_element_and_comments.py: str_commented", "src/srcmlcpp/cpp_types/blocks/cpp_public_protected_private.py: str_public_protected_private", "src/srcmlcpp/cpp_types/classes/cpp_struct.py: str_code", "src/srcmlcpp/cpp_types/cpp_namespace.py: str_code", "src/srcmlcpp/cpp_types/cpp_enum.py: str_code"]}
{"id": "C93", "title": "Code printed for a declaration", "statement": "The code printed for a declaration, the head of an enum or of a class, and the declaration of a function has all the parts of what was parsed, in the order of C++: for a variable its type, name, array size, bit width and initial value; for an enum its underlying type; for a class the parameters of its template, its macro, final, and its bases; for a function the parameters of its template with their default values, the specifiers and the type that is returned (before the name or after an arrow), the parameters, const and so on, noexcept, = 0, and a semicolon.", "quantifier": "every declaration, every list of parameters, specifiers, bases and template parameters", "why_tests_cant": "each printed part is optional, and the tests have few of the combinations", "anchors": ["src/srcmlcpp/cpp_types/decls_types/cpp_decl.py: str_code", "src/srcmlcpp/cpp_types/functions/cpp_function_decl.py: _str_signature, str_code", "src/srcmlcpp/cpp_types/functions/cpp_constructor_decl.py: str_code", "src/srcmlcpp/cpp_types/classes/cpp_struct.py: str_code", "src/srcmlcpp/cpp_types/cpp_enum.py: str_code", "src/srcmlcpp/cpp_types/template/cpp_i_template_host.py: str_template"]}
{"id": "C94", "title": "Comments that are printed with an element", "statement": "The comment above an element is printed as lines which are all comments, one for each line of the comment, with its text, and a line break ends it. The comment at the end of the line is on that line, and is a comment. from_comments puts // before each line, and joins the lines of the comment at the end of the line with a bar. Adding a comment adds its lines after those which are there.", "quantifier": "every comment, of any number of lines", "why_tests_cant": "a line is prefixed only if it does not begin with // after blanks, and line breaks are added only where there is none; the tests have comments of one or two lines", "anchors": ["src/srcmlcpp/cpp_types/base/cpp_element_comments.py: from_comments, top_comment_code, eol_comment_code, add_comment_on_previous_lines"]}
{"id": "C95", "title": "Names of the sizes of buffers", "statement": "With the standard options a parameter is taken for the size of a buffer when its name has one of the words nb, size, count, total, n.", "quantifier": "every name", "why_tests_cant": "five expressions for each of five words are joined; the tests have about ten names", "anchors": ["src/litgen/options.py: fn_params_buffer_size_names__regex", "src/codemanip/code_utils.py: make_regex_var_name_contains_word, does_match_regex", "src/litgen/internal/adapt_function_params/_adapt_c_buffers.py: _name_looks_like_buffer_size"]}
{"id": "C96", "title": "Types of buffers", "statement": "A parameter is taken for a buffer when its type is a pointer to one of the types of the option, with or without const; it is not when the type is another one, however it is spelt.", "quantifier": "every list of types in the option, every type of a parameter", "why_tests_cant": "the type is looked for in its text with an expression made of the name in the option; the tests have the standard types only", "anchors": ["src/litgen/internal/adapt_function_params/_adapt_c_buffers.py: _looks_like_param_buffer_standard, _looks_like_param_template_buffer", "src/codemanip/code_utils.py: contains_pointer_type, contains_word_boundary_left_only", "src/litgen/options.py: fn_params_buffer_types, fn_params_buffer_template_types"]}
{"id": "C97", "title": "Options that are joined expressions", "statement": "A text matches expressions that are joined with | when it matches one of them, and a | before the first one does not matter: so adding an expression to an option only adds the names that this expression matches.", "quantifier": "every list of expressions that re accepts (of the modelled syntax), every text", "why_tests_cant": "whether a | joins whole expressions depends on the groups, sets and escapes of all of them", "anchors": ["src/codemanip/code_utils.py: join_string_by_pipe_char, does_match_regex, _compile_regex"]}
{"id": "C98", "title": "Which class is published, and its name", "statement": "The class that is published for X + suffix is X, for every suffix of the options; the first class of the code whose name has such a suffix is the one that is published.", "quantifier": "every class name, every list of classes, every options", "why_tests_cant": "the suffixes end with one another, so the order of the list matters for some names only; the tests use one suffix", "anchors": ["src/srcmlcpp_tools/pimpl_my_class/pimpl_my_class.py: _published_class_name, PimplOptions, pimpl_my_code"]}
{"id": "C99", "title": "Glue code of a published class", "statement": "The glue code has exactly one definition for every public method and constructor, in order, and one for the destructor; a definition has the return type without the specifiers of a declaration, the parameters without their default values, const if the method is, and it calls the method of the implementation with the names of the parameters and returns the result.", "quantifier": "every class, every method, every options", "why_tests_cant": "ten values are inserted one after the other in a template; the tests compare a few outputs and never compile them", "anchors": ["src/srcmlcpp_tools/pimpl_my_class/pimpl_my_class.py: _glue_code, _published_method_glue_impl, _published_constructor_impl, _remove_published_incompatible_specifiers"]}
{"id": "C100", "title": "Header of a published class", "statement": "The header is made of the forward declaration of the implementation, the comment of the class, and the class with one declaration for every public function, in order, with its comments, the comments of the public zones, the destructor, and the private pointer to the implementation.", "quantifier": "every class, every options with blanks as indentation", "why_tests_cant": "the text goes through two templates, an indentation and a reduction of empty lines; the tests have three classes", "anchors": ["src/srcmlcpp_tools/pimpl_my_class/pimpl_my_class.py: _header_code, _published_method_decls, _published_method_decl, _published_constructor_decl"]}
{"id": "C101", "title": "Queries on a class: elements, members, methods by access", "statement": "The elements, members and methods that are asked with an access are exactly those of the zones with this access, in the order of the code; each element has exactly one access; the members given with their access are those that the access gives.", "quantifier": "every class, every access, every kind of element", "why_tests_cant": "five functions walk through the zones on their own; the tests have classes with one zone of each access", "anchors": ["src/srcmlcpp/cpp_types/classes/cpp_struct.py: get_access_blocks, get_members, get_members_with_access_type, get_elements, get_methods, get_methods_with_name"]}
{"id": "C102", "title": "Addition of a method to a class", "statement": "A method that is added with an access is the last element of this access; no other element is added, moved or lost; the text of the class is what it was with the text of the method on its own lines; it is an overload exactly when the class had a method with its name.", "quantifier": "every class, every access, every method", "why_tests_cant": "the zone that receives the method is created when it is missing, and may be any zone of the class; the effects are seen through several queries and the printed text", "anchors": ["src/srcmlcpp/cpp_types/classes/cpp_struct.py: add_method, add_access_block, get_access_blocks", "src/srcmlcpp/cpp_types/functions/cpp_function_decl.py: is_overloaded_method"]}
{"id": "C103", "title": "Which elements of a class are published, at any depth", "statement": "The children of an adapted class are the elements of its public zones that the options do not exclude, in the order of the code; an element of an inner class is published if and only if all the classes around it are public, not excluded and adaptable; the content of the private zones has no effect beyond the names of its functions.", "quantifier": "every class with inner classes at any depth, every options", "why_tests_cant": "it is a statement on all the classes that differ in their private parts, and on all depths of inner classes; the tests have two levels", "anchors": ["src/litgen/internal/adapted_types/adapted_class.py: AdaptedClass.__init__, _init_fill_public_children, _init_add_adapted_class_member, _init_add_adopted_class_function, _prot_fill_methods"]}
{"id": "C104", "title": "Translation of the C++ names of enumerations and functions in values", "statement": "In a value, each whole word that is the C++ name of a member of an enumeration that was seen becomes the Python name of this member, a qualified member of a scoped enumeration becomes its qualified Python name, the name of a function that is called becomes its Python name; nothing else changes.", "quantifier": "every enumeration, every function, every text of a value", "why_tests_cant": "the rules are regular expressions built from the names and applied one after the other: a rule may act on what another rule has written, or on a part of another identifier; the tests have two enumerations", "anchors": ["src/litgen/internal/adapted_types/adapted_enum.py: AdaptedEnumDecl.cpp_to_python_replacements, AdaptedEnum.cpp_to_python_replacements", "src/litgen/internal/adapted_types/adapted_function.py: _register_function_name_replacement"]}
{"id": "C105", "title": "Scopes of the replacements in values", "statement": "The value of a parameter or member in a scope is translated with the replacements that were stored for this scope, then for each scope around it up to the global one; what is stored for another scope has no effect; storing replacements keeps those that were stored, for all scopes.", "quantifier": "every sequence of stored replacements, every scope, every text", "why_tests_cant": "it is a statement on all the contents of the caches of the other scopes", "anchors": ["src/litgen/internal/context/litgen_context.py: apply_scoped_var_value_replacements", "src/litgen/internal/context/replacements_cache.py: store_replacements", "src/litgen/internal/adapted_types/adapted_enum.py: decl_value_python"]}
{"id": "C106", "title": "The files proposed to start a project can be used", "statement": "From the C++ file of bindings (pybind11 or nanobind), the stub file and the file of glue code that litgen proposes in its help messages, the generation of any headers ends without error; the code of all the headers is between the markers and nothing else changes in the files. The braces of the proposed C++ files match, and the banners of the stub stay.", "quantifier": "every list of headers, every generated code, glue code in its own file or not, pybind11 or nanobind", "why_tests_cant": "the proposed texts are only written to the log: no test uses them, and their use is a statement on all the headers", "anchors": ["src/litgen/litgen_generator.py: _typical_pybind_file", "src/litgen/litgen_generator.py: _typical_stub_file", "src/litgen/litgen_generator.py: _typical_glue_file", "src/litgen/litgen_generator.py: LitgenGenerator.write_generated_code"]}
{"id": "C107", "title": "Verbatim code", "statement": "The verbatim code of a unit is the code it was made from, with or without the preservation of the empty lines.", "quantifier": "every code", "why_tests_cant": "the empty lines are replaced by comments before the parsing and restored after, with two different notions of line; the tests have a few codes with line feeds", "anchors": ["src/srcmlcpp/srcmlcpp_main.py: code_to_srcml_wrapper", "src/srcmlcpp/srcmlcpp_main.py: srcml_to_code_wrapper"]}
{"id": "C108", "title": "Code shown with the messages", "statement": "A warning about an element shows the line of the user's code where the element starts, with a caret below its first character, then the next lines of the element, at most the asked number of lines; and this code is the one the element was made from.", "quantifier": "every code, every position, every sequence of codes parsed", "why_tests_cant": "it relates positions in the marked code to lines of the original one, through a global cache written by each parsing", "anchors": ["src/srcmlcpp/srcml_wrapper.py: SrcmlWrapper.str_code_context_with_caret", "src/codemanip/code_position.py: CodeContextWithCaret", "src/srcmlcpp/internal/code_cache.py: store_cached_code, get_cached_code"]}
{"id": "C109", "title": "Names of the instantiations of template classes", "statement": "The class that is generated for an instantiation of a template class, the synonyms generated for it and the types in the signatures that use it have the same name: each synonym refers to a class of the stub, and each type `C<T>` of a signature for which the options have a specialization or a synonym is given the name of a class or of a synonym of the stub.", "quantifier": "every class, every option of specialization, every replacement of types, every type", "why_tests_cant": "the three names are made by three different functions, from different combinations of the replacements of types; the tests have the synonym of `int`, on which they agree", "anchors": ["src/litgen/internal/adapted_types/adapted_class.py: AdaptedClass._tpl_instantiate_template_for_type", "src/litgen/internal/adapted_types/adapted_class.py: AdaptedClass._tpl_split_into_template_instantiations", "src/litgen/internal/template_options.py: TemplateClassOptions.specialized_type_python_name_str", "src/litgen/internal/cpp_to_python.py: type_to_python"]}
{"id": "C110", "title": "What the recursive queries of a unit find", "statement": "`all_functions_recursive`, `all_structs_recursive` and `all_decl_recursive` find all the functions, all the classes and all the declarations of a unit (variables and members, enumerators, parameters of functions and of templates), at any depth, once each and in the order of the code.", "quantifier": "every unit: namespaces, classes, enumerations, statements and functions, nested at any depth", "why_tests_cant": "each kind of element has its own visit of its parts; the tests count the elements of a few extracts, without the parameters of functions that have a body", "anchors": ["src/srcmlcpp/cpp_types/blocks/cpp_block.py: CppBlock.all_functions_recursive", "src/srcmlcpp/cpp_types/blocks/cpp_block.py: CppBlock.all_structs_recursive", "src/srcmlcpp/cpp_types/blocks/cpp_block.py: CppBlock.all_decl_recursive", "src/srcmlcpp/cpp_types/blocks/cpp_block.py: CppBlock.visit_cpp_breadth_first", "src/srcmlcpp/cpp_types/functions/cpp_function.py: CppFunction.visit_cpp_breadth_first"]}
{"id": "C111", "title": "Identifiers that a unit knows", "statement": "The identifiers that a unit knows are exactly the qualified names of the classes, enumerations, functions other than constructors, variables, members and enumerators that it declares; so a name which denotes one of them from a scope is replaced by its qualified name. This is also true of the name `E::A` of an enumerator in the namespace of its enumeration.", "quantifier": "every unit, every scope, every name that denotes one declaration", "why_tests_cant": "the list is made from the parents of each element, with exceptions for constructors and C enumerations; the tests have a few extracts, and write the enumerators of C enumerations without the name of the enumeration", "anchors": ["src/srcmlcpp/cpp_types/scope/cpp_scope_identifiers.py: CppScopeIdentifiers.fill_cache", "src/srcmlcpp/cpp_types/blocks/cpp_unit.py: CppUnit.fill_scope_identifiers_cache", "src/srcmlcpp/cpp_types/base/cpp_element.py: CppElement.cpp_scope", "src/srcmlcpp/cpp_types/decls_types/cpp_decl.py: CppDecl.decl_context"]}
{"id": "C112", "title": "The text of the warnings, and which ones are printed", "statement": "A message about an element has the message, the kind of the element, its place and the lines of its code (indented, without the blank lines at the end), each once; an exception reported as a warning about another element keeps the place of the first. A warning is printed exactly when warnings are not discarded, its type is not ignored and no ignored part is in it; it is printed with its type once, and any part of what is printed can be used to ignore it.", "quantifier": "every element (tag, file, position, code), every message, every type of warning, every list of ignored types and of ignored parts", "why_tests_cant": "under pytest the messages are logged by another branch than the one that prints them; the tests never read what is printed", "anchors": ["src/srcmlcpp/srcml_wrapper.py: SrcmlWrapper.emit_warning", "src/srcmlcpp/srcml_wrapper.py: SrcmlWrapper._format_message", "src/srcmlcpp/srcml_wrapper.py: SrcmlWrapper._show_element_info", "src/srcmlcpp/srcml_wrapper.py: SrcmlWrapper.str_code_location", "src/srcmlcpp/internal/srcmlcpp_exception_detailed.py: emit_warning_if_not_quiet", "src/srcmlcpp/internal/srcmlcpp_exception_detailed.py: SrcmlcppExceptionDetailed"]}
{"id": "C113", "title": "Tags, children and positions of the XML elements", "statement": "The tag of an element is its name without the XML namespace, and elements of different kinds have different tags. The child with a tag is found exactly when there is one. The position of an element is the one of its attribute, in any XML namespace and among any other attributes (`-1:-1` without it); a position is read back from its text. Merging an element with the next one gives it the end of the next one and changes nothing else.", "quantifier": "every tag, XML namespace and list of attributes; every element; every position", "why_tests_cant": "the tests use the XML of one version of srcML, with its two namespaces and its prefixes", "anchors": ["src/srcmlcpp/internal/srcml_utils.py: clean_tag_or_attrib", "src/srcmlcpp/internal/srcml_utils.py: children_with_tag", "src/srcmlcpp/internal/srcml_utils.py: child_with_tag", "src/srcmlcpp/internal/srcml_utils.py: _element_position", "src/srcmlcpp/internal/srcml_utils.py: copy_element_end_position", "src/codemanip/code_position.py: CodePosition.from_string", "src/srcmlcpp/srcml_wrapper.py: SrcmlWrapper.start", "src/srcmlcpp/srcml_wrapper.py: SrcmlWrapper.end"]}
{"id": "C114", "title": "The readable form of an XML tree", "statement": "The readable form of an element has one line for each element of its tree, in the order of the code, with its depth and its tag as first word; the tree of the tags can be found from it. The form of an element is always the same.", "quantifier": "every XML tree, at any depth, with any texts and positions; every earlier call", "why_tests_cant": "it depends on a global variable, so on the earlier calls in the process; the tests compare the first call with a text", "anchors": ["src/srcmlcpp/internal/srcml_utils.py: srcml_to_str_readable", "src/srcmlcpp/internal/srcml_utils.py: _info_element_position", "src/srcmlcpp/srcml_wrapper.py: SrcmlWrapper._str_simplified_yaml"]}
{"id": "C115", "title": "The size of a C array", "statement": "`x[size]` declares an array named `x` and nothing of the text is lost. An array is exactly one of: of known size, without size, of a size that cannot be read; an array of several dimensions is never taken for one with a known size. The size of a number is that number; the size of a macro is the number of the options, or the one that the definitions of the file give. The size of an integer literal of C++ is its value, and blanks around the size do not matter.", "quantifier": "every name, every text of size, every set of macros in the options and in the file, every element around the declaration", "why_tests_cant": "the tests use a few decimal sizes and one macro; the sizes are any text, the definitions any graph", "anchors": ["src/srcmlcpp/cpp_types/decls_types/cpp_decl.py: CppDecl.c_array_size_as_str", "src/srcmlcpp/cpp_types/decls_types/cpp_decl.py: CppDecl.c_array_size_as_int", "src/srcmlcpp/cpp_types/decls_types/cpp_decl.py: CppDecl._int_from_unit_defines", "src/srcmlcpp/cpp_types/decls_types/cpp_decl.py: CppDecl.is_c_array_known_fixed_size", "src/srcmlcpp/cpp_types/decls_types/cpp_decl.py: CppDecl.is_c_array_no_size", "src/srcmlcpp/cpp_types/decls_types/cpp_decl.py: CppDecl.is_c_array_fixed_size_unparsable", "src/srcmlcpp/srcmlcpp_options.py: _int_from_str_or_named_number_macros", "src/srcmlcpp/internal/cpp_types_parse.py: parse_decl"]}
{"id": "C116", "title": "What a function is, what it returns, whether it throws", "statement": "A function is said not to throw exactly when it is declared `noexcept` alone or with a word for true, whatever the blanks and the case; the answer is the value of the condition. A constructor is a method with the name of its class, no function is a constructor and a destructor, a free function is none of them and has no access. A default constructor is one that can be called without arguments. A function returns at most one of a pointer, a pointer to a pointer, a reference. A method that is declared as virtual is seen as such.", "quantifier": "every function, with any specifiers, return type, parameters and text after `noexcept`", "why_tests_cant": "the tests have a few functions; the conditions, the parameters and the specifiers are arbitrary", "anchors": ["src/srcmlcpp/cpp_types/functions/cpp_function_decl.py: CppFunctionDecl.is_noexcept", "src/srcmlcpp/cpp_types/functions/cpp_function_decl.py: CppFunctionDecl.is_constructor", "src/srcmlcpp/cpp_types/functions/cpp_function_decl.py: CppFunctionDecl.is_destructor", "src/srcmlcpp/cpp_types/functions/cpp_function_decl.py: CppFunctionDecl.is_default_constructor", "src/srcmlcpp/cpp_types/functions/cpp_function_decl.py: CppFunctionDecl.is_default_constructor_zero_param", "src/srcmlcpp/cpp_types/functions/cpp_function_decl.py: CppFunctionDecl.returns_pointer", "src/srcmlcpp/cpp_types/functions/cpp_function_decl.py: CppFunctionDecl.returns_pointer_to_pointer", "src/srcmlcpp/cpp_types/functions/cpp_function_decl.py: CppFunctionDecl.returns_reference", "src/srcmlcpp/cpp_types/functions/cpp_function_decl.py: CppFunctionDecl.access_type_if_method", "src/srcmlcpp/cpp_types/functions/cpp_function_decl.py: CppFunctionDecl.is_virtual_method"]}
{"id": "C117", "title": "What pimpl_my_file does to the files", "statement": "The header of a C++ file is the one given, else the name with `.h` in place of its extension; names with no extension of C++ are refused. Only the C++ file and its header may change, and no file appears or disappears. When a file is missing, the code has no class or the C++ file has no region, no file changes. With regions in both files, the lines outside of them are kept, the glue code is in the C++ file and the header code in the header, and a second call changes nothing. A call that raises changes no file.", "quantifier": "every file system, pair of names and content of the files, any generated codes", "why_tests_cant": "the tests of the tool work on strings; they write no file, and the names and contents are unbounded", "anchors": ["src/srcmlcpp_tools/pimpl_my_class/pimpl_my_class.py: pimpl_my_file", "src/srcmlcpp_tools/pimpl_my_class/pimpl_my_class.py: pimpl_my_code", "src/codemanip/code_utils.py: write_generated_code_between_markers"]}
{"id": "C118", "title": "The request for `# type: ignore` and the comment of a function", "statement": "The stub of a function has `# type: ignore` exactly when the comment at the end of its line holds `type: ignore`. Other comments are kept, followed by a note when the returned type is `auto`. The comment that is left is the text around the words, without the white space and the `//` at its beginning; it does not hold the words. Adapting a function again gives the same stub.", "quantifier": "every comment and every returned type", "why_tests_cant": "the tests have one comment with the words; comments are arbitrary text, and no test adapts a function twice", "anchors": ["src/litgen/internal/adapted_types/adapted_function.py: AdaptedFunction._stub_fill_is_type_ignore", "src/litgen/internal/adapted_types/adapted_function.py: AdaptedFunction.__init__", "src/srcmlcpp/cpp_types/functions/cpp_function_decl.py: CppFunctionDecl.is_inferred_return_type"]}
{"id": "C119", "title": "The original code, the frames of the templates and the texts made from the lines", "statement": "With `original_signature_flag_show`, the lines of the C++ code from the first to the last that are not blank are shown in the stub, in order, each as one comment line beginning with `# `, with the mark at the end of the first; nothing is shown for code of white space. The stub of a template is the stubs of its instantiations one after the other, with one empty line between methods and two between functions and classes, then the synonyms, inside a frame of comments that names the template. The text of a stub has exactly the lines given; the text of the bindings has them and ends with the end of a line.", "quantifier": "every C++ code, list of instantiations, name and list of lines", "why_tests_cant": "the tests compare a few stubs; the code shown is arbitrary text, and one line that is not a comment would break the stub", "anchors": ["src/litgen/internal/adapted_types/adapted_element.py: AdaptedElement._elm_stub_original_code_lines_info", "src/litgen/internal/adapted_types/adapted_element.py: AdaptedElement.str_stub", "src/litgen/internal/adapted_types/adapted_element.py: AdaptedElement.str_pydef", "src/litgen/internal/cpp_to_python.py: surround_python_code_lines", "src/litgen/internal/adapted_types/adapted_function.py: AdaptedFunction.stub_lines", "src/litgen/internal/adapted_types/adapted_class.py: AdaptedClass.stub_lines"]}
{"id": "C120", "title": "What `comments_exclude` takes out", "statement": "With `comments_exclude`, no element of the unit has a comment before it or at the end of its line; the elements, their order and their texts are the same, and the stub has no line for a comment. Functions are called in the same way: the policy of the returned value, what keeps objects alive, the guards of the call and `# type: ignore` do not change. Without the option the unit is adapted as it is.", "quantifier": "every unit (tree of elements of any depth) and every function with its comments", "why_tests_cant": "one test has three comments, none of them lonely and none with a request; units are unbounded trees", "anchors": ["src/litgen/code_to_adapted_unit.py: _remove_all_comments", "src/litgen/code_to_adapted_unit.py: code_to_adapted_unit_in_context", "src/litgen/internal/adapted_types/adapted_comment.py: AdaptedComment.stub_lines", "src/litgen/internal/adapted_types/adapted_function.py: AdaptedFunction._pydef_fill_return_value_policy"]}
{"id": "C121", "title": "Global variables and macros become attributes of the module", "statement": "A global variable that the options include is an attribute of its module, under the same name in the bindings and in the stub; its value is converted to its type without `static` and `constexpr`; the stub gives its Python type and, in a comment of the same line, its value. A published macro is an attribute with its published name and its value, octal values written as Python does.", "quantifier": "every variable (type with any words, name, value), every macro name and value", "why_tests_cant": "the words are removed from the text of the type, and the templates are filled one name after the other; the tests have a few types and values", "anchors": ["src/litgen/internal/adapted_types/adapted_decl.py: AdaptedGlobalDecl.pydef_lines, stub_lines", "src/litgen/internal/adapted_types/adapted_define.py: AdaptedDefine.pydef_lines, stub_lines", "src/litgen/internal/adapted_types/adapted_block.py: AdaptedBlock._fill_adapted_elements"]}
{"id": "C122", "title": "A function template with buffers is called for each element type", "statement": "For a function template with array parameters, the bindings read the letter of the element type of the last of these arrays, throw when another of them has another letter, and then call the function for each type of `fn_params_buffer_types`, in this order: the test of the letter of the type, and a call where each of these arrays is given as a pointer to elements of this type (constant when the parameter is), the other parameters as usual, with `return` unless the function returns nothing. An array of another type gives an exception. With distinct types no letter is tested twice.", "quantifier": "every list of parameters, every list of types with a letter, both libraries, any indentation and names", "why_tests_cant": "the tests have the whole default list of types and at most three arrays; the text is filled name by name in templates that hold braces of C++", "anchors": ["src/litgen/internal/adapt_function_params/_adapt_c_buffers.py: _AdaptBuffersHelper.make_adapted_lambda_code_end_template_buffer", "src/litgen/internal/adapt_function_params/_adapt_c_buffers.py: _AdaptBuffersHelper._adapted_cpp_parameters_template_static_cast", "src/litgen/internal/adapt_function_params/_adapt_c_buffers.py: _AdaptBuffersHelper._last_template_buffer_param"]}
{"id": "C123", "title": "The text that identifies an overload in the stub", "statement": "Two functions of a stub have the same identifying text exactly when they have the same Python name and the same parameters (names, types and default values), so that an overload is dropped as a duplicate only for an overload that reads the same in Python. The Python name is `__init__` for a constructor, the special name for an operator, the name of the specialisation for a template with one type, and else the Python name of the function.", "quantifier": "every pair of functions with any number of parameters", "why_tests_cant": "the parameters are joined into one text whose types and values hold commas and brackets; the tests compare two overloads with int and unsigned int", "anchors": ["src/litgen/internal/adapted_types/adapted_function.py: AdaptedFunction.stub_python_signature", "src/litgen/internal/adapted_types/adapted_function.py: AdaptedFunction._stub_function_name_python"]}
{"id": "C124", "title": "The overview of the elements shows the whole tree", "statement": "The overview of a unit has one line for each element, the elements in their order and each before its children, with two blanks for each ancestor, the class, and the name and the scope if there are any. Two units with the same overview have the same tree of classes, names and scopes.", "quantifier": "every tree of elements of any depth", "why_tests_cant": "trees are unbounded; no test reads an overview back", "anchors": ["src/srcmlcpp/cpp_types/base/cpp_element.py: CppElement.hierarchy_overview", "src/srcmlcpp/cpp_types/base/cpp_element.py: CppElement.short_cpp_element_info", "src/srcmlcpp/cpp_types/blocks/cpp_block.py: CppBlock.visit_cpp_breadth_first"]}
{"id": "C125", "title": "Which codes the tests take for the same", "statement": "assert_are_codes_equal accepts two codes exactly if they show the same lines once the margin, the blanks at the ends of the lines and the blank lines around the code are taken away. It is an equivalence, a code moved to the right is accepted, and codes with another relative indentation are refused.", "quantifier": "every two texts", "why_tests_cant": "the tests themselves are judged by this function; what it accepts by mistake no test can show", "anchors": ["src/codemanip/code_utils.py: assert_are_codes_equal", "src/codemanip/code_utils.py: unindent_code", "src/codemanip/code_utils.py: strip_empty_lines"]}
{"id": "C126", "title": "The first matching call decides the type of the items of a class", "statement": "After any calls of add_iterable_class, a class is iterable exactly if one call matches its Python name, the type of its items is the one of the first such call, and a further call changes nothing for the classes that are iterable. The binding and the stub have something to iterate with for exactly these classes.", "quantifier": "every list of calls, every matcher, every class name", "why_tests_cant": "lists of calls are unbounded; the test of the project makes one call", "anchors": ["src/litgen/internal/class_iterable_info.py: ClassIterablesInfos.is_class_iterable", "src/litgen/internal/class_iterable_info.py: ClassIterablesInfos.python_iterable_type", "src/litgen/internal/class_iterable_info.py: ClassIterablesInfos.add_iterable_class"]}
{"id": "C127", "title": "Which codes the tests take for the same up to blanks", "statement": "assert_are_equal_ignore_spaces accepts two codes exactly if their words, joined by one blank, agree once the blanks beside the separators ,()[]; are taken away. Codes that are accepted have the same characters other than white space, codes with the same words are accepted, and texts between quotes that differ are refused.", "quantifier": "every two texts", "why_tests_cant": "the tests themselves are judged by this function; what it accepts by mistake no test can show", "anchors": ["src/codemanip/code_utils.py: assert_are_equal_ignore_spaces", "src/codemanip/code_utils.py: remove_redundant_spaces"]}
