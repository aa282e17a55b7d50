{
 "claims": [
  {
   "property": "C01",
   "status": "partial",
   "theorems": [
    "Verif.Lines.C01_negative_is_identity",
    "Verif.Lines.C01_nonblank_lines_kept",
    "Verif.Lines.C01_lines_sublist",
    "Verif.Lines.C01_bound_fails",
    "Verif.Lines.C01_exact_partial",
    "Verif.Lines.C01_bound_partial",
    "Verif.Lines.C01_run_length_encode"
   ],
   "note": "Bound is false when blank lines differ in white space (C01_bound_fails); exact behaviour proved for uniform blank lines."
  },
  {
   "property": "C02",
   "status": "proved",
   "theorems": [
    "Verif.Lines.C02_strip_empty_lines",
    "Verif.Lines.C02_strip_empty_lines_idempotent",
    "Verif.Lines.C02_strip_first_and_last"
   ],
   "note": ""
  },
  {
   "property": "C03",
   "status": "proved",
   "theorems": [
    "Verif.Indent.C03_unindent",
    "Verif.Indent.C03_margin_unique",
    "Verif.Indent.C03_relative_indentation",
    "Verif.Indent.C03_unindent_idempotent",
    "Verif.Indent.C03_unindent_strip"
   ],
   "note": ""
  },
  {
   "property": "C04",
   "status": "partial",
   "theorems": [
    "Verif.Indent.C04_indent",
    "Verif.Indent.C04_indent_no_rstrip",
    "Verif.Indent.C04_indent_skip_first",
    "Verif.Indent.C04_unindent_indent",
    "Verif.Indent.C04_reindent_fails",
    "Verif.Indent.C04_reindent_partial",
    "Verif.Indent.C04_indent_force"
   ],
   "note": "Findings: `reindent_code` ignores `indent_size`; `indent_code_lines` ignores `rstrip`. Proved parts: C04_reindent_partial: C04 (partial): with an explicit indentation string, `reindent_code` removes the margin and puts the given one. Missing: the default call, see `C04_reindent_fails`. The full statement is kept as a _statement definition and refuted by the _fails theorems; the other theorems hold without restriction."
  },
  {
   "property": "C05",
   "status": "partial",
   "theorems": [
    "Verif.Comment.C05_join_lines",
    "Verif.Comment.C05_join_lines_empty",
    "Verif.Comment.C05_add_item",
    "Verif.Comment.C05_add_item_empty",
    "Verif.Comment.C05_fails",
    "Verif.Comment.C05_quote_character_fails",
    "Verif.Comment.C05_add_item_partial"
   ],
   "note": "Findings: the comment scanner is lost after the literal `\"\\\\\"` and after `'\"'`. Proved parts: C05_add_item_partial: C05 (partial): the item is inserted at the end of the code, before the comment, on every line of C++ except those with a string literal ending with an escaped backslash or with the character literal of the double quote (see `C05_fails`, `C05_quote_character_fails`). The full statement is kept as a _statement definition and refuted by the _fails theorems; the other theorems hold without restriction."
  },
  {
   "property": "C06",
   "status": "partial",
   "theorems": [
    "Verif.Comment.C06_detection",
    "Verif.Comment.C06_align",
    "Verif.Comment.C06_same_column",
    "Verif.Comment.C06_idempotent",
    "Verif.Comment.C06_comment_only_fails",
    "Verif.Comment.C06_comment_only_partial"
   ],
   "note": "Findings: a second `#` inside a comment-only line is taken for an end-of-line comment. Proved parts: C06_comment_only_partial: C06 (partial): a comment-only line without a second `#` is left as it is. The full statement is kept as a _statement definition and refuted by the _fails theorems; the other theorems hold without restriction."
  },
  {
   "property": "C07",
   "status": "proved",
   "theorems": [
    "Verif.Name.C07_no_upper",
    "Verif.Name.C07_same_letters",
    "Verif.Name.C07_lower_spec",
    "Verif.Name.C07_snake_unchanged",
    "Verif.Name.C07_idempotent",
    "Verif.Name.C07_camel_words",
    "Verif.Name.C07_camel_round_trip"
   ],
   "note": ""
  },
  {
   "property": "C08",
   "status": "partial",
   "theorems": [
    "Verif.Markers.C08_fails",
    "Verif.Markers.C08_one_region_partial",
    "Verif.Markers.C08_flat_regions_partial",
    "Verif.Markers.C08_raw",
    "Verif.Markers.C08_outside_kept"
   ],
   "note": "Findings: re-indentation of generated code is cumulative between several regions. Proved parts: C08_one_region_partial: C08 (partial): the full statement for files with one region. Missing: several indented regions, see `C08_fails`. C08_flat_regions_partial: C08 (partial): the full statement for files with any number of regions whose opening markers start in column 0. The full statement is kept as a _statement definition and refuted by the _fails theorems; the other theorems hold without restriction."
  },
  {
   "property": "C09",
   "status": "proved",
   "theorems": [
    "Verif.Markers.C09_idempotent",
    "Verif.Markers.C09_written_iff_changed"
   ],
   "note": ""
  },
  {
   "property": "C10",
   "status": "partial",
   "theorems": [
    "Verif.Markers.C10_error_leaves_file",
    "Verif.Markers.C10_missing_file",
    "Verif.Markers.C10_no_opening_marker",
    "Verif.Markers.C10_nested_opening_marker",
    "Verif.Markers.C10_no_loss_fails",
    "Verif.Markers.C10_stray_closing_marker_fails",
    "Verif.Markers.C10_no_loss_partial"
   ],
   "note": "Findings: a missing closing marker drops the rest of the file; a stray closing marker is duplicated. Proved parts: C10_no_loss_partial: C10 (partial): on well-formed files nothing outside the regions is lost and no error is reported. Missing: files with an opening marker that is never closed, see `C10_no_loss_fails`. The full statement is kept as a _statement definition and refuted by the _fails theorems; the other theorems hold without restriction."
  },
  {
   "property": "C11",
   "status": "partial",
   "theorems": [
    "Verif.Escape.C11_fails",
    "Verif.Escape.C11_literal_partial",
    "Verif.Escape.C11_denotes",
    "Verif.Escape.C11_valid_escapes_fails",
    "Verif.Escape.C11_valid_escapes_partial"
   ],
   "note": "Findings: a comment with a single backslash leaves a dangling escape; `\\o`, `\\x` become invalid escapes. Proved parts: C11_literal_partial: C11 for every other comment (missing: the comment that is exactly one backslash, for which it is false by `C11_fails`). C11_valid_escapes_partial: C11, escapes, for comments that mention neither `\\o` nor `\\x` (missing: those; `\\x` is a valid escape only before hexadecimal digits). The full statement is kept as a _statement definition and refuted by the _fails theorems; the other theorems hold without restriction."
  },
  {
   "property": "C12",
   "status": "proved",
   "theorems": [
    "Verif.Space.C12_terminates",
    "Verif.Space.C12_words",
    "Verif.Space.C12_normal",
    "Verif.Space.C12_same_characters",
    "Verif.Space.C12_idempotent",
    "Verif.Space.C12_redundant_exact",
    "Verif.Space.C12_redundant",
    "Verif.Space.C12_redundant_idempotent",
    "Verif.Space.C12_shorten_blank_lines"
   ],
   "note": ""
  },
  {
   "property": "C13",
   "status": "partial",
   "theorems": [
    "Verif.Template.C13_order_fails",
    "Verif.Template.C13_fill_partial",
    "Verif.Template.C13_order_partial",
    "Verif.Template.C13_untouched",
    "Verif.Template.C13_none_removes_lines",
    "Verif.Template.C13_some_is_plain",
    "Verif.Template.C13_maybe_comma",
    "Verif.Template.C13_final_comma",
    "Verif.Template.C13_process"
   ],
   "note": "Findings: nested braces: the result depends on the order of the replacements. Proved parts: C13_fill_partial: C13: for any notion of key character (other than braces), a template made of holes and of texts whose opening braces are not followed by a key character is filled as if all holes were filled at once: every hole with a value gets its value, the other holes and the text are untouched. The values may be code with braces of their own, as long as these are followed by a non-key character too. C13_order_partial: C13, order: under the same conditions the order of the keys does not matter (missing: templates with placeholders inside braces, for which it is false by `C13_order_fails`). The full statement is kept as a _statement definition and refuted by the _fails theorems; the other theorems hold without restriction."
  },
  {
   "property": "C14",
   "status": "partial",
   "theorems": [
    "Verif.Repl.C14_bounded_passes",
    "Verif.Repl.C14_stable",
    "Verif.Repl.C14_always_stable_fails",
    "Verif.Repl.C14_empty",
    "Verif.Repl.C14_add",
    "Verif.Repl.C14_from_string",
    "Verif.Repl.C14_from_line"
   ],
   "note": "Findings: three passes of a replacement list may not reach a fixed point. The full statement is kept as a _statement definition and refuted by the _fails theorems; the other theorems hold without restriction."
  },
  {
   "property": "C15",
   "status": "proved",
   "theorems": [
    "Verif.Amalg.C15_terminates",
    "Verif.Amalg.C15_result_unique",
    "Verif.Amalg.C15_each_reached_file_once"
   ],
   "note": ""
  },
  {
   "property": "C16",
   "status": "proved",
   "theorems": [
    "Verif.Amalg.C16_tree",
    "Verif.Amalg.C16_lines_kept",
    "Verif.Amalg.C16_local_include_line",
    "Verif.Amalg.C16_external_include_line",
    "Verif.Amalg.C16_externals_once"
   ],
   "note": ""
  },
  {
   "property": "C17",
   "status": "partial",
   "theorems": [
    "Verif.Amalg.C17_search",
    "Verif.Amalg.C17_error_is_missing_file",
    "Verif.Amalg.C17_no_silent_omission",
    "Verif.Amalg.C17_write",
    "Verif.Amalg.C17_missing_is_error_fails",
    "Verif.Amalg.C17_missing_is_error_partial"
   ],
   "note": "Findings: a relative include that exists in the current directory is accepted wherever it is. Proved parts: C17_missing_is_error_partial: C17 (partial): a missing local include is an error, provided the name does not exist in the working directory either. Missing from the full property: names that exist there (see `C17_missing_is_error_fails`). The full statement is kept as a _statement definition and refuted by the _fails theorems; the other theorems hold without restriction."
  },
  {
   "property": "C18",
   "status": "proved",
   "theorems": [
    "Verif.Prep.C18_exact",
    "Verif.Prep.C18_code_kept_iff",
    "Verif.Prep.C18_if_macro",
    "Verif.Prep.C18_ifdef_macro"
   ],
   "note": ""
  },
  {
   "property": "C19",
   "status": "proved",
   "theorems": [
    "Verif.Prep.C19_subsequence",
    "Verif.Prep.C19_balanced",
    "Verif.Prep.C19_stray",
    "Verif.Prep.C19_unclosed"
   ],
   "note": ""
  },
  {
   "property": "C20",
   "status": "partial",
   "theorems": [
    "Verif.Attach.C20_grouping",
    "Verif.Attach.C20_grouping_maximal",
    "Verif.Attach.C20_attachment",
    "Verif.Attach.C20_elements_kept",
    "Verif.Attach.C20_comments_once",
    "Verif.Attach.C20_end_of_line_attached",
    "Verif.Attach.C20_top_attached",
    "Verif.Attach.C20_empty_lines_marked",
    "Verif.Attach.C20_line_comments_text_partial",
    "Verif.Attach.C20_block_comment_text",
    "Verif.Attach.C20_line_comments_text_fails"
   ],
   "note": "Findings: commented-out comments are garbled; a doc comment stays standalone if the element has an end-of-line comment. Proved parts: C20_line_comments_text_partial: What a group of `//` comments becomes: the texts after the slashes, one per line — for the groups with no line that starts (after spaces) with `//` once its own slashes are removed, and no text that looks like litgen's own line feed token. The full statement is kept as a _statement definition and refuted by the _fails theorems; the other theorems hold without restriction."
  },
  {
   "property": "C21",
   "status": "partial",
   "theorems": [
    "Verif.Scope.C21_hierarchy",
    "Verif.Scope.C21_can_access",
    "Verif.Scope.C21_parse_print",
    "Verif.Scope.C21_print_parse_partial",
    "Verif.Scope.C21_print_parse_fails",
    "Verif.Scope.C21_child_scope"
   ],
   "note": "Findings: `CppScope.from_string(\"\")` has the prefix `::`. Proved parts: C21_print_parse_partial: Parsing what was printed gives the scope back, for every scope but the global one. The full statement is kept as a _statement definition and refuted by the _fails theorems; the other theorems hold without restriction."
  },
  {
   "property": "C22",
   "status": "partial",
   "theorems": [
    "Verif.Scope.C22_word_characters",
    "Verif.Scope.C22_lexed",
    "Verif.Scope.C22_only_words_partial",
    "Verif.Scope.C22_no_identifier_partial",
    "Verif.Scope.C22_no_identifier_chars",
    "Verif.Scope.C22_only_words_fails"
   ],
   "note": "Findings: a word just before `\"` or `//` is moved after it. Proved parts: C22_only_words_partial: Only whole words are changed: literals, comments, punctuation and blanks are kept, in place — for code where no word is immediately before a quote or `//`. (What a word becomes is said in C23.) C22_no_identifier_partial: With no known identifier, the code is unchanged (same restriction). The full statement is kept as a _statement definition and refuted by the _fails theorems; the other theorems hold without restriction."
  },
  {
   "property": "C23",
   "status": "partial",
   "theorems": [
    "Verif.Scope.C23_only_accessible",
    "Verif.Scope.C23_not_found",
    "Verif.Scope.C23_global",
    "Verif.Scope.C23_first_registered",
    "Verif.Scope.C23_innermost_partial",
    "Verif.Scope.C23_innermost_fails"
   ],
   "note": "Findings: the first registered accessible identifier wins, not the innermost one. Proved parts: C23_innermost_partial: The innermost accessible identifier is used, if it is the only one: this is what C++ does. The full statement is kept as a _statement definition and refuted by the _fails theorems; the other theorems hold without restriction."
  },
  {
   "property": "C24",
   "status": "partial",
   "theorems": [
    "Verif.Scope.C24_parts_removed",
    "Verif.Scope.C24_same_entity_partial",
    "Verif.Scope.C24_same_entity_fails",
    "Verif.Scope.C24_only_words_partial"
   ],
   "note": "Findings: `B::x` seen from `A::B` becomes `x`. Proved parts: C24_same_entity_partial: The terse form of an identifier, looked up from the current scope, gives the identifier back, and it is the shortest one with that property — when the outermost part of the identifier is not also the name of an inner part of the current scope. C24_only_words_partial: Terse code: only whole words are changed (with the restriction of C22). The full statement is kept as a _statement definition and refuted by the _fails theorems; the other theorems hold without restriction."
  },
  {
   "property": "C25",
   "status": "partial",
   "theorems": [
    "Verif.Num.Props.C25_children_kept",
    "Verif.Num.Props.C25_explicit_kept",
    "Verif.Num.Props.C25_implicit_from_zero",
    "Verif.Num.Props.C25_implicit_after_fails",
    "Verif.Num.Props.C25_hexadecimal_fails",
    "Verif.Num.Props.C25_implicit_after_partial"
   ],
   "note": "Findings: `A = 010, B` gives 11 to `B`; hexadecimal values and expressions leave the following members without value. Proved parts: C25_implicit_after_partial: What holds: the same when the value is a macro of the options, or a literal with no leading zero. Missing: octal literals (wrong value), hexadecimal literals and expressions (no value, and a warning). The full statement is kept as a _statement definition and refuted by the _fails theorems; the other theorems hold without restriction."
  },
  {
   "property": "C26",
   "status": "proved",
   "theorems": [
    "Verif.Num.Props.C26_terminates",
    "Verif.Num.Props.C26_value",
    "Verif.Num.Props.C26_unique",
    "Verif.Num.Props.C26_cyclic",
    "Verif.Num.Props.C26_literals"
   ],
   "note": ""
  },
  {
   "property": "C27",
   "status": "partial",
   "theorems": [
    "Verif.Num.Props.C27_object_like",
    "Verif.Num.Props.C27_only_literals",
    "Verif.Num.Props.C27_integer_literals",
    "Verif.Num.Props.C27_value_fails",
    "Verif.Num.Props.C27_value_partial",
    "Verif.Num.Props.C27_text_kept"
   ],
   "note": "Findings: `-010` is published as is; suffixed (`10u`) and binary literals are not published. Proved parts: C27_value_partial: What holds: the same when the value is not a negative number with a leading zero. The full statement is kept as a _statement definition and refuted by the _fails theorems; the other theorems hold without restriction."
  },
  {
   "property": "C28",
   "status": "partial",
   "theorems": [
    "Verif.Base.Props.C28_name",
    "Verif.Base.Props.C28_visible_fails",
    "Verif.Base.Props.C28_qualified_fails",
    "Verif.Base.Props.C28_visible_partial",
    "Verif.Base.Props.C28_found",
    "Verif.Base.Props.C28_own_base_fails",
    "Verif.Base.Props.C28_terminates_fails",
    "Verif.Base.Props.C28_own_base_partial",
    "Verif.Base.Props.C28_terminates_partial",
    "Verif.Base.Props.C28_virtual_sound",
    "Verif.Base.Props.C28_virtual_complete",
    "Verif.Base.Props.C28_virtual_override",
    "Verif.Base.Props.C28_own_methods_only_fails"
   ],
   "note": "Findings: the scope `A` is visible from `AB`; `A::C` finds the global `C`; a class found as its own base makes an infinite recursion; the flag for inherited methods is ignored. Proved parts: C28_visible_partial: What holds: for a name without qualifiers, the class found is global, or its scope is an enclosing scope of the current one, up to its last part, of which it is only a prefix. Missing: the last part is compared as a prefix of a text, and qualifiers are not followed. C28_own_base_partial: What holds: a class is not its own base if it does not have the name of one of its bases. C28_terminates_partial: Collecting the virtual methods terminates when every class comes after its bases, for any number of classes. Missing: the lookup may give a base that comes later, or the class itself (see above). The full statement is kept as a _statement definition and refuted by the _fails theorems; the other theorems hold without restriction."
  },
  {
   "property": "C29",
   "status": "partial",
   "theorems": [
    "Verif.Type.Props.C29_printed",
    "Verif.Type.Props.C29_two_const",
    "Verif.Type.Props.C29_error",
    "Verif.Type.Props.C29_return_type",
    "Verif.Type.Props.C29_api_prefix_fails",
    "Verif.Type.Props.C29_api_prefix_partial"
   ],
   "note": "Findings: the API prefix `MY_API` is also removed from `MY_APIResult`; `str_return_type` raises on two `const`. Proved parts: C29_api_prefix_partial: What holds: a prefix that is a specifier of its own is removed with the blanks after it, and a type whose printed form starts with no prefix is unchanged. Missing: types whose name starts with a prefix. The full statement is kept as a _statement definition and refuted by the _fails theorems; the other theorems hold without restriction."
  },
  {
   "property": "C30",
   "status": "proved",
   "theorems": [
    "Verif.Tree.Props.C30_refines",
    "Verif.Tree.Props.C30_error",
    "Verif.Tree.Props.C30_every_line_once",
    "Verif.Tree.Props.C30_in_order",
    "Verif.Tree.Props.C30_unnamed_boundary"
   ],
   "note": "Findings: code stored with root namespaces only raises `IndexError`; an empty namespace name merges lines."
  },
  {
   "property": "C31",
   "status": "partial",
   "theorems": [
    "Verif.Overload.Props.C31_refines",
    "Verif.Overload.Props.C31_kept_iff",
    "Verif.Overload.Props.C31_order",
    "Verif.Overload.Props.C31_distinct",
    "Verif.Overload.Props.C31_decorators_partial",
    "Verif.Overload.Props.C31_decorators_fails",
    "Verif.Overload.Props.C31_represented",
    "Verif.Overload.Props.C31_hidden_fails"
   ],
   "note": "Findings: functions that print several declarations lose all `@overload` when a sibling is a duplicate; a function with an empty stub hides a later one with the same signature; a docstring line `@overload` is removed. (note) grouping uses the C++ name. Proved parts: C31_decorators_partial: C31: if every overloaded function prints at most one declaration, with its decorator, then after de-duplication a name has as many decorators as it has declarations if it has at least two, and none otherwise. The full statement is kept as a _statement definition and refuted by the _fails theorems; the other theorems hold without restriction."
  },
  {
   "property": "C32",
   "status": "proved",
   "theorems": [
    "Verif.Overload.Props.C32_refines",
    "Verif.Overload.Props.C32_permutation",
    "Verif.Overload.Props.C32_adjacent",
    "Verif.Overload.Props.C32_others",
    "Verif.Overload.Props.C32_firsts",
    "Verif.Overload.Props.C32_unchanged",
    "Verif.Overload.Props.C32_idempotent"
   ],
   "note": ""
  },
  {
   "property": "C33",
   "status": "partial",
   "theorems": [
    "Verif.Adapt.Props.C33_arity_fails",
    "Verif.Adapt.Props.C33_arity_partial",
    "Verif.Adapt.Props.C33_chain",
    "Verif.Adapt.Props.C33_scope_fails",
    "Verif.Adapt.Props.C33_scope_partial"
   ],
   "note": "Findings: a string list named like a size gives four arguments for three parameters; a template pointer without size, or a buffer named like a size, uses undeclared variables. Proved parts: C33_arity_partial: C33 (part): every lambda calls the function, or the previous lambda, with one argument per parameter, if no C string list has a name that looks like the name of a size. C33_scope_partial: C33 (part): every variable that a lambda reads is one of its parameters or a variable that it has declared before, if no parameter looks both like a buffer and like a size or a stride, and if every pointer to a template type is followed by a size. The full statement is kept as a _statement definition and refuted by the _fails theorems; the other theorems hold without restriction."
  },
  {
   "property": "C34",
   "status": "partial",
   "theorems": [
    "Verif.Adapt.Props.C34_fails",
    "Verif.Adapt.Props.C34_partial"
   ],
   "note": "Findings: a string list with a null default becomes mandatory after an optional parameter. Proved parts: C34_partial: C34 (part): the parameters with a default value stay at the end, in every lambda, if no array and no C string list has a default value. The full statement is kept as a _statement definition and refuted by the _fails theorems; the other theorems hold without restriction."
  },
  {
   "property": "C35",
   "status": "partial",
   "theorems": [
    "Verif.Adapt.Props.C35_fails",
    "Verif.Adapt.Props.C35_unnamed_partial",
    "Verif.Adapt.Props.C35_partial"
   ],
   "note": "Findings: names `param_1` and `v_0` collide with the names of the user. Proved parts: C35_unnamed_partial: C35 (part): unnamed parameters get names that are distinct from each other and from the given names, provided that no given name is `param_i` where `i` is the place of an unnamed parameter; named parameters keep their names. C35_partial: C35 (part): if the names of the parameters are distinct and non-empty, and if none is the name of an item of one of the arrays (`v_0` for an array `v`), then the names that the Python function shows are distinct and non-empty; so are those of the parameters of every lambda. The full statement is kept as a _statement definition and refuted by the _fails theorems; the other theorems hold without restriction."
  },
  {
   "property": "C36",
   "status": "proved",
   "theorems": [
    "Verif.Adapt.Props.C36_exclude",
    "Verif.Adapt.Props.C36_exclude_iff",
    "Verif.Adapt.Props.C36_hidden"
   ],
   "note": ""
  },
  {
   "property": "C37",
   "status": "proved",
   "theorems": [
    "Verif.Adapt.Props.C37_recognised",
    "Verif.Adapt.Props.C37_used_iff",
    "Verif.Adapt.Props.C37_visible",
    "Verif.Adapt.Props.C37_arguments",
    "Verif.Adapt.Props.C37_checked",
    "Verif.Adapt.Props.C37_lengths_unchecked"
   ],
   "note": "Findings: several buffers that share one size: only the count of the last one is used."
  },
  {
   "property": "C38",
   "status": "proved",
   "theorems": [
    "Verif.Adapt.Props.C38_returned",
    "Verif.Adapt.Props.C38_used_iff",
    "Verif.Adapt.Props.C38_text"
   ],
   "note": ""
  },
  {
   "property": "C39",
   "status": "partial",
   "theorems": [
    "Verif.Keyword.Props.C39_escape",
    "Verif.Keyword.Props.C39_injective",
    "Verif.Keyword.Props.C39_types",
    "Verif.Keyword.Props.C39_fails",
    "Verif.Keyword.Props.C39_partial",
    "Verif.Keyword.Props.C39_identifier",
    "Verif.Keyword.Props.C39_member",
    "Verif.Keyword.Props.C39_member_short",
    "Verif.Keyword.Props.C39_member_private"
   ],
   "note": "Findings: replacements applied after the escaping of keywords may give reserved words again. Proved parts: C39_partial: C39, proved part: the names of functions, variables and namespaces are not reserved words as soon as the last replacements do not turn a name that is not reserved into a reserved one. Missing: nothing escapes a reserved word made by the last replacements. The full statement is kept as a _statement definition and refuted by the _fails theorems; the other theorems hold without restriction."
  },
  {
   "property": "C40",
   "status": "partial",
   "theorems": [
    "Verif.Arr.Props.C40_decorated",
    "Verif.Arr.Props.C40_code_partial",
    "Verif.Arr.Props.C40_unsupported_fails",
    "Verif.Arr.Props.C40_meaning",
    "Verif.Arr.Props.C40_defaults",
    "Verif.Arr.Props.C40_options_fails",
    "Verif.Arr.Props.C40_options_partial",
    "Verif.Arr.Props.C40_nanobind",
    "Verif.Arr.Props.C40_nanobind_defaults_fails",
    "Verif.Arr.Props.C40_nanobind_defaults_partial",
    "Verif.Arr.Props.C40_bars",
    "Verif.Arr.Props.C40_check",
    "Verif.Arr.Props.C40_removed",
    "Verif.Arr.Props.C40_checked_partial",
    "Verif.Arr.Props.C40_checked_fails",
    "Verif.Arr.Props.C40_default_option"
   ],
   "note": "Findings: `const flconst oat` is accepted as `float`; the authorised type `byte` has no array code; the nanobind table lacks `np_uint_l`, `np_int_l`; `uint64_t` is not supported for pybind arrays. Proved parts: C40_code_partial: C40: converse. A code is found only for a text which contains the characters of the C++ type of that code, in order; the types are distinct and the codes are distinct. C40_options_partial: C40: `byte` is the only exception. C40_nanobind_defaults_partial: C40: these are the only exceptions. The full statement is kept as a _statement definition and refuted by the _fails theorems; the other theorems hold without restriction. C40_bars, C40_check, C40_removed: what check_options_consistency accepts (full); C40_checked_partial: with accepted options every type has a code, except `byte` (C40_checked_statement, refuted)."
  },
  {
   "property": "C41",
   "status": "partial",
   "theorems": [
    "Verif.TArgs.Props.C41_split",
    "Verif.TArgs.Props.C41_unique",
    "Verif.TArgs.Props.C41_whole",
    "Verif.TArgs.Props.C41_balanced",
    "Verif.TArgs.Props.C41_returns_fails",
    "Verif.TArgs.Props.C41_returns_partial",
    "Verif.TArgs.Props.C41_raises",
    "Verif.TArgs.Props.C41_inside_out",
    "Verif.TArgs.Props.C41_plain",
    "Verif.TArgs.Props.C41_no_angle",
    "Verif.TArgs.Props.C41_text"
   ],
   "note": "Findings: `Foo<(N < 3)>` raises `IndexError`; the removal of `const`, `&`, `*` is dead code; the text after the arguments is not translated recursively. Proved parts: C41_returns_partial: **C41.** With balanced brackets the translation always returns, whatever the replacements and the nesting. The full statement is kept as a _statement definition and refuted by the _fails theorems; the other theorems hold without restriction."
  },
  {
   "property": "C42",
   "status": "partial",
   "theorems": [
    "Verif.Elem.Props.C42_distinct_fails",
    "Verif.Elem.Props.C42_roots_fails",
    "Verif.Elem.Props.C42_distinct_partial",
    "Verif.Elem.Props.C42_distinct_no_roots_partial",
    "Verif.Elem.Props.C42_not_module",
    "Verif.Elem.Props.C42_templates_fails",
    "Verif.Elem.Props.C42_templates_partial",
    "Verif.Elem.Props.C42_used_fails",
    "Verif.Elem.Props.C42_used_class_fails",
    "Verif.Elem.Props.C42_used_partial"
   ],
   "note": "Findings: `A`/`B` nested and `A_ClassB`, one class in two root namespaces, and template arguments `A::B`/`A_B` share binding variables; a specialised template function in a namespace is registered on an undeclared variable; elements nested in a specialised class use the variable without suffix. Proved parts: C42_distinct_partial: **C42.** When no name contains `_Class`, `_Ns` or `_Enum`, elements that are not template specialisations share a variable only if their scopes are the same once root namespaces are removed. C42_distinct_no_roots_partial: **C42.** In particular, without root namespaces on the way, different scopes have different variables. C42_templates_partial: **C42.** For arguments without `_`, `*`, `:` nor blanks, different specialisations have different variables. C42_used_partial: **C42.** Without template specialisations, every element is registered on the variable declared for the innermost element that encloses it and has one, or on the module. The full statement is kept as a _statement definition and refuted by the _fails theorems; the other theorems hold without restriction."
  },
  {
   "property": "C43",
   "status": "partial",
   "theorems": [
    "Verif.Tpl.Props.C43_parts",
    "Verif.Tpl.Props.C43_not_both",
    "Verif.Tpl.Props.C43_total",
    "Verif.Tpl.Props.C43_unmatched",
    "Verif.Tpl.Props.C43_list_fails",
    "Verif.Tpl.Props.C43_list_partial",
    "Verif.Tpl.Props.C43_name",
    "Verif.Tpl.Props.C43_naming",
    "Verif.Tpl.Props.C43_identifier_fails",
    "Verif.Tpl.Props.C43_identifier_partial",
    "Verif.Tpl.Props.C43_injective_fails",
    "Verif.Tpl.Props.C43_injective_partial",
    "Verif.Tpl.Props.C43_function_named",
    "Verif.Tpl.Props.C43_function_suffix_fails",
    "Verif.Tpl.Props.C43_function_suffix_partial",
    "Verif.Tpl.Props.C43_not_instantiated",
    "Verif.Tpl.Props.C43_class_fails",
    "Verif.Tpl.Props.C43_class_partial",
    "Verif.Tpl.Props.C43_synonym"
   ],
   "note": "Findings: two options for one template exclude each other's types; the function names follow the first matching option, the types the last one; `std::vector<int>` gives an invalid identifier; `A::B` and `A_B` give the same name. Proved parts: C43_list_partial: C43. When at most one option matches each template name, no type is both specialised (or synonymised) and excluded. C43_identifier_partial: C43. It holds for simple types: identifiers, `::`, `&`, `*` and blanks. C43_injective_partial: C43. It holds between types that are single identifiers. C43_function_suffix_partial: C43. It holds when at most one option matches the function. C43_class_partial: C43. It holds when at most one option matches the class. The full statement is kept as a _statement definition and refuted by the _fails theorems; the other theorems hold without restriction."
  },
  {
   "property": "C44",
   "status": "partial",
   "theorems": [
    "Verif.Publish.Props.C44_iff",
    "Verif.Publish.Props.C44_api_fails",
    "Verif.Publish.Props.C44_signature_fails",
    "Verif.Publish.Props.C44_partial",
    "Verif.Publish.Props.C44_comment",
    "Verif.Publish.Props.C44_block",
    "Verif.Publish.Props.C44_member_fails",
    "Verif.Publish.Props.C44_member_partial",
    "Verif.Publish.Props.C44_class_fails",
    "Verif.Publish.Props.C44_class_partial"
   ],
   "note": "Findings: constructors need no API prefix; an overload without parameters cannot be excluded by signature; protected methods ignore the exclusion by name and class; a protected unsupported operator drops the whole class when protected methods are exposed. Proved parts: C44_partial: C44. It holds for functions with a return type and at least one parameter (whose type is not empty). C44_member_partial: C44. It holds when protected methods are not exposed; then exactly the public methods that are not excluded, may be published and are not unsupported operators are published. C44_class_partial: C44. It holds when no publishable protected method is an unsupported operator; unsupported public operators are skipped alone. The full statement is kept as a _statement definition and refuted by the _fails theorems; the other theorems hold without restriction."
  },
  {
   "property": "C45",
   "status": "partial",
   "theorems": [
    "Verif.Boxed.Props.C45_boxable",
    "Verif.Boxed.Props.C45_identifier_fails",
    "Verif.Boxed.Props.C45_identifier_partial",
    "Verif.Boxed.Props.C45_distinct_fails",
    "Verif.Boxed.Props.C45_distinct_partial",
    "Verif.Boxed.Props.C45_struct",
    "Verif.Boxed.Props.C45_glue",
    "Verif.Boxed.Props.C45_order_independent"
   ],
   "note": "Findings: `std::size_t` gives the invalid identifier `BoxedStd::size_t`; `string` and `std::string` both give `BoxedString`. Proved parts: C45_identifier_partial: C45. It holds for all the other boxable types. C45_distinct_partial: C45. It holds for all the others. The full statement is kept as a _statement definition and refuted by the _fails theorems; the other theorems hold without restriction."
  },
  {
   "property": "C46",
   "status": "partial",
   "theorems": [
    "Verif.Custom.Props.C46_order",
    "Verif.Custom.Props.C46_placeholders",
    "Verif.Custom.Props.C46_main_once",
    "Verif.Custom.Props.C46_generators_fails",
    "Verif.Custom.Props.C46_late_fails",
    "Verif.Custom.Props.C46_targets_fails",
    "Verif.Custom.Props.C46_submodule_fails",
    "Verif.Custom.Props.C46_targets_partial",
    "Verif.Custom.Props.C46_sequence"
   ],
   "note": "Findings: a second generator with the same options emits no code for the main module; code added after the first emission is lost; a reopened namespace emits its custom code once per block; custom code of a root namespace is never emitted. Proved parts: C46_targets_partial: C46. The emissions of a header are, in the order of its classes and namespace blocks, exactly those of the classes and of the namespaces that are not root namespaces and for which codes were added, once for each block; so a target met once is emitted once. The full statement is kept as a _statement definition and refuted by the _fails theorems; the other theorems hold without restriction."
  },
  {
   "property": "C47",
   "status": "partial",
   "theorems": [
    "Verif.Gen.Props.C47_history",
    "Verif.Gen.Props.C47_no_header",
    "Verif.Gen.Props.C47_outside",
    "Verif.Gen.Props.C47_content",
    "Verif.Gen.Props.C47_blocks",
    "Verif.Gen.Props.C47_lines_fails",
    "Verif.Gen.Props.C47_lines_partial",
    "Verif.Gen.Props.C47_filename",
    "Verif.Gen.Props.C47_error_fails",
    "Verif.Gen.Props.C47_error_partial",
    "Verif.Gen.Props.C47_atomic_fails",
    "Verif.Gen.Props.C47_atomic_partial",
    "Verif.Gen.Props.C47_context",
    "Verif.Gen.Props.C47_glue",
    "Verif.Gen.Props.C47_has_glue"
   ],
   "note": "Findings: an exception is swallowed when the separate glue file lacks markers; the closing mark is glued to the last line when the stub has no final newline; the bindings are already written when the stub file is missing. Proved parts: C47_lines_partial: C47. It holds for the codes that are empty or end with a line end, in the stubs and in the bindings (where all of them do). C47_error_partial: C47. It holds for the two other files. Missing: a glue code in the file of the bindings (the exception is raised too, but only when the code just written there has no marker). C47_atomic_partial: C47. It holds when the file of the bindings is the wrong one. The full statement is kept as a _statement definition and refuted by the _fails theorems; the other theorems hold without restriction. C47_glue, C47_has_glue: what the glue code is made of and when there is some."
  },
  {
   "property": "C48",
   "status": "partial",
   "theorems": [
    "Verif.Publish.Props.C48_right_name",
    "Verif.Publish.Props.C48_distinct",
    "Verif.Publish.Props.C48_complete_fails",
    "Verif.Publish.Props.C48_complete_partial",
    "Verif.Publish.Props.C48_refused",
    "Verif.Publish.Props.C48_identifier_fails",
    "Verif.Publish.Props.C48_identifier_partial",
    "Verif.Publish.Props.C48_symbol",
    "Verif.Publish.Props.C48_spaceship"
   ],
   "note": "Findings: bit operators are refused though Python has them; names that start with `operator` are dropped; the spaceship gives five comparisons, without `!=`. Proved parts: C48_complete_partial: C48. It holds for all the others. C48_identifier_partial: C48. It holds for names that do not start with `operator`. The full statement is kept as a _statement definition and refuted by the _fails theorems; the other theorems hold without restriction."
  },
  {
   "property": "C49",
   "status": "partial",
   "theorems": [
    "Verif.Elem.Props.C49_parents",
    "Verif.Elem.Props.C49_refill",
    "Verif.Elem.Props.C49_visit",
    "Verif.Elem.Props.C49_ancestors",
    "Verif.Elem.Props.C49_depth",
    "Verif.Elem.Props.C49_scope",
    "Verif.Elem.Props.C49_scope_enum",
    "Verif.Elem.Props.C49_self_fails",
    "Verif.Elem.Props.C49_self_partial",
    "Verif.Elem.Props.C49_cache_fails",
    "Verif.Elem.Props.C49_cache_partial"
   ],
   "note": "Findings: the scope of a member of a C enum, with itself included, contains the enum; the cached scope is stale after reparenting. Proved parts: C49_self_partial: **C49.** For all other elements it has. C49_cache_partial: **C49.** When the parents are all filled before the first question, every scope returned, after any number of questions and clearings, is the one of the tree. The full statement is kept as a _statement definition and refuted by the _fails theorems; the other theorems hold without restriction."
  },
  {
   "property": "C50",
   "status": "partial",
   "theorems": [
    "Verif.Glue.Props.C50_publicist",
    "Verif.Glue.Props.C50_publicist_scope",
    "Verif.Glue.Props.C50_class_scope",
    "Verif.Glue.Props.C50_nothing",
    "Verif.Glue.Props.C50_using_fails",
    "Verif.Glue.Props.C50_using_partial",
    "Verif.Glue.Props.C50_trampoline",
    "Verif.Glue.Props.C50_trampoline_scope",
    "Verif.Glue.Props.C50_named_members",
    "Verif.Glue.Props.C50_named_scope_fails",
    "Verif.Glue.Props.C50_named_scope_partial"
   ],
   "note": "Findings: overloaded protected methods give repeated `using`; the text of named constructors nests namespaces in the reverse order; a nested class with exposed protected or virtual methods raises. Proved parts: C50_using_partial: C50. It holds when the protected methods have different names. C50_named_scope_partial: C50. What is true: every scope is opened and closed once, in the reverse order. This is the right order when the scopes read the same both ways, in particular for one scope or none. The full statement is kept as a _statement definition and refuted by the _fails theorems; the other theorems hold without restriction."
  },
  {
   "property": "C51",
   "status": "proved",
   "theorems": [
    "Verif.Escape.C51_python_comment",
    "Verif.Escape.C51_cpp_comment",
    "Verif.Escape.C51_remove_markers"
   ],
   "note": ""
  },
  {
   "property": "C52",
   "status": "partial",
   "theorems": [
    "Verif.Enums.Props.C52_count",
    "Verif.Enums.Props.C52_count_skipped_fails",
    "Verif.Enums.Props.C52_count_skipped_partial",
    "Verif.Enums.Props.C52_pydef",
    "Verif.Enums.Props.C52_arithmetic_fails",
    "Verif.Enums.Props.C52_stub_base",
    "Verif.Enums.Props.C52_stub_values",
    "Verif.Enums.Props.C52_distinct_fails",
    "Verif.Enums.Props.C52_distinct_partial"
   ],
   "note": "Findings: an enumeration which is not matched by `enum_make_arithmetic__regex` raises `UnboundLocalError`; the COUNT member of an enumeration whose name contains an underscore is never skipped; members of an enum class named like a size are dropped; names may collide (`Foo_A`/`A`, `Foo_1`/`Foo__1`, `Foo_None`/`Foo_None_`, `Ab`/`ab`). Proved parts: C52_count_skipped_partial: C52. It holds when the name of the enumeration has no underscore. Missing: the other names (see `C52_count_skipped_fails`). C52_distinct_partial: C52. Names stay distinct when the replacements change nothing and the members follow one convention: those of a C enumeration all start with its name and an underscore, what remains does not start with a digit and is not a reserved word followed by an underscore; with the conversion to snake case, it has no capitals. Missing: the other members (see `C52_distinct_fails`). The full statement is kept as a _statement definition and refuted by the _fails theorems; the other theorems hold without restriction."
  },
  {
   "property": "C53",
   "status": "partial",
   "theorems": [
    "Verif.Inst.Props.C53_words",
    "Verif.Inst.Props.C53_type_partial",
    "Verif.Inst.Props.C53_type_fails",
    "Verif.Inst.Props.C53_type_one",
    "Verif.Inst.Props.C53_function",
    "Verif.Inst.Props.C53_class",
    "Verif.Inst.Props.C53_members_partial",
    "Verif.Inst.Props.C53_gone",
    "Verif.Inst.Props.C53_progressive",
    "Verif.Inst.Props.C53_exhausted",
    "Verif.Inst.Props.C53_instantiate_fails",
    "Verif.Inst.Props.C53_instantiate_partial",
    "Verif.Inst.Props.C53_complete_fails",
    "Verif.Inst.Props.C53_arguments"
   ],
   "note": "Findings: template parameters are replaced one after the other (capture); a template that does not mention its parameter in a type stops the generator; bases and default values are not specialised. an unnamed or non-type template parameter gives an empty name, hence the pattern `\\\\b\\\\b`; `with_terse_types` is cached under the shortened scope; enumerations and typedefs nested in a template class are not specialised. Proved parts: C53_type_partial: C53. Specialising a type replaces the template parameters, as whole words, at the same time, in all its type names; specifiers and modifiers are kept; `None` is returned exactly when no parameter is mentioned. This holds for any number of parameters, provided that no given type mentions a parameter which comes later. C53_members_partial: C53. Non template members of a template class (and everything else) can be specialised by naming the parameters. C53_instantiate_partial: C53. What is missing is exactly the templates that do not mention their parameter in a type. The full statement is kept as a _statement definition and refuted by the _fails theorems; the other theorems hold without restriction."
  },
  {
   "property": "C54",
   "status": "partial",
   "theorems": [
    "Verif.Adapt.Props.C54_call_fails",
    "Verif.Adapt.Props.C54_text_fails",
    "Verif.Adapt.Props.C54_call_partial",
    "Verif.Adapt.Props.C54_rejects",
    "Verif.Adapt.Props.C54_rejects_mixed",
    "Verif.Adapt.Props.C54_chain_partial"
   ],
   "note": "Findings: an array of pointers `int * a[2]` that is not constant: whether the items are boxed is decided from `int *`, but the generated code reads `.value` of each item, which is decided from `int`; the code does not compile. `const char * const label = NULL`: the generated variable is constant and is assigned afterwards; the code does not compile. Outside the theorem, seen while modelling: a stride after a pointer that is not recognised as a buffer reads the item size of something that is not an array; a parameter that is both a stride and a size is treated as a stride in the parameter list and as a size in the call. The adapter for `const char * = NULL` is selected by the option of another adapter (`fn_params_output_modifiable_immutable_to_return__regex`). Proved parts: C54_call_partial: C54 (part): if the buffers are recognised without ambiguity and the parameters are `Plain`. C54_chain_partial: C54 (part): the same for all the lambdas together: the function that is bound gives the promised result. The full statement is kept as a _statement definition and refuted by the _fails theorems; the other theorems hold without restriction."
  },
  {
   "property": "C55",
   "status": "proved",
   "theorems": [
    "Verif.Adapt.Props.C55_interface",
    "Verif.Adapt.Props.C55_unchanged",
    "Verif.Adapt.Props.C55_forced",
    "Verif.Adapt.Props.C55_forced_only"
   ],
   "note": " C55_forced, C55_forced_only: the functions asked to be bound through a lambda."
  },
  {
   "property": "C56",
   "status": "partial",
   "theorems": [
    "Verif.Parse.Props.C56_nothing_else_lost",
    "Verif.Parse.Props.C56_partial",
    "Verif.Parse.Props.C56_fails",
    "Verif.Parse.Props.C56_isolation",
    "Verif.Parse.Props.C56_typedef_comment_fails",
    "Verif.Parse.Props.C56_survives_fails",
    "Verif.Parse.Props.C56_survives_partial",
    "Verif.Parse.Props.C56_markers",
    "Verif.Parse.Props.C56_comment_after",
    "Verif.Parse.Props.C56_comment_before",
    "Verif.Parse.Props.C56_ignored_comments"
   ],
   "note": "Findings: a macro in an access section of a class which is not a constructor leaves no element; nor does an `extern` with another text than \"C\" or with several blocks; the comment at the end of the line of a typedef is lost with it (the branch of `shall_ignore_comment` that should keep it is only reached by a second comment on the line); `fill_block` only catches `SrcmlcppExceptionDetailed`, so that a function without a name ends the program with an `AssertionError`. Proved parts: C56_nothing_else_lost gives the exact list of what may be left out; C56_partial: the full statement for files without such elements. C56_isolation: a declaration that cannot be parsed changes only its own elements. C56_survives_partial: no exception escapes if every XML element is as expected (Regular), whatever else it contains. The full statement is kept as a _statement definition and refuted by the _fails theorems. C56_comment_after, C56_comment_before, C56_ignored_comments: which comments the elements of a block get and which are left out."
  },
  {
   "property": "C57",
   "status": "partial",
   "theorems": [
    "Verif.Parse.Props.C57_declarators",
    "Verif.Parse.Props.C57_fails",
    "Verif.Parse.Props.C57_partial"
   ],
   "note": "Findings: the second and next declarators lose the specifiers of the statement: in `const int a, b;` the type of `b` is `int`; API names too. Proved parts: C57_partial: for statements without specifiers and API names, or with one variable. C57_declarators says what the others give. The full statement is kept as a _statement definition and refuted by the _fails theorems."
  },
  {
   "property": "C58",
   "status": "partial",
   "theorems": [
    "Verif.Parse.Props.C58_type_partial",
    "Verif.Parse.Props.C58_type_fails",
    "Verif.Parse.Props.C58_nothing_lost",
    "Verif.Parse.Props.C58_has_name_fails",
    "Verif.Parse.Props.C58_has_name_partial",
    "Verif.Parse.Props.C58_unknown_modifier"
   ],
   "note": "Findings: the loop on the API names removes items from the list it goes through: of two API names that follow each other the second stays a type name; a type whose only name starts with an API prefix (`MY_APIResult`) is left without a name. Proved parts: C58_type_partial: if no two API names follow each other; C58_has_name_partial: if one of the names is not an API name. C58_nothing_lost and C58_unknown_modifier hold without restriction. The full statement is kept as a _statement definition and refuted by the _fails theorems."
  },
  {
   "property": "C59",
   "status": "partial",
   "theorems": [
    "Verif.Parse.Props.C59_function_decl_partial",
    "Verif.Parse.Props.C59_function_partial",
    "Verif.Parse.Props.C59_function_fails",
    "Verif.Parse.Props.C59_constructor_partial",
    "Verif.Parse.Props.C59_constructor_fails",
    "Verif.Parse.Props.C59_template_constructor_fails",
    "Verif.Parse.Props.C59_trailing_partial",
    "Verif.Parse.Props.C59_trailing_fails"
   ],
   "note": "Findings: a constructor with a body which is `noexcept`, and a template constructor, are not parsed; `auto f() -> const Foo &` loses `const` and `&`; API names as in C58. Proved parts: C59_function_decl_partial and C59_function_partial: if no two API names follow each other in a type; C59_constructor_partial: constructors but for those which are `noexcept` and have a body; C59_trailing_partial: if the trailing type has neither specifiers nor modifiers. The full statement is kept as a _statement definition and refuted by the _fails theorems."
  },
  {
   "property": "C60",
   "status": "partial",
   "theorems": [
    "Verif.Parse.Props.C60_declaration_partial",
    "Verif.Parse.Props.C60_declaration_fails",
    "Verif.Parse.Props.C60_initial_code"
   ],
   "note": "Findings: API names as in C58. Proved parts: C60_declaration_partial: if no two API names follow each other. The full statement is kept as a _statement definition and refuted by the _fails theorems. C60_initial_code: initial values that are no expressions."
  },
  {
   "property": "C61",
   "status": "partial",
   "theorems": [
    "Verif.Parse.Props.C61_rewritten",
    "Verif.Parse.Props.C61_untouched",
    "Verif.Parse.Props.C61_recovered",
    "Verif.Parse.Props.C61_comments_fails",
    "Verif.Parse.Props.C61_survives_fails",
    "Verif.Parse.Props.C61_survives_partial",
    "Verif.Parse.Props.C61_constructor",
    "Verif.Parse.Props.C61_other_macro",
    "Verif.Parse.Props.C61_macro_name_fails"
   ],
   "note": "Findings: the documentation of a recovered function is lost; `void f(P p = {⏎});` raises an `AssertionError`; in the class `Foo`, the macro `FooInit(int a)` becomes a constructor. Proved parts: C61_survives_partial: if every argument is plain or has braces as srcML gives them. C61_rewritten, C61_untouched, C61_recovered, C61_constructor and C61_other_macro hold without restriction. The full statement is kept as a _statement definition and refuted by the _fails theorems."
  },
  {
   "property": "C62",
   "status": "partial",
   "theorems": [
    "Verif.Fn.Props.C62_fails",
    "Verif.Fn.Props.C62_partial",
    "Verif.Fn.Props.C62_balanced_partial",
    "Verif.Fn.Props.C62_docstring_partial"
   ],
   "note": "Findings: a docstring that contains the name of a placeholder such as `{maybe_comma}` loses it, with `{maybe_keep_alive}` the whole docstring disappears. Proved parts: C62_partial: for every function whose texts contain no placeholder and do not end with a comma. C62_balanced_partial: brackets, strings and comments of the statement are closed if those of its parts are. C62_docstring_partial: the docstring denotes the comment up to white space. The full statement is kept as a _statement definition and refuted by the _fails theorems."
  },
  {
   "property": "C63",
   "status": "partial",
   "theorems": [
    "Verif.Fn.Props.C63_fails",
    "Verif.Fn.Props.C63_partial",
    "Verif.Fn.Props.C63_ctor",
    "Verif.Fn.Props.C63_overloads_fails",
    "Verif.Fn.Props.C63_overloads_partial",
    "Verif.Fn.Props.C63_reference_fails",
    "Verif.Fn.Props.C63_reference_partial",
    "Verif.Fn.Props.C63_bindable_fails",
    "Verif.Fn.Props.C63_bindable_partial"
   ],
   "note": "Findings: a static method which is bound by a lambda gets a parameter `self` under `def_static`, pybind11 refuses it; an overloaded static method without parameters needs an argument in Python; `int get()` and `int get() const` are bound by the same lambda; an overloaded `Foo & get()` returns a copy. Also: a vectorized method is bound as `&py::vectorize(Foo::f)`, a vectorized overload as `py::overload_cast<..>(py::vectorize(f))`; neither is valid. Proved parts: C63_partial: all functions and methods but the static methods which are bound by a lambda. C63_ctor holds without restriction for pybind11. C63_overloads_partial: methods with parameters. C63_reference_partial: callables that are not the short lambda. C63_bindable_partial: functions that are not vectorized, and vectorized free functions without overloads. The full statement is kept as a _statement definition and refuted by the _fails theorems."
  },
  {
   "property": "C64",
   "status": "partial",
   "theorems": [
    "Verif.Fn.Props.C64_names",
    "Verif.Fn.Props.C64_default_fails",
    "Verif.Fn.Props.C64_default_partial",
    "Verif.Fn.Props.C64_optional_fails",
    "Verif.Fn.Props.C64_optional_partial",
    "Verif.Fn.Props.C64_values_partial"
   ],
   "note": "Findings: `Foo * p = {}` gives a new object instead of a null pointer; `unsigned char c = {3}` gives `unsigned{3}`; a `std::shared_ptr` which is null by default is shown as `= None` without Optional. Proved parts: C64_names for functions whose names survive the replacements. C64_default_partial: values not in braces, or in braces with a type of one word which is not a pointer. C64_optional_partial: pointers of free functions. C64_values_partial: the exact text of every `py::arg`. The full statement is kept as a _statement definition and refuted by the _fails theorems."
  },
  {
   "property": "C65",
   "status": "partial",
   "theorems": [
    "Verif.Fn.Props.C65_header",
    "Verif.Fn.Props.C65_self",
    "Verif.Fn.Props.C65_static_fails",
    "Verif.Fn.Props.C65_static_partial"
   ],
   "note": "Findings: the adapter that returns the modified parameters loses `static`: the binding is static, the stub is not, and the C++ return type is `std::tuple<static bool, int>`. Proved parts: C65_static_partial: if the adapters keep `static`. C65_header and C65_self hold without restriction. The full statement is kept as a _statement definition and refuted by the _fails theorems."
  },
  {
   "property": "C66",
   "status": "partial",
   "theorems": [
    "Verif.Fn.Props.C66_word",
    "Verif.Fn.Props.C66_order",
    "Verif.Fn.Props.C66_policy_fails",
    "Verif.Fn.Props.C66_policy_partial",
    "Verif.Fn.Props.C66_forced",
    "Verif.Fn.Props.C66_keep_fails",
    "Verif.Fn.Props.C66_keep_partial",
    "Verif.Fn.Props.C66_library_partial"
   ],
   "note": "Findings: punctuation after a policy goes into the C++ code (`reference)`, `reference.`); prose after `py::keep_alive` is copied up to the next `()`; of two keep_alive only the first is kept. Proved parts: C66_policy_partial: a policy followed by white space. C66_keep_partial: one policy written in full. C66_word, C66_order and C66_forced hold without restriction. C66_library_partial: a policy of either library is written for the library of the options. The full statement is kept as a _statement definition and refuted by the _fails theorems."
  },
  {
   "property": "C67",
   "status": "partial",
   "theorems": [
    "Verif.Fn.Props.C67_fails",
    "Verif.Fn.Props.C67_partial"
   ],
   "note": "Findings: three quotes in a comment or a backslash at its end break the stub. Proved parts: C67_partial: comments without backslash and without three quotes. The full statement is kept as a _statement definition and refuted by the _fails theorems."
  },
  {
   "property": "C68",
   "status": "partial",
   "theorems": [
    "Verif.Cls.Props.C68_fails",
    "Verif.Cls.Props.C68_partial",
    "Verif.Cls.Props.C68_binding_partial",
    "Verif.Cls.Props.C68_array",
    "Verif.Cls.Props.C68_array_readonly",
    "Verif.Cls.Props.C68_none_fails",
    "Verif.Cls.Props.C68_none_partial"
   ],
   "note": "Findings: the binding of an array of numbers has no setter though the stub does not say so; a comment '(const)' is read as a remark; smart pointers and initializers in braces are not optional. Proved parts: C68_partial, C68_binding_partial: members that are not arrays of numbers; C68_array, C68_array_readonly: the exact binding of arrays of numbers; C68_none_partial: raw pointers initialized with =. The full statements are kept as _statement definitions and refuted by the _fails theorems."
  },
  {
   "property": "C69",
   "status": "partial",
   "theorems": [
    "Verif.Cls.Props.C69_fails",
    "Verif.Cls.Props.C69_partial",
    "Verif.Cls.Props.C69_named"
   ],
   "note": "Findings: references and arrays without size are published. Proved parts: C69_partial: members that are not references, arrays with a written size; C69_named: the members of the named constructor. The full statement is kept as a _statement definition and refuted by C69_fails."
  },
  {
   "property": "C70",
   "status": "partial",
   "theorems": [
    "Verif.Cls.Props.C70_fails",
    "Verif.Cls.Props.C70_partial",
    "Verif.Cls.Props.C70_stub_fails",
    "Verif.Cls.Props.C70_stub_partial"
   ],
   "note": "Findings: protected bases and the private base of a class without specifier are bases in the binding; a class with a private destructor that is held in a shared pointer gets two holders; a virtual base stops the generator; the stub lists private bases. Proved parts: C70_partial: bases with public or private, or without specifier in a struct, and one holder; C70_stub_partial: all bases public. The full statements are kept as _statement definitions and refuted by the _fails theorems."
  },
  {
   "property": "C71",
   "status": "proved",
   "theorems": [
    "Verif.Cls.Props.C71_closed"
   ],
   "note": "For every class whose texts are closed pieces of C++; closedness is given by the bracket reader of Verif/Fn/Meaning."
  },
  {
   "property": "C72",
   "status": "partial",
   "theorems": [
    "Verif.Cls.Props.C72_layout",
    "Verif.Cls.Props.C72_block_fails",
    "Verif.Cls.Props.C72_block_partial",
    "Verif.Cls.Props.C72_again_fails",
    "Verif.Cls.Props.C72_again_partial"
   ],
   "note": "Findings: a class whose public part has only comments or empty lines and whose constructor is private gets a block without statement (a syntax error in Python); every call of stub_lines adds '(final class)' and the remark on copies to the comment of the class, so a second stub repeats them and the binding has them. Proved parts: C72_layout in full; C72_block_partial: classes with a docstring, an empty body or a statement in it; C72_again_partial: classes that are not final and get no remark on copies."
  },
  {
   "property": "C73",
   "status": "partial",
   "theorems": [
    "Verif.Cls.Props.C73_fails",
    "Verif.Cls.Props.C73_partial",
    "Verif.Cls.Props.C73_text",
    "Verif.Cls.Props.C73_announced"
   ],
   "note": "Findings: a class with only a move constructor, and deleted copy constructors written Foo(Foo&), Foo(const N::Foo&) or Foo(const Foo&, int = 0), get copies that do not compile. Proved parts: C73_partial: classes with at most one constructor from their own type, written Foo(const Foo&); C73_text, C73_announced in full."
  },
  {
   "property": "C74",
   "status": "partial",
   "theorems": [
    "Verif.Cls.Props.C74_fails",
    "Verif.Cls.Props.C74_partial"
   ],
   "note": "Finding: with pybind11, a first member called self stops the generator. Proved part: C74_partial: all other classes."
  },
  {
   "property": "C75",
   "status": "proved",
   "theorems": [
    "Verif.Cls.Props.C75_binding",
    "Verif.Cls.Props.C75_stub",
    "Verif.Cls.Props.C75_iterable"
   ],
   "note": "Texts are compared without blanks (the indentation is in C71, C72). For classes whose texts are as in C74 and whose stub lines have no line break."
  },
  {
   "property": "C76",
   "status": "partial",
   "theorems": [
    "Verif.Unit.Props.C76_partial",
    "Verif.Unit.Props.C76_created_once_fails",
    "Verif.Unit.Props.C76_source_order_fails",
    "Verif.Unit.Props.C76_nested_name",
    "Verif.Unit.Props.C76_nested_roots"
   ],
   "note": "Findings: a module written inside and outside a root namespace is created twice; what stands in no namespace comes before all namespaces, so a derived class may be bound before its base; namespace A::B gives an invalid name. Proved part: C76_partial: units where no module name is reached both through and not through a root namespace, with names that are words, indentations of blanks and comments without placeholders."
  },
  {
   "property": "C77",
   "status": "partial",
   "theorems": [
    "Verif.Unit.Props.C77_partial",
    "Verif.Unit.Props.C77_docstring_fails"
   ],
   "note": "Finding: the comment of a namespace stands after pass, so it is not the docstring of the proxy class. Proved part: C77_partial, same units as C76."
  },
  {
   "property": "C78",
   "status": "proved",
   "theorems": [
    "Verif.Unit.Props.C78_refines",
    "Verif.Unit.Props.C78_elements",
    "Verif.Unit.Props.C78_hidden",
    "Verif.Unit.Props.C78_binding",
    "Verif.Unit.Props.C78_stub",
    "Verif.Unit.Props.C78_isolation_fails",
    "Verif.Unit.Props.C78_empty_line",
    "Verif.Unit.Props.C78_comment",
    "Verif.Unit.Props.C78_macro",
    "Verif.Unit.Props.C78_silent_binding",
    "Verif.Unit.Props.C78_silent_stub"
   ],
   "note": "C78_isolation_fails: within one statement the variables after a failing one are lost."
  },
  {
   "property": "C79",
   "status": "proved",
   "theorems": [
    "Verif.Re.Props.C79_rules",
    "Verif.Re.Props.C79_engine",
    "Verif.Re.Props.C79_found",
    "Verif.Re.Props.C79_sub",
    "Verif.Re.Props.C79_word",
    "Verif.Re.Props.C79_subn"
   ],
   "note": "The model of re covers the constructs that the standard replacements use."
  },
  {
   "property": "C80",
   "status": "partial",
   "theorems": [
    "Verif.Re.Props.C80_partial",
    "Verif.Re.Props.C80_fails",
    "Verif.Re.Props.C80_literal_fails",
    "Verif.Re.Props.C80_suffix_fails"
   ],
   "note": "C80_partial needs names without a digit after `_` and leaves out void, std::nullopt, std::string and digit separators (examples only). Findings: kernel_2d is truncated, the texts of literals are changed, integer suffixes stay."
  },
  {
   "property": "C81",
   "status": "partial",
   "theorems": [
    "Verif.Re.Props.C81_partial",
    "Verif.Re.Props.C81_kept_partial",
    "Verif.Re.Props.C81_fails"
   ],
   "note": "C81_partial needs names without a digit after `_`. Finding: kernel_2d is truncated."
  },
  {
   "property": "C82",
   "status": "partial",
   "theorems": [
    "Verif.Re.Props.C82_partial",
    "Verif.Re.Props.C82_nothing_left_partial",
    "Verif.Re.Props.C82_brackets_fails",
    "Verif.Re.Props.C82_scope_fails",
    "Verif.Re.Props.C82_function_fails",
    "Verif.Re.Props.C82_blank_fails"
   ],
   "note": "C82_partial covers templates nested to any depth, with one template at each level; it leaves out char, void *, std::string(), the integers of std and a word just after a template. Findings: std::array<std::pair<int, float>, 3> has unbalanced brackets, std::uint8_t is std::int, std::function<std::string()> is std::function[\"\"], a blank after a template is lost."
  },
  {
   "property": "C83",
   "status": "partial",
   "theorems": [
    "Verif.ToPy.Props.C83_partial",
    "Verif.ToPy.Props.C83_order_partial",
    "Verif.ToPy.Props.C83_kept_partial",
    "Verif.ToPy.Props.C83_fails",
    "Verif.ToPy.Props.C83_path_fails",
    "Verif.ToPy.Props.C83_hidden_fails",
    "Verif.ToPy.Props.C83_literal_fails",
    "Verif.ToPy.Props.C83_same_name_fails"
   ],
   "note": "C83_partial: no scope has its own Python name, or the one of a scope outside it, among its members. Findings: such a member gives io.io.Data, a nested scope gives Style.Side instead of Window.Style.Side, the outermost scope wins, the texts of string literals are changed, scopes with the same unqualified name are confused."
  },
  {
   "property": "C84",
   "status": "partial",
   "theorems": [
    "Verif.ToPy.Props.C84_partial",
    "Verif.ToPy.Props.C84_kept",
    "Verif.ToPy.Props.C84_fails",
    "Verif.ToPy.Props.C84_type_fails"
   ],
   "note": "C84_partial: the types of the parameters have no brackets, and the last word of an unnamed type of several words is not a name. Findings: Callable[[List[int] values], None] keeps the name, unsigned char becomes unsigned."
  },
  {
   "property": "C85",
   "status": "partial",
   "theorems": [
    "Verif.ToPy.Props.C85_partial",
    "Verif.ToPy.Props.C85_order_partial",
    "Verif.ToPy.Props.C85_after",
    "Verif.ToPy.Props.C85_fails",
    "Verif.ToPy.Props.C85_order_fails",
    "Verif.ToPy.Props.C85_block_fails"
   ],
   "note": "C85_partial: no name of a namespace is the end of a longer name before a dot or of a new name. Findings: with the root Gui, ImGui.Style becomes ImStyle; the order of a set changes the result; a namespace is renamed only after its first block."
  },
  {
   "property": "C86",
   "status": "partial",
   "theorems": [
    "Verif.ToPy.Props.C86_partial",
    "Verif.ToPy.Props.C86_macro_partial",
    "Verif.ToPy.Props.C86_braces",
    "Verif.ToPy.Props.C86_fails",
    "Verif.ToPy.Props.C86_macro_fails",
    "Verif.ToPy.Props.C86_template_fails"
   ],
   "note": "C86_partial: no word of the types, no &, no *, no braces around the value. Findings: 4 * 1024 becomes 4  1024, the macro N changes MAX_N to MAX_3, the arguments of a specialized template class are not translated."
  },
  {
   "property": "C87",
   "status": "partial",
   "theorems": [
    "Verif.ToPy.Props.C87_partial",
    "Verif.ToPy.Props.C87_fails"
   ],
   "note": "C87_partial: no word of the type ends with static or constexpr, but these words; with the hypotheses of C82, C84 and C85. Finding: a reference to the class Electrostatic is Electro in Python."
  },
  {
   "property": "C88",
   "status": "partial",
   "theorems": [
    "Verif.Mut.Props.C88_value",
    "Verif.Mut.Props.C88_param",
    "Verif.Mut.Props.C88_literal",
    "Verif.Mut.Props.C88_const_partial",
    "Verif.Mut.Props.C88_enum",
    "Verif.Mut.Props.C88_enum_param",
    "Verif.Mut.Props.C88_groups_fails",
    "Verif.Mut.Props.C88_string_fails",
    "Verif.Mut.Props.C88_const_fails",
    "Verif.Mut.Props.C88_global_fails",
    "Verif.Mut.Props.C88_hidden_fails"
   ],
   "note": "C88_value and C88_param are the exact conditions, C88_literal and C88_enum hold without restriction. Findings: 1'000 counts as mutable, \"a\" + names() + \"b\" as a literal, const int n = kCount as mutable, ::Color reaches Ui::Color, a class that hides an enumeration counts as the enumeration."
  },
  {
   "property": "C89",
   "status": "partial",
   "theorems": [
    "Verif.Qual.Props.C89_fresh",
    "Verif.Qual.Props.C89_history_fails",
    "Verif.Qual.Props.C89_history_partial",
    "Verif.Qual.Props.C89_instance_fails",
    "Verif.Qual.Props.C89_instance_partial",
    "Verif.Qual.Props.C89_instance_function_fails",
    "Verif.Qual.Props.C89_instance_function_partial",
    "Verif.Qual.Props.C89_terse_fails",
    "Verif.Qual.Props.C89_terse_partial"
   ],
   "note": "C89_fresh holds without restriction. The full statements on several scopes and on instances are refuted: the cache of a parameter ignores the scope, and the caches are copied into the instances of templates. They are proved when the parameters are the same in all the scopes, and when the instance needs no further qualification; the terse form for repeated calls in one scope."
  },
  {
   "property": "C90",
   "status": "partial",
   "theorems": [
    "Verif.Lam.Props.C90_text_fails",
    "Verif.Lam.Props.C90_text_partial",
    "Verif.Lam.Props.C90_reference_fails",
    "Verif.Lam.Props.C90_outputs",
    "Verif.Lam.Props.C90_output_call"
   ],
   "note": "The full statement C90_text_statement is refuted when a text holds a placeholder of the templates; it is proved when no placeholder begins in the texts, and no line ends with a blank. The statement on references is refuted: auto& stays after the outputs have been put in a tuple. C90_outputs holds without restriction."
  },
  {
   "property": "C91",
   "status": "partial",
   "theorems": [
    "Verif.Lam.Props.C91_wrapper_fails",
    "Verif.Lam.Props.C91_wrapper_partial",
    "Verif.Lam.Props.C91_code_partial",
    "Verif.Lam.Props.C91_no_code"
   ],
   "note": "The full statement C91_wrapper_statement is refuted with nanobind and no parameter; it is proved with pybind11, and with nanobind when there are parameters, for texts where no placeholder begins."
  },
  {
   "property": "C92",
   "status": "partial",
   "theorems": [
    "Verif.Print.Props.C92_layout_fails",
    "Verif.Print.Props.C92_layout_partial"
   ],
   "note": "The full statement C92_layout_statement is refuted: comment at the end of the line of a class or an enum, comment on an access zone, something else than enumerators in an enum. It is proved for every tree of any depth without these."
  },
  {
   "property": "C93",
   "status": "partial",
   "theorems": [
    "Verif.Print.Props.C93_decl_fails",
    "Verif.Print.Props.C93_decl_partial",
    "Verif.Print.Props.C93_enum_fails",
    "Verif.Print.Props.C93_enum_partial",
    "Verif.Print.Props.C93_class_fails",
    "Verif.Print.Props.C93_class_partial",
    "Verif.Print.Props.C93_function_fails",
    "Verif.Print.Props.C93_function_partial",
    "Verif.Print.Props.C93_instance",
    "Verif.Print.Props.C93_definition",
    "Verif.Print.Props.C93_comment",
    "Verif.Print.Props.C93_define",
    "Verif.Print.Props.C93_decls"
   ],
   "note": "Each full statement is refuted: bit widths, the underlying type of enums, final and macros of classes, default values of template parameters, static, virtual, inline, extern, noexcept and = 0 are not printed, and constructors have no semicolon. Each is proved without these; functions are proved for those with a type that is returned. Instances of templates, definitions, comments, macros and statements of several declarations are proved in full."
  },
  {
   "property": "C94",
   "status": "partial",
   "theorems": [
    "Verif.Print.Props.C94_top",
    "Verif.Print.Props.C94_eol_fails",
    "Verif.Print.Props.C94_eol_partial",
    "Verif.Print.Props.C94_from_comments",
    "Verif.Print.Props.C94_add_fails",
    "Verif.Print.Props.C94_add_partial",
    "Verif.Print.Props.C94_place",
    "Verif.Print.Props.C94_c_style"
   ],
   "note": "C94_top and C94_from_comments hold without restriction (for comments which are not of the form /* */). A comment at the end of the line that has line breaks is printed as code after its first line; it is proved for one line. Adding a comment is refuted after from_comments, and proved when the comment which is there does not end with a line break. C94_place: the place of both comments around the element; C94_c_style: the comments /* */."
  },
  {
   "property": "C95",
   "status": "partial",
   "theorems": [
    "Verif.Find.Props.C95_exact",
    "Verif.Find.Props.C95_words_fails",
    "Verif.Find.Props.C95_words_partial",
    "Verif.Find.Props.C95_list"
   ],
   "note": "C95_exact gives the names that are recognised, without regular expressions. The full statement C95_words_statement is refuted (column3 is taken for a size; bufferSize and item_count_max are not); it is proved for names that are one word or two words, in lower case, with an underscore between them."
  },
  {
   "property": "C96",
   "status": "partial",
   "theorems": [
    "Verif.Find.Props.C96_exact",
    "Verif.Find.Props.C96_fails",
    "Verif.Find.Props.C96_others",
    "Verif.Find.Props.C96_partial",
    "Verif.Find.Props.C96_no_types"
   ],
   "note": "C96_exact gives the texts that are recognised, without regular expressions. The full statement C96_statement is refuted (float * *, geometry::T *, std::vector<float *> are taken for buffers); it is proved for one identifier, with const or not, with at most one modifier."
  },
  {
   "property": "C97",
   "status": "partial",
   "theorems": [
    "Verif.Find.Props.C97_two",
    "Verif.Find.Props.C97_partial",
    "Verif.Find.Props.C97_iff_partial",
    "Verif.Find.Props.C97_leading",
    "Verif.Find.Props.C97_fails"
   ],
   "note": "The full statement C97_statement is refuted: an empty expression at the end matches everything. It is proved for every list of expressions which are not empty, do not begin with | and have their brackets closed. Expressions are those of the modelled syntax: no counted repetition, no negative lookahead, no lookbehind but of a set."
  },
  {
   "property": "C98",
   "status": "partial",
   "theorems": [
    "Verif.Pimpl.Props.C98_exact",
    "Verif.Pimpl.Props.C98_suffixes_fails",
    "Verif.Pimpl.Props.C98_suffixes_never",
    "Verif.Pimpl.Props.C98_suffixes_partial",
    "Verif.Pimpl.Props.C98_first_fails",
    "Verif.Pimpl.Props.C98_first_partial"
   ],
   "note": "C98_exact characterises the name for any list of suffixes. C98_suffixes_statement is refuted (XPimpl is published as XP: the two last suffixes are never used); it is proved for the eight other suffixes and names that do not end with _, p, P. C98_first_statement is refuted (the first class is taken, with or without suffix); it is proved when the first class has a suffix."
  },
  {
   "property": "C99",
   "status": "partial",
   "theorems": [
    "Verif.Pimpl.Props.C99_definition_exact",
    "Verif.Pimpl.Props.C99_definition_fails",
    "Verif.Pimpl.Props.C99_virtual_fails",
    "Verif.Pimpl.Props.C99_definition_partial",
    "Verif.Pimpl.Props.C99_constructor_exact",
    "Verif.Pimpl.Props.C99_glue",
    "Verif.Pimpl.Props.C99_deleted_fails"
   ],
   "note": "C99_definition_exact, C99_constructor_exact and C99_glue give the text of the whole glue code. C99_definition_statement is refuted (default values are repeated, virtual is kept); it is proved without default values and without virtual, explicit, friend. C99_deleted_statement (no definition for a deleted function) is refuted."
  },
  {
   "property": "C100",
   "status": "partial",
   "theorems": [
    "Verif.Pimpl.Props.C100_declaration",
    "Verif.Pimpl.Props.C100_constructor",
    "Verif.Pimpl.Props.C100_header_partial",
    "Verif.Pimpl.Props.C100_brace_fails"
   ],
   "note": "The lines of the header that are not blank, without the blanks at their ends, are given exactly, when the brace has its own line (the default option). C100_brace_statement (the brace that opens the class is not in a comment) is refuted for line_feed_before_block = False. Texts in which a placeholder of the templates begins are excluded."
  },
  {
   "property": "C101",
   "status": "proved",
   "theorems": [
    "Verif.Query.Props.C101_elements",
    "Verif.Query.Props.C101_partition",
    "Verif.Query.Props.C101_members",
    "Verif.Query.Props.C101_methods"
   ],
   "note": "The listing of the elements with their access is given independently of the queries."
  },
  {
   "property": "C102",
   "status": "proved",
   "theorems": [
    "Verif.Query.Props.C102_elements",
    "Verif.Query.Props.C102_others",
    "Verif.Query.Props.C102_overloaded",
    "Verif.Query.Props.C102_text",
    "Verif.Query.Props.C102_last_fails"
   ],
   "note": "C102_last_statement, which is stronger than the property (the method is the last method of the class), is refuted: get_methods does not give the methods in the order of their addition."
  },
  {
   "property": "C103",
   "status": "proved",
   "theorems": [
    "Verif.Query.Props.C103_children",
    "Verif.Query.Props.C103_nested",
    "Verif.Query.Props.C103_private",
    "Verif.Query.Props.C103_inner_fails"
   ],
   "note": "Whether a function is publishable, raises, and whether a member can be published, are given (C44, C48, C69). C103_inner_statement (public functions of public inner classes that are not excluded are published) is refuted: a protected operator that is exposed and unsupported takes away the whole inner class; C103_nested states the exact condition."
  },
  {
   "property": "C104",
   "status": "partial",
   "theorems": [
    "Verif.Cache.Props.C104_words_partial",
    "Verif.Cache.Props.C104_several_partial",
    "Verif.Cache.Props.C104_words_fails",
    "Verif.Cache.Props.C104_inside_fails",
    "Verif.Cache.Props.C104_class_exact",
    "Verif.Cache.Props.C104_class_rules",
    "Verif.Cache.Props.C104_class_member",
    "Verif.Cache.Props.C104_class_fails",
    "Verif.Cache.Props.C104_call",
    "Verif.Cache.Props.C104_not_stored"
   ],
   "note": "Full statements in view: C104_words_statement and C104_class_statement, both refuted by the code. C104_words_partial holds when no Python name of the enumeration is the C++ name of one of its members that is replaced. For scoped enumerations the exact effect of the rule is proved (C104_class_exact). The statement for functions is full (C104_call). C104_several_partial: the same for any number of enumerations without class, stored one after the other. The interaction with the rules of scoped enumerations is not covered."
  },
  {
   "property": "C105",
   "status": "proved",
   "theorems": [
    "Verif.Cache.Props.C105_order",
    "Verif.Cache.Props.C105_isolated",
    "Verif.Cache.Props.C105_store",
    "Verif.Cache.Props.C105_unrelated",
    "Verif.Cache.Props.C105_value_partial",
    "Verif.Cache.Props.C105_value_fails"
   ],
   "note": "The same statement for the values of enumerations, which the property does not include (C105_value_statement), is refuted: no scope is given, and only the global replacements are used; C105_value_partial is for the global scope."
  },
  {
   "property": "C106",
   "status": "partial",
   "theorems": [
    "Verif.Gen.Props.C106_start",
    "Verif.Gen.Props.C106_braces_fails",
    "Verif.Gen.Props.C106_braces_partial",
    "Verif.Gen.Props.C106_banner_fails"
   ],
   "note": "C106_start is the full statement on the generation. The statements on the braces and on the banner are refuted by the code: the file proposed for the glue code has a `}` in excess, and the banner at the end of the stub is inside the markers. The formatting by black is assumed off, as in the other properties of the files."
  },
  {
   "property": "C107",
   "status": "partial",
   "theorems": [
    "Verif.Where.Props.C107_exact",
    "Verif.Where.Props.C107_partial",
    "Verif.Where.Props.C107_fails",
    "Verif.Where.Props.C107_windows"
   ],
   "note": "The full statement C107_statement is refuted by the code. C107_partial: only line feeds as line breaks, blank lines are empty, no comment equal to the mark of empty lines. C107_exact: what is lost in the other codes with line feeds. srcML is assumed to give back the text it was given."
  },
  {
   "property": "C108",
   "status": "partial",
   "theorems": [
    "Verif.Where.Props.C108_context",
    "Verif.Where.Props.C108_line",
    "Verif.Where.Props.C108_stored",
    "Verif.Where.Props.C108_cache_partial",
    "Verif.Where.Props.C108_max_fails",
    "Verif.Where.Props.C108_cache_fails"
   ],
   "note": "C108_context gives the exact text shown. C108_max_statement (number of lines) and C108_cache_statement (the code is the one of the element) are refuted by the code; C108_cache_partial: when no other code with the same name, or without name, is parsed after it."
  },
  {
   "property": "C109",
   "status": "partial",
   "theorems": [
    "Verif.Names.Props.C109_partial",
    "Verif.Names.Props.C109_target_fails",
    "Verif.Names.Props.C109_use_fails",
    "Verif.Names.Props.C109_renamed_fails"
   ],
   "note": "The full statements C109_target_statement, C109_use_statement and C109_renamed_statement are refuted by the code. C109_partial: one option matches the class, its name and those of the synonyms and their targets are not changed by the replacements of types and are not Python keywords, and the names that are made are identifiers that the replacements do not change."
  },
  {
   "property": "C110",
   "status": "partial",
   "theorems": [
    "Verif.Ids.Props.C110_functions",
    "Verif.Ids.Props.C110_decls_partial",
    "Verif.Ids.Props.C110_decls_fails"
   ],
   "note": "Functions and classes: full. Declarations: the full statement C110_decls_statement is refuted by the code; C110_decls_partial needs that the functions with a body have no named parameter (otherwise the declarations found are a sublist, in order)."
  },
  {
   "property": "C111",
   "status": "partial",
   "theorems": [
    "Verif.Ids.Props.C111_known",
    "Verif.Ids.Props.C111_resolves",
    "Verif.Ids.Props.C111_enumerator_partial",
    "Verif.Ids.Props.C111_enumerator_fails"
   ],
   "note": "The list of identifiers and the resolution of a name that denotes one declaration: full. The full statement for enumerators, C111_enumerator_statement, is refuted for C enumerations; C111_enumerator_partial is for enumeration classes."
  },
  {
   "property": "C112",
   "status": "partial",
   "theorems": [
    "Verif.Warn.Props.C112_text",
    "Verif.Warn.Props.C112_nested",
    "Verif.Warn.Props.C112_place_fails",
    "Verif.Warn.Props.C112_printed",
    "Verif.Warn.Props.C112_type_partial",
    "Verif.Warn.Props.C112_type_fails",
    "Verif.Warn.Props.C112_parts_partial",
    "Verif.Warn.Props.C112_parts_fails"
   ],
   "note": "The text of the messages (C112_text, C112_nested) and the condition for a warning to be printed (C112_printed): full. Refuted by the code: that every message gives the place (C112_place_statement; C112_text says exactly when it does), that the type is written once (C112_type_statement; C112_type_partial is for the messages that do not have `Warning: ` themselves) and that any part of what is printed can be ignored (C112_parts_statement; C112_parts_partial is for the parts of the message itself)."
  },
  {
   "property": "C113",
   "status": "partial",
   "theorems": [
    "Verif.Xml.Props.C113_tag",
    "Verif.Xml.Props.C113_kinds_partial",
    "Verif.Xml.Props.C113_kinds_fails",
    "Verif.Xml.Props.C113_child",
    "Verif.Xml.Props.C113_position_text",
    "Verif.Xml.Props.C113_place",
    "Verif.Xml.Props.C113_copy_end"
   ],
   "note": "Tags, children, positions: full. That elements of different kinds have different tags (C113_kinds_statement) is refuted by the code; C113_kinds_partial is for the elements of one XML namespace."
  },
  {
   "property": "C114",
   "status": "partial",
   "theorems": [
    "Verif.Xml.Props.C114_tree",
    "Verif.Xml.Props.C114_outline_partial",
    "Verif.Xml.Props.C114_outline_fails",
    "Verif.Xml.Props.C114_stable_partial",
    "Verif.Xml.Props.C114_stable_fails"
   ],
   "note": "C114_tree (the tree can be found from the text, at any depth): full. Refuted by the code: the tag is always the first word (C114_outline_statement; C114_outline_partial is for tags that end before column 60) and the text is always the same (C114_stable_statement; C114_stable_partial is for an element whose first place is not the last one shown before)."
  },
  {
   "property": "C115",
   "status": "partial",
   "theorems": [
    "Verif.CArray.Props.C115_name",
    "Verif.CArray.Props.C115_nothing_lost",
    "Verif.CArray.Props.C115_one_class",
    "Verif.CArray.Props.C115_dimensions",
    "Verif.CArray.Props.C115_number",
    "Verif.CArray.Props.C115_macro",
    "Verif.CArray.Props.C115_literal_partial",
    "Verif.CArray.Props.C115_literal_fails",
    "Verif.CArray.Props.C115_blanks_partial",
    "Verif.CArray.Props.C115_blanks_fails"
   ],
   "note": "Names, classes, dimensions, numbers and macros: full. Refuted by the code: the size of a literal is its value (C115_literal_statement; C115_literal_partial is for literals without a leading zero) and blanks do not matter (C115_blanks_statement; C115_blanks_partial is for numbers)."
  },
  {
   "property": "C116",
   "status": "partial",
   "theorems": [
    "Verif.FnKind.Props.C116_noexcept",
    "Verif.FnKind.Props.C116_condition_partial",
    "Verif.FnKind.Props.C116_condition_fails",
    "Verif.FnKind.Props.C116_kinds",
    "Verif.FnKind.Props.C116_default_partial",
    "Verif.FnKind.Props.C116_default_fails",
    "Verif.FnKind.Props.C116_returns",
    "Verif.FnKind.Props.C116_virtual_partial",
    "Verif.FnKind.Props.C116_virtual_fails"
   ],
   "note": "C116_noexcept, C116_kinds, C116_returns: full. Refuted by the code: the answer is the value of the condition (C116_condition_statement; C116_condition_partial: constants, and the answer is never wrongly yes), default constructors are those that can be called without arguments (C116_default_statement; C116_default_partial: no `void` and no `...`), methods declared as virtual (C116_virtual_statement; C116_virtual_partial: not `final` alone)."
  },
  {
   "property": "C117",
   "status": "partial",
   "theorems": [
    "Verif.PimplFile.Props.C117_header",
    "Verif.PimplFile.Props.C117_others",
    "Verif.PimplFile.Props.C117_nothing_written",
    "Verif.PimplFile.Props.C117_missing",
    "Verif.PimplFile.Props.C117_filled",
    "Verif.PimplFile.Props.C117_twice",
    "Verif.PimplFile.Props.C117_atomic_partial",
    "Verif.PimplFile.Props.C117_atomic_fails"
   ],
   "note": "C117_header, C117_others, C117_nothing_written, C117_missing, C117_filled, C117_twice: full. Refuted by the code: a call that raises changes no file (C117_atomic_statement): the C++ file is written before the markers of the header are looked for; C117_atomic_partial: headers with a region."
  },
  {
   "property": "C118",
   "status": "partial",
   "theorems": [
    "Verif.Ignore.Props.C118_flag",
    "Verif.Ignore.Props.C118_kept",
    "Verif.Ignore.Props.C118_cleaned",
    "Verif.Ignore.Props.C118_removed_partial",
    "Verif.Ignore.Props.C118_removed_fails",
    "Verif.Ignore.Props.C118_again_partial",
    "Verif.Ignore.Props.C118_again_fails",
    "Verif.Ignore.Props.C118_auto_again"
   ],
   "note": "C118_flag, C118_kept, C118_cleaned: full. Refuted by the code: the words are not in the comment that is left (C118_removed_statement; C118_removed_partial: the text around does not make them up again), adapting again gives the same stub (C118_again_statement; C118_again_partial: no words and no `auto`; C118_auto_again: the note is repeated)."
  },
  {
   "property": "C119",
   "status": "partial",
   "theorems": [
    "Verif.Orig.Props.C119_original_none",
    "Verif.Orig.Props.C119_original",
    "Verif.Orig.Props.C119_original_comments",
    "Verif.Orig.Props.C119_frame_partial",
    "Verif.Orig.Props.C119_frame_fails",
    "Verif.Orig.Props.C119_gather",
    "Verif.Orig.Props.C119_template_function",
    "Verif.Orig.Props.C119_template_class",
    "Verif.Orig.Props.C119_texts",
    "Verif.Orig.Props.C119_texts_empty"
   ],
   "note": "Full but for the frame. Refuted by the code: the frame is made of comments whatever the message (C119_frame_statement): the second line of a message is outside of them; C119_frame_partial: messages of one line, which the names of functions and classes give."
  },
  {
   "property": "C120",
   "status": "partial",
   "theorems": [
    "Verif.Exclude.Props.C120_removed",
    "Verif.Exclude.Props.C120_rest",
    "Verif.Exclude.Props.C120_off",
    "Verif.Exclude.Props.C120_head_of_body",
    "Verif.Exclude.Props.C120_lonely_kept",
    "Verif.Exclude.Props.C120_lonely_partial",
    "Verif.Exclude.Props.C120_lonely_fails",
    "Verif.Exclude.Props.C120_requests_partial",
    "Verif.Exclude.Props.C120_requests_lost",
    "Verif.Exclude.Props.C120_requests_fails"
   ],
   "note": "C120_removed (but for what the head of a function with a body holds, C120_head_of_body), C120_rest, C120_off: full. Refuted by the code: the stub has no line for a comment (C120_lonely_statement; C120_lonely_partial: exactly the units without lonely comments), functions are called in the same way (C120_requests_statement; C120_requests_partial: functions whose comments ask for nothing; C120_requests_lost: all requests are lost)."
  },
  {
   "property": "C121",
   "status": "partial",
   "theorems": [
    "Verif.Attr.Props.C121_cast_partial",
    "Verif.Attr.Props.C121_cast_fails",
    "Verif.Attr.Props.C121_names",
    "Verif.Attr.Props.C121_stub",
    "Verif.Attr.Props.C121_one_line_fails",
    "Verif.Attr.Props.C121_define_partial",
    "Verif.Attr.Props.C121_define_fails",
    "Verif.Attr.Props.C121_define_names"
   ],
   "note": "C121_names, C121_stub: full. Refuted by the code: the value is converted to the type without the specifiers of its storage (C121_cast_statement; C121_cast_partial: types whose other words do not end with `static` or `constexpr`), a variable in the stub is one line (C121_one_line_statement: a value on several lines), a macro is an attribute with its value (C121_define_statement; C121_define_partial, C121_define_names: values without `{maybe_comma}` that do not end with a blank, `)` or `;`)."
  },
  {
   "property": "C122",
   "status": "partial",
   "theorems": [
    "Verif.Dispatch.Props.C122_code",
    "Verif.Dispatch.Props.C122_letters",
    "Verif.Dispatch.Props.C122_tested_fails",
    "Verif.Dispatch.Props.C122_reached_fails",
    "Verif.Dispatch.Props.C122_reached_partial"
   ],
   "note": "C122_code, C122_letters: full, for texts without `{` before a small letter or `_`, and types written as in the table of letters. Refuted by the code: the code tests at least one letter (C122_tested_statement: an empty list of types leaves an `else` without `if`), and with nanobind each letter is computed for some array (C122_reached_statement; C122_reached_partial: all the types but `long long`). Missing: whether the pointer variables that the calls use are declared before."
  },
  {
   "property": "C123",
   "status": "partial",
   "theorems": [
    "Verif.Sig.Props.C123_signature_partial",
    "Verif.Sig.Props.C123_signature_fails",
    "Verif.Sig.Props.C123_same",
    "Verif.Sig.Props.C123_name",
    "Verif.Sig.Props.C123_represented",
    "Verif.Sig.Props.C123_duplicate"
   ],
   "note": "C123_same, C123_name, C123_duplicate: full; C123_represented: full for functions as in C123_signature_partial. Refuted for arbitrary texts of parameters: the text gives back the name and the parameters (C123_signature_statement; C123_signature_partial: names without `(`, parameters whose commas are all inside brackets that are closed). Missing: default values with commas or brackets in strings."
  },
  {
   "property": "C124",
   "status": "partial",
   "theorems": [
    "Verif.View.Props.C124_lines",
    "Verif.View.Props.C124_tree_partial",
    "Verif.View.Props.C124_tree_fails"
   ],
   "note": "C124_lines: full. Refuted by the code: two units with the same overview have the same tree (C124_tree_statement: a name with a line end reads like a child; C124_tree_partial: classes, names and scopes without blanks and line ends). Missing: names with blanks."
  },
  {
   "property": "C125",
   "status": "partial",
   "theorems": [
    "Verif.Same.Props.C125_same",
    "Verif.Same.Props.C125_equivalence",
    "Verif.Same.Props.C125_shift_partial",
    "Verif.Same.Props.C125_shift_fails",
    "Verif.Same.Props.C125_margin_fails"
   ],
   "note": "C125_same, C125_equivalence: full. Refuted by the code: a code moved to the right is accepted (C125_shift_statement; C125_shift_partial: no line is less indented than the first) and accepted codes differ by a common margin (C125_margin_statement: lines that are less indented than the first keep their blanks)."
  },
  {
   "property": "C126",
   "status": "proved",
   "theorems": [
    "Verif.Iter.Props.C126_first",
    "Verif.Iter.Props.C126_iterable",
    "Verif.Iter.Props.C126_further",
    "Verif.Iter.Props.C126_class"
   ],
   "note": "Full. A regular expression is given by the names that it matches."
  },
  {
   "property": "C127",
   "status": "partial",
   "theorems": [
    "Verif.Same.Props.C127_same",
    "Verif.Same.Props.C127_characters",
    "Verif.Same.Props.C127_words",
    "Verif.Same.Props.C127_literal_partial",
    "Verif.Same.Props.C127_literal_fails"
   ],
   "note": "C127_same, C127_characters, C127_words: full. Refuted by the code: texts between quotes that are accepted are the same (C127_literal_statement: blanks between the quotes are ignored; C127_literal_partial: texts without double blanks, line ends, tabulators and separators)."
  }
 ]
}
