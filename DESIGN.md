# Formal model of litgen: design

Subject: `pthom/litgen` (C++ -> Python binding generator), source in `/repo/src`, read as text only.
Model, specifications and proofs: Lean 4.33.0, in `/verif/lean/Verif`.

## 1. Layout

One directory per part of the code:

* `Verif/<Part>/Model.lean`: the model. Each definition cites the file and lines of `/repo` it models and says where it simplifies.
* `Verif/<Part>/Spec.lean`: small specification written independently of the model (what the user relies on).
* `Verif/<Part>/Lemmas.lean`: helper lemmas.
* `Verif/<Part>/Props.lean`: the property theorems (named `Cnn_...`), each followed by an `example` showing that a concrete non-trivial case meets its hypotheses.

`MANIFEST.json` maps each property of `properties.jsonl` to its theorems. `seeded/LOG.jsonl` records the wrong programs the theorems were tested against.

## 2. Modelling conventions

* A Python `str` is a `List Char`. `str.split("\n")`, `"\n".join`, `str.replace`, `startswith`, `strip`, ... are modelled in `Verif/Py`.
* Exceptions are values (`Except`/`Option`); no default value hides an error branch.
* Loops are structural recursion or folds; a mutable object becomes a state that is passed and returned.
* `srcML` (the external C++ parser), the regular expressions supplied by the user, and the file system are parameters or plain data (for instance a file system is a function from paths to contents). Theorems quantify over them.

## 3. Trusted base

* Lean's kernel, and the axioms `propext`, `Classical.choice`, `Quot.sound` at most (each theorem's list is checked with `#print axioms`). No axiom of our own, no `sorry`, no `native_decide`, no `bv_decide`.
* The faithfulness of the model to the Python text: checked by reading only; the code is not executed.
* Python's own semantics of `str` methods as transcribed in `Verif/Py`, and of `re` as transcribed in `Verif/Re/Model.lean` (for the constructs listed there). The latter was compared with Python's own `re` module, without running the code of litgen: 120000 substitutions with the standard patterns on random texts, no difference.

## 4. Plan per property

| id | what is modelled | how it is proved |
|----|------------------|------------------|
| C01 | run-length encoding, rebuild of the lines | induction on the line list; the bound is false when blank lines differ in whitespace: witness + partial |
| C02 | dropwhile / reverse / dropwhile | list lemmas |
| C03 | margin computation and removal | induction on lines |
| C04 | indent_code with all its branches | split/join round trip |
| C05 | comment scanner as a state machine on characters | induction generalised over the scanner state |
| C06 | comment scanner, alignment | same, plus maximum over a list |
| C07 | the three regex substitutions as scanners | induction over the scanners |
| C08-C10 | the marker loop as a fold over lines with its state, file as a value, error as value | decomposition of well-formed files; witnesses for malformed ones |
| C11 | pair scan, escaping | simulation by a C-literal lexer |
| C12 | strip, replace, loop with proven termination | measure on length |
| C13 | sequential replace | tokenised templates as specification |
| C14 | apply with arbitrary functions | case analysis on passes |
| C15-C17 | recursive amalgamation over a finite file system | well-founded recursion on files not yet included |
| C18-C19 | stack machine over tags | induction over balanced sequences; recursive specification |
| C20 | comment grouping and attachment | conservation of the multiset/sequence of comments |
| C21-C24 | scope paths, token scanner | prefix lemmas; simulation |
| C25-C27 | enum filling, define resolution, literals | induction; termination by the set of seen names |
| C28 | lookup and virtual method collection | witnesses; partial theorem under hypotheses |
| C29 | type printing | case analysis on const count |
| C30 | tree of namespaces | refinement to a map from paths to code lists |
| C31-C32 | de-duplication, grouping | induction; permutation/sublist lemmas |
| C33-C38 | parameter lists, adapters | induction on parameter lists |
| C39-C43 | name and type conversions, tables | case analysis; full tables |
| C44-C50 | publishing decisions, boxed types, custom bindings, generator, operators, tree, glue code | decision logic, invariants over histories |
| C51 | formatting of comments | split/join round trip, line by line |
| C52 | binding and stub of enumerations, with their comments | scanner of C++ and Python text as specification; witnesses for name collisions |
| C53 | `re.subn` with word boundaries as a scanner; specialisation of types, functions, nested classes | unique cut of a text into words; mutual induction on the class tree |
| C54 | a semantics of the generated lambdas (statements, references, calls) over abstract values; the C++ function is an arbitrary function | one simulation lemma per adapter, then induction along the chain of lambdas |
| C55 | the new parameters of each adapter, as texts of C++ types | one relation per kind of parameter, induction on the parameter list |
| C56 | the whole of `cpp_types_parse.py`, as mutual structural recursion on the XML tree | mutual induction on the tree against an inductive relation; isolation of failures; a local condition on nodes under which nothing is raised |
| C57 | `parse_decl_stmt` with the shared list of type names | relation between a written statement and its XML; witness `const int a, b` |
| C58 | `parse_type`, with the loop that removes while it iterates | invariant of the loop over the position of the iterator |
| C59 | `parse_function_decl`, `parse_function`, constructors, templates, parameters | relation between a written signature and its XML, induction on the parameters and on the tail |
| C60 | names, arrays, initial values of a declaration | text lemmas; witnesses |
| C61 | `fix_brace_init_default_value.py` as functions on XML and on texts; srcML is an arbitrary function | text of the rewritten tree by induction on the arguments; witnesses |
| C62 | the pydef of a function as text, with its templates (`adapted_function.py`) | a line-by-line specification of templates whose values may hold any text in which no placeholder can begin; a structured statement (callable and annotations) as specification |
| C63 | the callable chosen for a function | the counting rule of pybind11 on the structured statement; witnesses for static methods and overloads |
| C64 | `py::arg` and parameters of the stub | one list of (name, default) seen from both sides |
| C65 | header, decorators and layout of the stub of a function | the one-line and the multi-line forms have the same text once joined |
| C66 | return policy, keep_alive and call_guard from the comments | occurrences of tokens in texts |
| C67 | `docstring_lines` | a lexer of Python triple-quoted strings as specification |
| C68 | data members: the statement of the binding and the line of the stub | a reader of `.def_…("name", &Class::member` and one of stub lines with remarks; both give the same attributes |
| C69 | which members are published | a separate condition for what can be bound; comparison with the named constructor of `Verif/Glue` |
| C70 | declaration of a class | template as pieces (`Verif/Template/Inert`), list of arguments up to permutation; bases by induction on the list |
| C71 | binding of a class is closed | bracket reader of `Verif/Fn/Meaning`; indentation preserves closed code (`Cls/Closed`), then part by part |
| C72 | layout of the stub of a class | indentation and alignment line by line (C04, C06); state after the stub is made |
| C73 | copies | separate rule for what C++ can copy; exact text of both lambdas |
| C74 | named constructor in the binding | exact text by the template lemmas, with the assignments as pieces |
| C75 | elements of a class in binding and stub | comparison without blanks; indentation and alignment keep the rest; sublists for the stub |
| C76 | binding of a unit: modules of the namespaces through the tree of code | closing order of the namespaces; the tree as a run of calls, by C30 and C49; rows of text |
| C77 | stub of a unit: proxy classes | same run of calls with the shortened blocks; rows of text |
| C78 | which children of a unit become elements | mutual induction on the tree of children; C32 for the order |
| C79 | the regular expressions of Python used by the standard replacements: reader of the patterns and of the replacement texts, backtracking matcher with greedy and lazy repetitions, groups, lookahead, lookbehind, `sub` | matching relation as specification; soundness and completeness of the backtracking by induction on the expression and on the match; `sub` by strong induction on the rest of the text |
| C80-C81 | the standard lists of replacements of values and comments, as they are written | texts as sequences of pieces (words, numbers, `::`, others); one lemma per kind of rule (renamed word, absent word, suffix of numbers, `::`) along the scan; the three passes collapse as the result is stable |
| C82 | the standard list of replacements of types, as it is written, under `_perform_cpp_type_replacements_recursively` | types without template as sequences of pieces: one lemma per kind of rule along the scan, then the rules that remove; a template: first match of its rule, all the other rules find nothing as the arguments are already in Python; induction on the relation `Translates` with the invariant that nothing is left to translate |
| C83 | `qualify_sibling_types`, the members of the scopes | texts cut into words; one lemma for the substitution of one member along the scan (word boundaries, dot, quotes), then induction over the sorted members and over the scopes; a word gets at most one prefix as no scope contains its own name |
| C84 | `_strip_callable_param_names` | relation `Unnamed` (a callable, then the rest); induction on it, one lemma for one list of parameters via `split` and `join` |
| C85 | the loops over namespaces and roots of `type_to_python` and `var_value_to_python`, the order in which `stub_lines` registers namespaces | texts cut into words; a replacement `N.` changes exactly the words `N` before a dot when `N` ends no other; composition of the replacements as one map, which does not depend on the order |
| C86 | `var_value_to_python`, `specialized_type_python_default_value` | the standard types change nothing in a text without words of types; then C80; macros one after the other as a map on the words |
| C87 | `type_to_python` | composition of C82, C84, C85, with lemmas for `static `, `constexpr `, `::` and white space |
| C88 | the patterns of `_looks_like_mutable_default_value` in the syntax of `Verif/Re`, the extraction of the constructed type, the access to enumerations | languages of expressions that look at nothing around (`Lang`), shown equal to the relation `Matches` by induction; a sequence up to the end of the text is cut into parts; each pattern then equals a small grammar of literals |
| C89 | `with_qualified_types`, `with_terse_types`, `with_specialized_template` of types, declarations, parameter lists and functions, with the caches as fields of the elements | invariant: each entry of a cache is the form asked for in the scopes of the calls so far; induction on the sequence of calls |
| C90 | `_make_adapted_lambda_code`, `_make_adapted_lambda_code_end`, `_apply_adapter`, the end of the lambda for outputs | templates as lists of pieces (`Template/Inert.lean`), induction on the adapters |
| C91 | `_apply_all_adapters_on_constructor`, `process_code_template` | templates as lists of pieces, comma at the end by cases |
| C92 | `str_block`, `str_commented`, `str_code` of namespaces, classes, enums, access zones | induction on the tree, with lines compared up to blanks at the end; indenting a block adds one level to each of its lines |
| C93 | `str_code` of `CppDecl`, `CppEnum`, `CppStruct`, `CppFunctionDecl`, `str_template` | unfolding, induction on lists, `C29_return_type` for types |
| C94 | `CppElementComments` | induction on lines |
| C95 | `does_match_regex`, the option of sizes | the joined expression is read by the modelled parser of `re`, and what it matches is derived from the relation `Matches` |
| C96 | `contains_pointer_type`, the options of types | the expression for a plain name is read (induction on the name); types by `C29_printed` |
| C97 | `join_string_by_pipe_char`, `_compile_regex` | induction on the parser: what is read of a text is read of a longer one, up to the numbers of groups |
| C98 | `_published_class_name`, `pimpl_my_code` | induction on the list of suffixes; refutations on concrete names |
| C99 | `_glue_code` and the two templates of definitions | filling of templates as lists of pieces (`Template.fill_textOf`), induction on the children |
| C100 | `_header_code`, `_published_method_decls` | the same filling, lemmas on significant lines through indentation and removal of empty lines (C01) |
| C101 | `CppStruct.get_*` | equality of each query with a filter of one listing, induction on the block |
| C102 | `CppStruct.add_method` | decomposition of the block at the zone that receives the method; the layout of C92 for the text |
| C103 | `AdaptedClass.__init__` with inner classes | mutual induction on classes and zones; induction on the path of inner classes; erasure of the private zones |
| C104 | `AdaptedEnumDecl.cpp_to_python_replacements`, `AdaptedFunction._register_function_name_replacement` | compilation of the expressions on a symbolic name with the parser of `Verif/Re`; scan lemmas; induction on the members and on the words of the text |
| C105 | `LitgenContext.apply_scoped_var_value_replacements`, `ReplacementsCache.store_replacements` | fold over the chain of scopes (C21); association list lemmas |
| C106 | `_typical_pybind_file`, `_typical_stub_file`, `_typical_glue_file` | cutting of the texts in pieces, then C65 and following (the generation on files with markers) |
| C107 | `code_to_srcml_wrapper` (marks), `srcml_to_code_wrapper` | induction on the characters: `splitlines` against the lines; C20 for the marks |
| C108 | `SrcmlWrapper.str_code_context_with_caret`, `CodeContextWithCaret.__str__`, `code_cache` | induction on the lines shown; association lists |
| C109 | `AdaptedClass._tpl_instantiate_template_for_type`, `_tpl_split_into_template_instantiations` (synonyms), `TemplateClassOptions.specialized_type_python_name_str` | C43 for the choice of the option; each step of `type_to_python` is the identity on identifiers |
| C110 | `CppBlock.all_functions_recursive`, `all_structs_recursive`, `all_decl_recursive` | direct recursion on the tree; mutual induction on nodes, lists and zones, for any list of parents |
| C111 | `CppScopeIdentifiers.fill_cache` | mutual induction with the scope of the parents as invariant, then C23 |
| C112 | `SrcmlWrapper._format_message`, `emit_warning`, `emit_warning_if_not_quiet` | lines of the text, its margin computed (8), then the lines one by one; `contains` as existence of a decomposition |
| C113 | `clean_tag_or_attrib`, `child_with_tag`, `_element_position`, `CodePosition.from_string` | decomposition of the attributes around the one that is read; `int` of the text of an integer |
| C114 | `srcml_to_str_readable` | mutual induction on elements and lists of elements, with the global variable as a state; the depths and tags in preorder determine the tree |
| C115 | `parse_decl`, `c_array_size_as_int`, `is_c_array_*`, `_int_from_str_or_named_number_macros` | what `int` accepts has no bracket; the macros are those of C26 |
| C116 | the questions of `CppFunctionDecl` | the words with their blanks and parentheses by the decompositions of `strip`; induction for the loop on the parameters |
| C117 | `pimpl_my_file` on an abstract file system | cases on the exits; the theorems of C08 and C09 for each of the two files; an extension is what follows the last point |
| C118 | the comment of the C++ function through the construction of the adapted function | the words have one `t`, so that occurrences do not overlap; induction on the text before them |
| C119 | original code, frames and texts on lists of lines | the theorems of C02 for the lines kept; the frame through the lemmas of C03; induction on the instantiations with the accumulator |
| C120 | a tree of elements with comments and the visit of their children | mutual induction on the tree; the definitions of C66 and C118 on a function without comments |
| C121 | the lines of the variables and of the macros, with the text of the types of C29 and the templates of C13 | induction on the words of a type for `replace`; step by step filling of the two templates |
| C122 | the text of the dispatch, raw texts of the templates as in the code, with the templates of C13 and the letters of C40 | each template is the source of a list of pieces (computed), filled at once by C13_fill_partial; induction on the list of types for the loop |
| C123 | the Python name and the joined parameters of a function | induction on two texts at the same depth of brackets: a closed text stops at the first comma outside of brackets |
| C124 | the text of the overview of a list of elements, each with its children | induction on the elements: the text is the list of the elements with their depths; such a list has one tree, as a sublist of children stops at the first element that is less deep |
| C125 | the two texts after unindent and strip are equal | the margin, the lines without it and the block that is kept are unique, so equal texts are equal lists of lines; moving all lines moves the margin |
| C126 | the answers after a list of calls | induction on the list of calls |
| C127 | the two texts after remove_redundant_spaces are equal | the exact form and the kept characters by C12; a text between quotes without double blanks and separators is not changed |

Details and disagreements between the properties and the code are recorded in section 5 as the model grows.

## 5. Findings

Each item is a place where the code does not do what the property says. Unless it is marked (note), it is a theorem: the property is
stated as `Cnn_..._statement`, refuted by `Cnn_..._fails` on a concrete input, and what does hold is proved as `Cnn_..._partial`.

* **C01** `code_set_max_consecutive_empty_lines`: the bound fails when blank lines differ in white space.
* **C04** `reindent_code` ignores `indent_size`; `indent_code_lines` ignores `rstrip`.
* **C05** the comment scanner is lost after the literal `"\\"` and after `'"'`.
* **C06** a second `#` inside a comment-only line is taken for an end-of-line comment.
* **C08** re-indentation of generated code is cumulative between several regions.
* **C10** a missing closing marker drops the rest of the file; a stray closing marker is duplicated.
* **C11** a comment with a single backslash leaves a dangling escape; `\o`, `\x` become invalid escapes.
* **C13** nested braces: the result depends on the order of the replacements.
* **C14** three passes of a replacement list may not reach a fixed point.
* **C17** a relative include that exists in the current directory is accepted wherever it is.
* **C20** commented-out comments are garbled; a doc comment stays standalone if the element has an end-of-line comment.
* **C21** `CppScope.from_string("")` has the prefix `::`.
* **C22** a word just before `"` or `//` is moved after it.
* **C23** the first registered accessible identifier wins, not the innermost one.
* **C24** `B::x` seen from `A::B` becomes `x`.
* **C25** `A = 010, B` gives 11 to `B`; hexadecimal values and expressions leave the following members without value.
* **C27** `-010` is published as is; suffixed (`10u`) and binary literals are not published.
* **C28** the scope `A` is visible from `AB`; `A::C` finds the global `C`; a class found as its own base makes an infinite recursion; the flag for inherited methods is ignored.
* **C29** the API prefix `MY_API` is also removed from `MY_APIResult`; `str_return_type` raises on two `const`.
* **C30** code stored with root namespaces only raises `IndexError`; an empty namespace name merges lines.
* **C31** functions that print several declarations lose all `@overload` when a sibling is a duplicate; a function with an empty stub hides a later one with the same signature; a docstring line `@overload` is removed. (note) grouping uses the C++ name.
* **C33** a string list named like a size gives four arguments for three parameters; a template pointer without size, or a buffer named like a size, uses undeclared variables.
* **C34** a string list with a null default becomes mandatory after an optional parameter.
* **C35** names `param_1` and `v_0` collide with the names of the user.
* **C37** several buffers that share one size: only the count of the last one is used.
* **C39** replacements applied after the escaping of keywords may give reserved words again.
* **C40** `const flconst oat` is accepted as `float`; the authorised type `byte` has no array code; the nanobind table lacks `np_uint_l`, `np_int_l`; `uint64_t` is not supported for pybind arrays.
* **C41** `Foo<(N < 3)>` raises `IndexError`; the removal of `const`, `&`, `*` is dead code; the text after the arguments is not translated recursively.
* **C42** `A`/`B` nested and `A_ClassB`, one class in two root namespaces, and template arguments `A::B`/`A_B` share binding variables; a specialised template function in a namespace is registered on an undeclared variable; elements nested in a specialised class use the variable without suffix.
* **C43** two options for one template exclude each other's types; the function names follow the first matching option, the types the last one; `std::vector<int>` gives an invalid identifier; `A::B` and `A_B` give the same name.
* **C44** constructors need no API prefix; an overload without parameters cannot be excluded by signature; protected methods ignore the exclusion by name and class; a protected unsupported operator drops the whole class when protected methods are exposed.
* **C45** `std::size_t` gives the invalid identifier `BoxedStd::size_t`; `string` and `std::string` both give `BoxedString`.
* **C46** a second generator with the same options emits no code for the main module; code added after the first emission is lost; a reopened namespace emits its custom code once per block; custom code of a root namespace is never emitted.
* **C47** an exception is swallowed when the separate glue file lacks markers; the closing mark is glued to the last line when the stub has no final newline; the bindings are already written when the stub file is missing.
* **C48** bit operators are refused though Python has them; names that start with `operator` are dropped; the spaceship gives five comparisons, without `!=`.
* **C49** the scope of a member of a C enum, with itself included, contains the enum; the cached scope is stale after reparenting.
* **C50** overloaded protected methods give repeated `using`; the text of named constructors nests namespaces in the reverse order; a nested class with exposed protected or virtual methods raises.
* **C52** an enumeration which is not matched by `enum_make_arithmetic__regex` raises `UnboundLocalError`; the COUNT member of an enumeration whose name contains an underscore is never skipped; members of an enum class named like a size are dropped; names may collide (`Foo_A`/`A`, `Foo_1`/`Foo__1`, `Foo_None`/`Foo_None_`, `Ab`/`ab`).
* **C53** template parameters are replaced one after the other (capture); a template that does not mention its parameter in a type stops the generator; bases and default values are not specialised.
* **C54** an array of pointers `int * a[2]` that is not constant: whether the items are boxed is decided from `int *`, but the generated code reads `.value` of each item, which is decided from `int`; the code does not compile. `const char * const label = NULL`: the generated variable is constant and is assigned afterwards; the code does not compile. Outside the theorem, seen while modelling: a stride after a pointer that is not recognised as a buffer reads the item size of something that is not an array; a parameter that is both a stride and a size is treated as a stride in the parameter list and as a size in the call. The adapter for `const char * = NULL` is selected by the option of another adapter (`fn_params_output_modifiable_immutable_to_return__regex`).
* **C56** a macro in an access section of a class which is not a constructor leaves no element; nor does an `extern` with another text than "C" or with several blocks; the comment at the end of the line of a typedef is lost with it (the branch of `shall_ignore_comment` that should keep it is only reached by a second comment on the line); `fill_block` only catches `SrcmlcppExceptionDetailed`, so that a function without a name ends the program with an `AssertionError`.
* **C57** the second and next declarators lose the specifiers of the statement: in `const int a, b;` the type of `b` is `int`; API names too.
* **C58** the loop on the API names removes items from the list it goes through: of two API names that follow each other the second stays a type name; a type whose only name starts with an API prefix (`MY_APIResult`) is left without a name.
* **C59** a constructor with a body which is `noexcept`, and a template constructor, are not parsed; `auto f() -> const Foo &` loses `const` and `&`; API names as in C58.
* **C60** API names as in C58.
* **C61** the documentation of a recovered function is lost; `void f(P p = {⏎});` raises an `AssertionError`; in the class `Foo`, the macro `FooInit(int a)` becomes a constructor.
* **C62** a docstring that contains the name of a placeholder of the templates is altered: `{maybe_comma}` disappears, with `{maybe_keep_alive}` the whole docstring disappears.
* **C63** a static method bound by a lambda gets a `self` parameter under `.def_static` (pybind11 refuses it); an overloaded static method without parameters needs an argument in Python; const and non-const overloads without parameters are bound by the same lambda; the short lambda of an overloaded `Foo & get()` returns a copy; a vectorized method is bound as `&py::vectorize(Foo::f)` (the address of a temporary) and a vectorized overload as `py::overload_cast<..>(py::vectorize(f))`, neither of which compiles.
* **C64** `Foo * p = {}` becomes `Foo{}`; `unsigned char c = {3}` becomes `unsigned{3}`; a smart pointer that is null by default is shown as `= None` without `Optional`.
* **C65** the adapter that returns modified parameters loses `static` (the stub is not static, the binding is) and writes `std::tuple<static bool, int>`. (note) the limit of the length of lines counts the location comment only in the one-line form.
* **C66** the punctuation after a policy in a comment goes into the C++ code; prose after `py::keep_alive` is copied up to the next `()`; only the first keep_alive is kept.
* **C67** three quotes in a comment, or a backslash at its end, break the docstring.
* **C68** the binding of an array of numbers is a property without setter, the stub does not mark it as read-only; a comment `(const)` of the C++ code reads as the remark of the stub; `std::shared_ptr<Bar> p = nullptr` is not `Optional`, and `Bar* p{nullptr}` gets the default value `Bar(None)`.
* **C69** members that are references are published (`&Foo::x` does not compile), and arrays without size are bound as scalars.
* **C70** a protected base, and the private base of a `class` without specifier, are bases in the binding (no conversion compiles); the stub lists private
  bases too; a private destructor together with a shared pointer gives two holders; `virtual` before a base is an AssertionError.
* **C72** a class with only comments or empty lines in its public part, no docstring and a private constructor gets a stub without statement;
  `stub_lines` changes the comment of the class: `(final class)` and the remark on copies are repeated by a second call and are in the binding.
* **C73** `Foo(Foo&&)` alone, `Foo(Foo&) = delete`, `Foo(const N::Foo&) = delete`, `Foo(const Foo&, int = 0) = delete`: copies that do not compile.
* **C74** with pybind11 a struct whose first member is called `self` stops the generator (failed assertion).
* **C76** a namespace written both inside and outside a root namespace creates its module twice: the C++ variable is declared twice.
* **C76** what stands in no namespace is bound before all namespaces: `namespace A { struct Base {}; } struct Derived : A::Base {};` binds `Derived` before its base, which pybind11 refuses when the module is imported.
* **C76** `namespace A::B` gives the variable `pyNsA::B`, which is no C++ name; if `A::B` is reached with both names as roots the generator stops with an IndexError.
* **C76** the custom code of a namespace is there once for each time the namespace is opened.
* **C77** the comment of a namespace stands after `pass` in the proxy class, so it is not its docstring; only the comment of the first occurrence is kept.
* **C78** an exception for one variable of a statement loses the variables after it; anonymous namespaces vanish with all they contain.
* **C80** an identifier that ends with `_`, digits and `f` or `d` loses its last letter (`kernel_2d` becomes `kernel_2`); the texts of string literals are translated (`"is true"` becomes `"is True"`); the suffixes `u`, `L`, `LL` stay; `\bstd.nullopt\b` has an unescaped `.`, so the name `std_nullopt` becomes `None`.
* **C81** names such as `kernel_2d` are also truncated in comments.
* **C82** `std::array<std::pair<int, float>, 3>` becomes `List[Tuple[int]` (unbalanced); `std::size_t`, `std::uint8_t`, ... become `std::int`; `std::function<std::string()>` becomes `std::function[""]`; the blank after a template is lost (`std::function<void(int a, std::vector<double> b)>` becomes `Callable[[int a, List[float]b], None]`); `std::optional<const Foo *>` becomes `Optional[ Foo ]`; `unsigned char`, `unsigned` and `char` stay; `std::set<int>` and `std::unordered_map<int, int>` keep their C++ names with square brackets.
* **C83** a member with the Python name of its scope gives `io.io.Data`; in nested scopes a member gets only the name of its own scope (`Style.Side` instead of `Window.Style.Side`); when two enclosing scopes have a member of the same name the outermost one wins, where C++ takes the innermost; the default value `"Mode"` becomes `"Window.Mode"`; scopes with the same unqualified name share their members.
* **C84** `Callable[[List[int] values], None]` keeps the name `values`; the unnamed parameter `unsigned char` becomes `unsigned`.
* **C85** with the root namespace `Gui` the name `ImGui.Style` becomes `ImStyle`; with the namespaces `Gui` and `ImGui` the result depends on the order of a Python set; in the first block of a namespace its name is not translated, in the later blocks it is.
* **C86** `4 * 1024` becomes `4  1024` (the replacements of types are applied to values); the macro `N` of value 3 changes `MAX_N` to `MAX_3`; `Vec<float>(FLT_MAX)` becomes `Vec_float(FLT_MAX)`, its arguments are not translated.
* **C87** `Electrostatic &` becomes `Electro`, as `static ` is removed as a substring.
* **C53, not part of a theorem** an unnamed or non-type template parameter gives an empty name, hence the pattern `\\b\\b`; `with_terse_types` is cached under the shortened scope; enumerations and typedefs nested in a template class are not specialised.
* **C88** `1'000` (digits in groups) counts as mutable; `"a" + names() + "b"` begins and ends with a quote and counts as a string literal; the text of the type is compared as a whole, so `const int n = kCount` counts as mutable where `int n = kCount` does not; leading colons are removed, so `::Color` in `Ui` reaches `Ui::Color`; an enumeration that is hidden by a class of an inner scope still counts.
* **C89** the method of a class template is qualified when the template is adapted, and the instance has a copy of the cache: in a namespace `N` with `Mode`, `void push(T value, Mode mode)` of `Stack<int>` is bound as `void push(T value, N::Mode mode)`; an instance of a function template mixes qualified and unqualified names (`N::Foo make(Foo value, N::Mode mode)` for `T = Foo`); the cache of a parameter ignores the scope; a terse form is stored under the shortened scope and looked up under the full one, so it is found only for the wrong scope (class `S` in namespace `S`).
* **C90** `auto&` is chosen from the function as it was declared: when `int & g(bool & b, ...)` has its output returned, the next lambda has `auto& lambda_result = g_to_return(...)`, where the result is a temporary tuple. A placeholder (`{lambda_name}`, `{_i_}`, `{lambda_template_end}`) in a default value or in inserted code is replaced.
* **C91** with nanobind, the wrapper of a constructor without parameters (adapted because of `fn_force_lambda__regex`) is `[](Foo* self, ) ->  void`, which does not compile; the comma is dropped from the declaration only.
* **C92** the comment at the end of the line of a class (`struct S {}; // about S`) is printed on the line after `};`, above the next element; `#ifdef X` or a comment in an enum is followed by a comma; the comment of an access zone is printed without `//`, on the line of `public:`.
* **C93** `unsigned int flag : 3` is printed `unsigned int flag`; `enum class E : uint8_t` is printed `enum class E`; `struct MY_API A final` is printed `struct A`; `virtual int f() const noexcept = 0;` is printed `int f() const;`; `template<int N = 3>` is printed `template<int N>`; the template of a conversion operator is dropped; the declaration of a constructor is printed without a semicolon.
* **C94** `add_comment_on_previous_lines` after `from_comments` leaves an empty comment line between; a comment at the end of the line with a line break is printed as code from its second line.
* **C95** `{word}[0-9]$` has no anchor on the left: a parameter `column3` or `position1` after a pointer is taken for the size of the buffer, and disappears from the Python signature. `bufferSize` and `item_count_max` are not recognised.
* **C96** a pointer to a pointer (`float **`) is taken for a buffer of `float`, because only the left of the type is bounded, and the text after the star is not looked at; so are `geometry::T *` and `std::vector<float *>`.
* **C97** an option that ends with `|` (for example `options.fn_exclude_by_name__regex = "^Priv|"`) matches every name, while one that begins with `|` is repaired.
* **C98** `Pimpl` and `_Pimpl` are in the list of suffixes after `impl`, with which they end: `class PersonPimpl` is published as `PersonP`. And `pimpl_my_code`, which is documented to use the first PImpl class of the code, raises an exception when another class comes before it.
* **C99** in the glue code the default values of the parameters are repeated (`void Person::wait(int ms = 10) {`), which C++ refuses after the declaration in the header; `virtual` is kept in the definition, which is refused too, and because of it the result of a `void` method is returned; a function `= delete` gets a definition.
* **C100** with `line_feed_before_block = False`, a comment at the end of the line of the class hides the brace: `class Person // a person {`.
* **C102** `get_methods` gives the methods zone by zone: a method that is added to a class is not the last one when another zone follows the last zone of its access.
* **C103** an unsupported operator in a protected zone of an inner class, with the protected methods exposed, removes the whole inner class with its public functions, while the same operator in a public zone removes only itself.
* **C104** when the prefix of the members of an enumeration is kept, a member in a value is qualified several times (`Foo_a` becomes `Foo.Foo.Foo.Foo_a`), and in `enum Foo { a, b = a }` the value of `b` is `Foo.Foo.Foo.a`; the rule of scoped enumerations has an unescaped point and no `\b` at its left, so `Mode_Start` becomes `Mode.start` and `OtherMode.Start` becomes `OtherMode.start`.
* **C105** the values of the members of an enumeration are translated without their scope: in a namespace, a value that refers to another enumeration of the namespace is not translated.
* **C106** the file proposed for the glue code ends with a `}` that closes nothing; the last banner of the proposed stub is before the closing marker and disappears at the first generation; when the markers of the glue code are missing, the help for the stub is logged (litgen_generator.py:119-123).
* **C107** the verbatim code is not the code: the blanks of blank lines are lost, `\r\n`, form feeds and other separators become line feeds, a line with only `// _SRCML_EMPTY_LINE_` is emptied.
* **C108** one more line than `max_lines` is shown; the cache of codes has one entry for all the codes without file name, so that the message of an element of a code given as text can show another code (those litgen parses itself, for example).
* **C109** the synonym `MyDouble=double` of the documentation gives the line `MyData_MyDouble = MyData_float` in the stub, but the class is `MyData_double`; the same for all the targets that the replacements of types change (`std::string`, `unsigned int`). A template class renamed by a replacement of types keeps its old name in the signatures. With two options for a class, the last one gives the classes and all of them give names to the signatures.
* **C110** `CppFunction.visit_cpp_breadth_first` and `CppConstructor.visit_cpp_breadth_first` visit only the body: the parameters, the return type and the template of a function that has a body are not found by `all_decl_recursive`, though its documentation says that it includes the parameters.
* **C111** for `namespace N { enum E { A }; void f(E e = E::A); }` only `N::A` is known: the default value stays `E::A` in the bindings, where it does not compile. It is qualified for an enumeration class.
* **C112** the text of an exception begins with `Warning: `; when it is reported as a warning it is printed as `Warning: (LitgenBlockElementException) Warning: (LitgenBlockElementException) ...`. The type `(LitgenIgnoreElement)`, which is written in what is printed, cannot be used in `ignored_warning_parts`. A message that has the words "while parsing" gives no place.
* **C113** the tags of srcML for the statement `if` and for the directive `#if` (`else` also) are the same once the XML namespace is removed: `clean_tag_or_attrib` does not distinguish them.
* **C114** `srcml_to_str_readable` does not give the same text twice: the place of the first element is left out when it is the last one that was shown by the previous call (`_PREVIOUS_INFO_POSITION` is a global variable which is never reset).
* **C115** `int a[010]` has 8 items for C++ and is bound with 10 (`int("010")` is 10); `int a[0x10]` and `int a[4u]` are skipped although `#define N 0x10u` with `int a[N]` is accepted; `int a[ N ]` is skipped because of its blanks.
* **C116** `is_default_constructor` does not see `A(void)` and `A(...)`; `is_noexcept` does not see `noexcept(!false)` or `noexcept((true))`; `is_virtual_method` does not see `void f() final;`, nor virtual destructors.
* **C117** when the header has no marker, `pimpl_my_file` raises after it has already rewritten the C++ file.
* **C118** the construction of an adapted function changes the comment of the C++ function: a second adaptation loses `# type: ignore` and repeats the note about `auto`.
* **C119** an instantiation with no stub line leaves twice the empty lines between its neighbours, and none when it comes first.
* **C120** `comments_exclude` leaves the lonely comments in the stub, and drops the policies (`return_value_policy::`, `keep_alive`, `call_guard`) and the `type: ignore` that are asked for in comments.
* **C121** `static ` and `constexpr ` are removed anywhere in the text of a type: a pointer to a type `is_static` is converted to `is_*`. A value written on several lines leaves its other lines as code in the stub. A macro whose text holds `{maybe_comma}` is changed.
* **C122** With an empty `fn_params_buffer_types` the code is an `else` without `if`, which does not compile. With nanobind the letter of `long long` is never computed: its branch is dead, and arrays of 64 bit integers are refused when `np_int_l` is not in the options.
* **C123** The type that is returned is not in the text: overloads that differ only by it (methods with and without `const`) are one function in the stub.
* **C124** The name of an element is written as it is in the source: with a line end in it, the rest of the name reads like another element.
* **C125** A line that is less indented than the first keeps all its blanks: the comparison of the tests accepts codes in which only the first line is moved, and refuses a code that is moved as a whole.
* **C127** Blanks in string literals are ignored like all others: a test that uses this comparison accepts a generated literal with other blanks.

Notes (read in the code, not stated as theorems): an absolute path with all its parts gives `//a` in the marks; override macros are
given return types with commas; the default values of enumerations are replaced by a regular expression with an unescaped `.`;
`adapt_const_char` is gated by the wrong option; `>1` stride raises; functions returning `T&` with modifiable parameters generate
`auto& lambda_result = <temporary>`; `CppDecl.with_qualified_types` caches regardless of the scope; `#include "a.h" // foo` is not
recognised by the amalgamation.

## 6. Modelled and not modelled

Lines cited by the definitions of the model (paths under `/repo/src`):

| part | file | lines |
|---|---|---|
| Adapt | srcmlcpp/cpp_types/functions/cpp_parameter.py | 169-183, 219-262 |
| Adapt | srcmlcpp/cpp_types/decls_types/cpp_type.py | 102-127, 129-131, 145-146 |
| Adapt | litgen/internal/adapt_function_params/_lambda_adapter.py | 7-21 |
| Adapt | litgen/internal/adapted_types/adapted_function.py | 45-56, 58-67, 70-82, 222-227, 239-283, 397-407 |
| Adapt | litgen/internal/adapt_function_params/_adapt_c_buffers.py | 46-47, 50-52, 93-105, 107-116, 118-134, 136-145, 161-171, 173-177, 190-215, 366-403, 468-489, 491-496, 508-513, 527-530, 532-561, 580-625, 633-641, 643-658, 660-665, 668-736 |
| Adapt | litgen/internal/adapt_function_params/_adapt_exclude_params.py | 13-69 |
| Adapt | litgen/internal/adapt_function_params/_adapt_mutable_param_with_default_value.py | 115-248 |
| Adapt | srcmlcpp/cpp_types/decls_types/cpp_decl.py | 133-154, 180-196 |
| Adapt | litgen/internal/adapt_function_params/_adapt_c_arrays.py | 13-161 |
| Adapt | litgen/internal/adapted_types/adapted_decl.py | 57-84, 86-120 |
| Adapt | litgen/internal/adapt_function_params/adapt_const_char_pointer_with_default_null.py | 10-78 |
| Adapt | litgen/internal/adapt_function_params/adapt_modifiable_immutable_to_return.py | 15-279 |
| Adapt | litgen/internal/adapt_function_params/adapt_modifiable_immutable.py | 14-146 |
| Adapt | litgen/internal/adapt_function_params/_adapt_c_string_list.py | 15-139, 142-239 |
| Adapt | litgen/internal/adapt_function_params/_adapt_variadic_format.py | 11-12, 15-53 |
| Adapt | litgen/internal/adapt_function_params/_adapt_force_lambda.py | 10-29 |
| Adapt | litgen/internal/adapt_function_params/apply_all_adapters.py | 14-75, 226-318 |
| Amalg | codemanip/amalgamated_header.py | 8-34, 37, 40-50, 53-55, 80-96, 99-112, 115-122, 125-136, 139-145, 148-156, 159-241, 256-260 |
| Arr | litgen/internal/cpp_to_python.py | 410-515 |
| Arr | litgen/options.py | 288-303, 685-710, 690-704 |
| Attach | srcmlcpp/srcml_wrapper.py | 152-160 |
| Attach | srcmlcpp/internal/srcml_comments.py | 21, 22, 23, 115-119, 122-201, 204-223, 226-307, 310-322, 341-398 |
| Base | srcmlcpp/cpp_types/blocks/cpp_block.py | 101-138 |
| Base | srcmlcpp/cpp_types/classes/cpp_struct.py | 122-136, 313-334 |
| Boxed | litgen/internal/cpp_to_python.py | 335-344, 353-374, 376-380, 386-390, 393-399, 886-898 |
| Boxed | litgen/internal/boxed_python_type.py | 8-10, 13-18, 21-23, 26-47 |
| Boxed | litgen/litgen_generator.py | 179-185 |
| Comment | codemanip/code_utils.py | 111-122, 125-157, 160-161, 164-168, 176-199, 202-216, 219-230, 233-242 |
| Custom | litgen/internal/custom_bindings.py | 72-74, 174-180, 182-183, 185-195, 197-204, 206-223, 225-231, 233-239, 241-261 |
| Custom | srcmlcpp/cpp_types/scope/cpp_scope.py | 63-66, 88-89 |
| Custom | litgen/internal/adapted_types/adapted_namespace.py | 55-57, 97-103, 149-155 |
| Custom | litgen/internal/adapted_types/adapted_class.py | 619-623, 867-871 |
| Custom | litgen/internal/adapted_types/adapted_unit.py | 29-63 |
| Custom | litgen/litgen_generator.py | 187-196 |
| Elem | srcmlcpp/cpp_types/scope/cpp_scope.py | 8-12, 15-18 |
| Elem | srcmlcpp/cpp_types/template/cpp_i_template_host.py | 18 |
| Elem | srcmlcpp/cpp_types/base/cpp_element.py | 67-76, 78-85, 97-109, 111-119, 136-174, 176-190, 208-232, 238-241 |
| Elem | srcmlcpp/cpp_types/blocks/cpp_block.py | 170-178 |
| Elem | srcmlcpp/cpp_types/cpp_enum.py | 124-129 |
| Elem | srcmlcpp/cpp_types/cpp_namespace.py | 49-54 |
| Elem | srcmlcpp/cpp_types/classes/cpp_struct.py | 372-381 |
| Elem | srcmlcpp/cpp_types/decls_types/cpp_decl.py | 397-408 |
| Elem | litgen/internal/cpp_to_python.py | 662-736 |
| Elem | litgen/internal/adapted_types/adapted_function.py | 595 |
| Elem | litgen/internal/adapted_types/adapted_decl.py | 188 |
| Elem | litgen/internal/adapted_types/adapted_define.py | 109 |
| Elem | litgen/internal/adapted_types/adapted_class.py | 726 |
| Elem | litgen/internal/adapted_types/adapted_enum.py | 259 |
| Elem | litgen/internal/adapted_types/adapted_namespace.py | 123 |
| Enums | litgen/internal/adapted_types/adapted_element.py | 122-124 |
| Enums | codemanip/code_utils.py | 698-707 |
| Enums | litgen/internal/cpp_to_python.py | 640-654 |
| Enums | litgen/internal/adapted_types/adapted_enum.py | 33-43, 138-141, 156-160, 190-202, 216-224, 241-290 |
| Enums | srcmlcpp/cpp_types/base/cpp_element.py | 121-160 |
| Escape | codemanip/code_utils.py | 272-273, 381-389, 392-409, 412-421, 424-433, 436-446 |
| Gen | codemanip/code_utils.py | 547-555, 900-908 |
| Gen | litgen/internal/cpp_to_python.py | 901-918 |
| Gen | litgen/litgen_generator.py | 70-74, 77-84, 87-89, 91-123, 128-137, 139-145, 147-161, 163-177, 187-196, 198-223, 226-240, 290-294 |
| Glue | srcmlcpp/cpp_types/scope/cpp_scope.py | 8-12, 15-18 |
| Glue | litgen/internal/adapted_types/adapted_class.py | 1040-1118, 1120-1136, 1145-1192, 1251-1303, 1306-1333 |
| Glue | litgen/internal/adapted_types/adapted_function.py | 1440-1502 |
| Indent | codemanip/code_utils.py | 283-303, 306-315, 318-328, 331-365, 368-378, 558-565, 568-574, 577-581 |
| Inst | srcmlcpp/cpp_types/template/cpp_template_specialization.py | 8-38 |
| Inst | srcmlcpp/cpp_types/decls_types/cpp_type.py | 197-223 |
| Inst | srcmlcpp/cpp_types/decls_types/cpp_decl.py | 378-388 |
| Inst | srcmlcpp/cpp_types/decls_types/cpp_decl_statement.py | 58-78 |
| Inst | srcmlcpp/cpp_types/template/cpp_i_template_host.py | 12-32, 36-47, 49-55, 57-67 |
| Inst | srcmlcpp/cpp_types/functions/cpp_function_decl.py | 131-161 |
| Inst | srcmlcpp/cpp_types/classes/cpp_struct.py | 343-370 |
| Inst | litgen/internal/adapted_types/adapted_function.py | 1394-1401 |
| Inst | litgen/internal/adapted_types/adapted_class.py | 969-974 |
| Keyword | litgen/internal/cpp_to_python.py | 198-246 |
| Keyword | litgen/internal/adapted_types/adapted_enum.py | 45-92 |
| Lines | codemanip/code_utils.py | 37-50, 67-73, 76-89, 92-95, 98-108 |
| Markers | codemanip/code_utils.py | 449-456, 459-521 |
| Name | codemanip/code_utils.py | 245-258, 261-263 |
| Num | srcmlcpp/cpp_types/cpp_enum.py | 80-122 |
| Num | srcmlcpp/cpp_types/blocks/cpp_unit.py | 13-24, 69-76, 81-88, 90-95, 97-113 |
| Num | litgen/internal/adapted_types/adapted_define.py | 15-21, 24-57, 65-75, 81-88 |
| Overload | litgen/internal/adapted_types/adapted_block.py | 41-82 |
| Prep | srcmlcpp/internal/filter_preprocessor_regions.py | 47-78, 95-106, 109-131, 152-161, 166-197, 199-202, 204-214, 216-234, 237-250 |
| Publish | srcmlcpp/cpp_types/functions/cpp_function_decl.py | 34-67, 399-403, 440-441, 443-446 |
| Publish | codemanip/code_utils.py | 803-806 |
| Publish | srcmlcpp/srcmlcpp_options.py | 113-115 |
| Publish | litgen/internal/adapted_types/adapted_function.py | 283-299, 301-371 |
| Publish | litgen/internal/adapted_types/operators.py | 17-26, 29-50, 56-61, 68-91, 94-113, 116-122, 125-151 |
| Publish | litgen/internal/adapted_types/adapted_block.py | 115-166 |
| Publish | litgen/internal/adapted_types/adapted_class.py | 418-427, 465-466, 1194-1201 |
| Re | litgen/internal/cpp_to_python.py | 739-883 |
| Re | codemanip/code_replacements.py | 10-12, 14-16 |
| Repl | codemanip/code_replacements.py | 6-12, 14-16, 23-35, 45-53, 55-65, 67-75, 77-82, 84-89, 91-92 |
| Scope | srcmlcpp/cpp_types/scope/cpp_scope.py | 15-30, 33-41, 43, 45, 47-54, 57-61, 63-66, 68-74, 76-77, 79-80 |
| Scope | srcmlcpp/cpp_types/scope/cpp_scope_process.py | 5-30, 33-89, 92-121, 124-169 |
| Scope | srcmlcpp/cpp_types/scope/cpp_scope_identifiers.py | 41-66 |
| Space | codemanip/code_utils.py | 524-533, 536-544, 547-555 |
| TArgs | litgen/internal/cpp_to_python.py | 49-120 |
| Template | codemanip/code_utils.py | 818-823, 826-846, 849-864, 867-879 |
| Tpl | litgen/internal/template_options.py | 18-31, 34-37, 40-49, 52-57, 63-69, 71-77, 79-89, 91-101, 103-123, 125-135, 163-169, 171-177, 179-185, 225-235, 320-326 |
| Tpl | srcmlcpp/cpp_types/decls_types/cpp_type.py | 151-154, 161-166, 168-195 |
| Tpl | litgen/internal/adapted_types/adapted_function.py | 1403-1431 |
| Tpl | litgen/internal/adapted_types/adapted_class.py | 990-1015 |
| Type | srcmlcpp/cpp_types/decls_types/cpp_type.py | 37-52, 70-100, 102-127 |
| Type | codemanip/code_utils.py | 663-666 |
| Parse | srcmlcpp/srcml_wrapper.py | 19-29, 88-91, 103-141, 190-193, 195-200 |
| Parse | srcmlcpp/cpp_types/base/cpp_element_comments.py | 41-47, 100-103 |
| Parse | srcmlcpp/cpp_types/decls_types/cpp_decl.py | 40-80 |
| Parse | srcmlcpp/cpp_types/functions/cpp_parameter.py | 169-183 |
| Parse | srcmlcpp/cpp_types/functions/cpp_function_decl.py | 29-65 |
| Parse | srcmlcpp/internal/cpp_types_parse.py | 68-140, 145-183, 186-197, 200-208, 223-275, 278-294, 297-342, 345-381, 384-415, 418-435, 438-452, 455-525, 528-538, 541-570, 576-607, 610-620, 623-648, 651-670, 673-688, 691-706, 724-747, 752-765, 780-786, 789-808, 833-845, 848-941, 944-949, 966-987, 999-1008, 1026-1041 |
| Parse | srcmlcpp/cpp_types/decls_types/cpp_type.py | 67-68 |
| Parse | srcmlcpp/internal/fix_brace_init_default_value.py | 31-43, 46-66, 69-138, 141-145, 148-162, 165-191 |
| Parse | codemanip/code_utils.py | 436-446 |
| Fn | srcmlcpp/cpp_types/functions/cpp_function_decl.py | 300-307, 309-310, 312-317, 332-338, 392-397, 443-446, 463-466 |
| Fn | srcmlcpp/cpp_types/decls_types/cpp_decl.py | 108-115, 356-376 |
| Fn | srcmlcpp/cpp_types/functions/cpp_parameter_list.py | 71-74, 76-85 |
| Fn | litgen/internal/adapted_types/adapted_function.py | 416-425, 437-480, 482-507, 509-580, 582-609, 611-684, 686-768, 770-829, 831-833, 835-887, 889-916, 918-960, 962-971, 973-980, 982-990, 992-999, 1001-1005, 1017-1146, 1195-1236, 1238-1255, 1257-1329 |
| Fn | litgen/internal/adapted_types/adapted_decl.py | 122-155 |
| Fn | srcmlcpp/cpp_types/decls_types/cpp_type.py | 156-159 |
| Fn | srcmlcpp/cpp_types/base/cpp_element_comments.py | 111-115, 117-121 |
| Fn | litgen/internal/cpp_to_python.py | 21-39, 42-46, 537-553, 564-590 |
| Fn | codemanip/code_utils.py | 882-889, 892-897 |
| Fn | litgen/internal/adapted_types/adapted_element.py | 162-191 |
| Cls | srcmlcpp/cpp_types/decls_types/cpp_decl.py | 168-178, 228-238 |
| Cls | litgen/internal/adapted_types/adapted_class.py | 72-88, 90-128, 130-154, 161-165, 167-171, 173-185, 187-223, 225-235, 237-254, 261-303, 306-310, 400-416, 499-626, 639-874, 883-897, 905-919, 921-954, 1223-1239, 1241-1246, 1395-1495, 1497-1520 |
| Cls | srcmlcpp/cpp_types/base/cpp_element_comments.py | 111-115 |
| Cls | litgen/internal/cpp_to_python.py | 42-46, 537-553, 593-600, 603-609, 612-637 |
| Cls | litgen/internal/adapted_types/adapted_decl.py | 38-45 |
| Cls | srcmlcpp/cpp_types/decls_types/cpp_type.py | 133-134, 139-140 |
| Cls | srcmlcpp/cpp_types/base/cpp_access_type.py | 7-10, 12-21 |
| Cls | srcmlcpp/cpp_types/classes/cpp_struct.py | 104-112, 138-148, 156-160, 162-166, 168-183, 185-193 |
| Cls | srcmlcpp/cpp_types/functions/cpp_function_decl.py | 411-421, 423-438 |
| Cls | litgen/internal/adapted_types/adapted_element.py | 107-112, 162-191 |
| Cls | litgen/internal/adapted_types/line_spacer.py | 53-97 |
| Cls | litgen/internal/adapted_types/stub_overload_dedup.py | 10-62 |
| Unit | litgen/internal/adapted_types/adapted_comment.py | 22-30, 43-58 |
| Unit | litgen/internal/adapted_types/adapted_condition_macro.py | 21-38 |
| Unit | litgen/internal/adapted_types/line_spacer.py | 23-50 |
| Unit | litgen/internal/context/litgen_context.py | 77-79 |
| Unit | litgen/internal/context/namespaces_code_tree.py | 89-98, 100-102, 104-105 |
| Unit | litgen/internal/adapted_types/adapted_namespace.py | 57-59, 65-67, 69-84, 87-112, 114-139, 142-143, 147-166 |
| Unit | litgen/internal/cpp_to_python.py | 42-46 |
| Unit | litgen/internal/adapted_types/adapted_block.py | 102-106, 115-166, 168-169, 171-187, 190-206 |
| Unit | litgen/internal/adapted_types/adapted_unit.py | 29-44, 46-61 |
| Unit | litgen/internal/adapted_types/adapted_element.py | 100-105, 107-112 |
| Unit | litgen/litgen_generator.py | 194 |
| ToPy | litgen/internal/cpp_to_python.py | 123-195, 249-285, 288-324 |
| ToPy | litgen/internal/template_options.py | 280-306 |
| ToPy | litgen/internal/adapted_types/adapted_namespace.py | 49-52, 87-112 |
| ToPy | litgen/internal/context/namespaces_code_tree.py | 107-114 |
| ToPy | litgen/internal/context/litgen_context.py | 59, 94-105 |
| ToPy | litgen/internal/adapted_types/adapted_class.py | 392-398 |
| Mut | srcmlcpp/cpp_types/functions/cpp_parameter.py | 19-166, 253-262 |
| Mut | litgen/internal/adapt_function_params/_adapt_mutable_param_with_default_value.py | 55-97 |
| Qual | srcmlcpp/cpp_types/decls_types/cpp_type.py | 225-267 |
| Qual | srcmlcpp/cpp_types/decls_types/cpp_decl.py | 244-376, 378-388 |
| Qual | srcmlcpp/cpp_types/functions/cpp_function_decl.py | 131-254 |
| Qual | srcmlcpp/cpp_types/scope/cpp_scope_identifiers.py | 41-66 |
| Qual | srcmlcpp/cpp_types/functions/cpp_parameter_list.py | 87-126, 128-150 |
| Qual | srcmlcpp/cpp_types/scope/scoped_element_cache.py | 19-29 |
| Qual | litgen/internal/adapted_types/adapted_class.py | 363-366 |
| Qual | litgen/internal/adapted_types/adapted_function.py | 257 |
| Lam | litgen/internal/adapt_function_params/apply_all_adapters.py | 65-68, 78-318 |
| Lam | litgen/internal/adapt_function_params/adapt_modifiable_immutable_to_return.py | 191-277 |
| Lam | litgen/internal/adapt_function_params/_lambda_adapter.py | 7-21 |
| Print | srcmlcpp/cpp_types/base/cpp_element_comments.py | 41-47, 51-66, 68-88, 91-97, 105-109 |
| Print | srcmlcpp/cpp_types/decls_types/cpp_decl.py | 40-82, 99-106 |
| Print | srcmlcpp/cpp_types/template/cpp_i_template_host.py | 20-34, 49-55, 69-99 |
| Print | srcmlcpp/cpp_types/functions/cpp_function_decl.py | 31-65, 256-268, 270-291, 297-298 |
| Print | srcmlcpp/cpp_types/functions/cpp_parameter_list.py | 57-69 |
| Print | srcmlcpp/cpp_types/functions/cpp_constructor_decl.py | 22-27 |
| Print | srcmlcpp/cpp_types/base/cpp_unprocessed.py | 23-24, 42, 62-64 |
| Print | srcmlcpp/cpp_types/classes/cpp_struct.py | 31-46, 70-83 |
| Print | srcmlcpp/cpp_types/classes/cpp_super.py | 23-27 |
| Print | srcmlcpp/cpp_types/classes/cpp_super_list.py | 41-43 |
| Print | srcmlcpp/cpp_types/cpp_enum.py | 53-63 |
| Print | srcmlcpp/cpp_types/base/cpp_element_and_comments.py | 21-29 |
| Print | srcmlcpp/cpp_types/cpp_define.py | 56-62 |
| Print | srcmlcpp/cpp_types/decls_types/cpp_decl_statement.py | 41-49 |
| Print | srcmlcpp/cpp_types/blocks/cpp_public_protected_private.py | 29-37 |
| Print | srcmlcpp/cpp_types/blocks/cpp_block.py | 62-72 |
| Find | codemanip/code_utils.py | 664-815 |
| Find | litgen/internal/adapt_function_params/_adapt_c_buffers.py | 16-52 |
| Find | litgen/options.py | 288-319 |
| Pimpl | srcmlcpp_tools/pimpl_my_class/pimpl_my_class.py | 34-41, 35-55, 69-74, 76-120, 122-129, 131-158, 160-180, 182-200, 202-214, 216-232, 234-273, 275-287, 290-300 |
| Pimpl | srcmlcpp/cpp_types/functions/cpp_parameter_list.py | 71-74 |
| Pimpl | srcmlcpp/cpp_types/base/cpp_element_comments.py | 68-88 |
| Pimpl | srcmlcpp/cpp_types/functions/cpp_function_decl.py | 399-403 |
| Pimpl | srcmlcpp/cpp_types/classes/cpp_struct.py | 195-204 |
| Query | srcmlcpp/cpp_types/classes/cpp_struct.py | 195-204, 206-215, 217-226, 228-247, 249-258, 260-276, 278-296, 298-304 |
| Query | srcmlcpp/cpp_types/functions/cpp_function_decl.py | 340-348 |
| Query | srcmlcpp/cpp_types/blocks/cpp_block.py | 194-196 |
| Query | litgen/internal/adapted_types/adapted_class.py | 363-372, 400-416, 418-427, 429-466, 1194-1201 |
| Cache | litgen/internal/adapted_types/adapted_enum.py | 94-104, 106-134, 204-208 |
| Cache | litgen/internal/adapted_types/adapted_function.py | 1343-1368 |
| Cache | litgen/internal/context/litgen_context.py | 87-92, 94-105 |
| Cache | litgen/internal/context/replacements_cache.py | 17-18 |
| Cache | litgen/internal/cpp_to_python.py | 249-260 |
| Where | srcmlcpp/srcmlcpp_main.py | 70-71, 79-96 |
| Where | codemanip/code_position.py | 42-52 |
| Where | srcmlcpp/srcml_wrapper.py | 271-297 |
| Where | srcmlcpp/internal/code_cache.py | 6, 9-13, 16-18 |
| Names | litgen/internal/template_options.py | 308-318 |
| Names | litgen/internal/adapted_types/adapted_class.py | 968-988, 990-1025, 990-1015, 1016-1023 |
| Ids | srcmlcpp/cpp_types/decls_types/cpp_decl.py | 390-395, 410-441 |
| Ids | srcmlcpp/cpp_types/functions/cpp_parameter.py | 283-289 |
| Ids | srcmlcpp/cpp_types/functions/cpp_parameter_list.py | 152-157 |
| Ids | srcmlcpp/cpp_types/template/cpp_template.py | 51-56 |
| Ids | srcmlcpp/cpp_types/classes/cpp_super_list.py | 48-53 |
| Ids | srcmlcpp/cpp_types/functions/cpp_function_decl.py | 392-397, 477-486 |
| Ids | srcmlcpp/cpp_types/functions/cpp_constructor.py | 59-66 |
| Ids | srcmlcpp/cpp_types/decls_types/cpp_decl_statement.py | 51-56 |
| Ids | srcmlcpp/cpp_types/cpp_enum.py | 124-129 |
| Ids | srcmlcpp/cpp_types/cpp_namespace.py | 49-54 |
| Ids | srcmlcpp/cpp_types/classes/cpp_struct.py | 372-381 |
| Ids | srcmlcpp/cpp_types/blocks/cpp_block.py | 93-99, 140-144, 158-168, 170-178, 180-189 |
| Ids | srcmlcpp/cpp_types/base/cpp_element.py | 97-109, 136-174 |
| Ids | srcmlcpp/cpp_types/scope/cpp_scope_identifiers.py | 12-39, 16-39 |
| Ids | srcmlcpp/cpp_types/blocks/cpp_unit.py | 65-67 |
| Warn | srcmlcpp/srcmlcpp_options.py | 84-90 |
| Warn | srcmlcpp/srcml_wrapper.py | 210-215, 217-223, 238-246, 248-269, 299-309 |
| Warn | srcmlcpp/internal/srcmlcpp_exception_detailed.py | 15-18, 39-53 |
| Warn | litgen/internal/adapted_types/adapted_block.py | 165-166 |
| Xml | srcmlcpp/internal/srcml_utils.py | 17-58, 17-22, 25-30, 33-37, 40-46, 49-58, 79-86, 93-99, 114-128, 114-122, 124-128, 131-143, 131-147 |
| Xml | srcmlcpp/srcml_wrapper.py | 87-91, 152-160 |
| Xml | codemanip/code_position.py | 12-13, 15-23 |
| CArray | srcmlcpp/internal/cpp_types_parse.py | 316-323 |
| CArray | srcmlcpp/cpp_types/decls_types/cpp_decl.py | 47-56, 159-238, 159-166, 168-178, 180-196, 198-208, 210-214, 216-226, 228-238 |
| CArray | srcmlcpp/srcmlcpp_options.py | 118-129 |
| FnKind | srcmlcpp/cpp_types/functions/cpp_function_decl.py | 29-65, 98-113, 106-107, 312-317, 319-330, 332-338, 375-383, 385-390, 392-397, 399-403, 405-409, 411-421, 416-420, 448-450, 452-454, 456-458, 463-466 |
| PimplFile | srcmlcpp_tools/pimpl_my_class/pimpl_my_class.py | 28-31, 303-344, 312-319, 313, 314-317, 335-344, 337, 342 |
| Ignore | litgen/internal/adapted_types/adapted_function.py | 255-281, 272-278, 278, 1331-1341, 1332 |
| Ignore | srcmlcpp/cpp_types/functions/cpp_function_decl.py | 256-259 |
| Orig | litgen/internal/adapted_types/adapted_element.py | 100-105, 107-112, 148-159, 158 |
| Orig | litgen/internal/cpp_to_python.py | 929-947, 930-936, 932, 938-944 |
| Orig | litgen/internal/adapted_types/adapted_function.py | 1033-1050, 1038-1045 |
| Orig | litgen/internal/adapted_types/adapted_class.py | 505-521, 508-512 |
| Exclude | srcmlcpp/cpp_types/base/cpp_element_comments.py | 40-42 |
| Exclude | litgen/code_to_adapted_unit.py | 14-23, 15-21, 26-38 |
| Exclude | srcmlcpp/cpp_types/functions/cpp_function.py | 49-54 |
| Exclude | srcmlcpp/cpp_types/functions/cpp_function_decl.py | 477-486 |
| Attr | litgen/internal/adapted_types/adapted_decl.py | 38-45, 170-197, 181-190, 185-186, 192-197 |
| Attr | litgen/internal/adapted_types/adapted_define.py | 77-120, 95-105, 107-120 |
| Attr | litgen/internal/adapted_types/adapted_block.py | 154-164 |
| Dispatch | litgen/internal/adapt_function_params/_adapt_c_buffers.py | 179-188, 229-466, 229-242, 246-256, 259-286, 288-291, 293-297, 306-321, 322-331, 333-348, 349-358, 360-466, 404-421, 424-450 |
| Sig | litgen/internal/adapted_types/adapted_function.py | 1161-1193, 1161-1170, 1172-1193 |
| View | srcmlcpp/cpp_types/base/cpp_element.py | 87-95, 192-201, 192-206 |
| View | srcmlcpp/cpp_types/blocks/cpp_block.py | 170-178 |
| Iter | litgen/internal/class_iterable_info.py | 8-11, 17-18, 20-24, 26-31, 28-31, 33-34 |
| Same | codemanip/code_utils.py | 590-617, 620-647, 622-623 |

Not modelled: the srcML parser and the reading of its XML (`srcml_caller.py`, `code_to_srcml.py`: `Verif/Parse` starts from an arbitrary XML tree, the
other parts from the parsed elements), how the elements of `Verif/Parse` are the ones of the other parts, the command line, the formatter `black` (an arbitrary function in C47), the regular expressions that the user gives in the options
(arbitrary predicates or functions; those of the standard replacements are modelled in `Verif/Re`), warnings and printing of messages, timings, the C++ compiler and the behaviour of pybind11/nanobind (the model says
what text is generated; C33-C38, C52 and C62-C67 give the text a meaning through small scanners, C54 through a small semantics of the generated statements in which the C++ function is arbitrary and the arguments of one call do not overlap), Python's recursion limit, and characters outside
ASCII where a definition says so.

## 7. Axioms of each theorem

From `#print axioms` (prefix `Verif.` omitted).

**none** (6): Exclude.Props.C120_head_of_body, Exclude.Props.C120_lonely_kept, Exclude.Props.C120_off, Exclude.Props.C120_rest, Repl.C14_always_stable_fails, Unit.Props.C78_silent_stub

**propext** (33): Base.Props.C28_virtual_sound, CArray.Props.C115_nothing_lost, Comment.C05_add_item_empty, Comment.C05_join_lines_empty, Escape.C11_fails, FnKind.Props.C116_condition_fails, FnKind.Props.C116_default_fails, Gen.Props.C47_glue, Gen.Props.C47_has_glue, Indent.C04_indent_skip_first, Iter.Props.C126_further, Lines.C01_negative_is_identity, Markers.C09_written_iff_changed, Markers.C10_error_leaves_file, Markers.C10_missing_file, Num.Props.C25_children_kept, Num.Props.C25_explicit_kept, Num.Props.C25_implicit_after_fails, Num.Props.C27_object_like, Orig.Props.C119_gather, Orig.Props.C119_texts, Orig.Props.C119_texts_empty, PimplFile.Props.C117_missing, PimplFile.Props.C117_nothing_written, PimplFile.Props.C117_others, Repl.C14_empty, TArgs.Props.C41_plain, Template.C13_some_is_plain, ToPy.Props.C85_after, Tpl.Props.C43_not_both, Tpl.Props.C43_unmatched, Where.Props.C108_cache_partial, Where.Props.C108_stored

**propext, Quot.sound** (82): Adapt.Props.C37_recognised, Amalg.C17_search, Arr.Props.C40_bars, Base.Props.C28_terminates_partial, Base.Props.C28_virtual_complete, Base.Props.C28_virtual_override, Base.Props.C28_visible_fails, CArray.Props.C115_name, Cache.Props.C105_isolated, Cache.Props.C105_order, Cache.Props.C105_store, Cache.Props.C105_unrelated, Comment.C05_add_item, Comment.C05_add_item_partial, Comment.C05_join_lines, Comment.C06_comment_only_partial, Dispatch.Props.C122_letters, Elem.Props.C49_cache_partial, Elem.Props.C49_parents, Elem.Props.C49_refill, Elem.Props.C49_visit, Escape.C51_cpp_comment, Escape.C51_python_comment, Exclude.Props.C120_removed, Fn.Props.C66_word, Fn.Props.C67_partial, FnKind.Props.C116_condition_partial, FnKind.Props.C116_default_partial, FnKind.Props.C116_noexcept, Gen.Props.C47_context, Ids.Props.C110_decls_partial, Ids.Props.C110_functions, Indent.C03_margin_unique, Indent.C03_unindent_strip, Indent.C04_indent, Indent.C04_indent_force, Indent.C04_indent_no_rstrip, Indent.C04_reindent_partial, Inst.Props.C53_words, Iter.Props.C126_first, Lines.C01_lines_sublist, Lines.C02_strip_empty_lines, Lines.C02_strip_empty_lines_idempotent, Lines.C02_strip_first_and_last, Mut.Props.C88_enum, Name.C07_camel_words, Name.C07_idempotent, Name.C07_lower_spec, Name.C07_no_upper, Name.C07_same_letters, Name.C07_snake_unchanged, Num.Props.C27_only_literals, Num.Props.C27_text_kept, Pimpl.Props.C98_exact, Query.Props.C101_elements, Query.Props.C101_members, Query.Props.C101_methods, Re.Props.C79_engine, Repl.C14_add, Repl.C14_bounded_passes, Repl.C14_stable, Scope.C21_hierarchy, Scope.C22_lexed, Scope.C22_no_identifier_chars, Space.C12_idempotent, Space.C12_normal, Space.C12_terminates, Space.C12_words, TArgs.Props.C41_balanced, TArgs.Props.C41_no_angle, TArgs.Props.C41_split, TArgs.Props.C41_unique, TArgs.Props.C41_whole, Template.C13_none_removes_lines, Template.C13_untouched, Tpl.Props.C43_class_partial, Tpl.Props.C43_list_partial, Tpl.Props.C43_not_instantiated, Tpl.Props.C43_parts, Tpl.Props.C43_total, Type.Props.C29_api_prefix_partial, Where.Props.C108_context

**propext, Classical.choice, Quot.sound** (685): Adapt.Props.C33_arity_fails, Adapt.Props.C33_arity_partial, Adapt.Props.C33_chain, Adapt.Props.C33_scope_fails, Adapt.Props.C33_scope_partial, Adapt.Props.C34_fails, Adapt.Props.C34_partial, Adapt.Props.C35_fails, Adapt.Props.C35_partial, Adapt.Props.C35_unnamed_partial, Adapt.Props.C36_exclude, Adapt.Props.C36_exclude_iff, Adapt.Props.C36_hidden, Adapt.Props.C37_arguments, Adapt.Props.C37_checked, Adapt.Props.C37_lengths_unchecked, Adapt.Props.C37_used_iff, Adapt.Props.C37_visible, Adapt.Props.C38_returned, Adapt.Props.C38_text, Adapt.Props.C38_used_iff, Adapt.Props.C54_call_fails, Adapt.Props.C54_call_partial, Adapt.Props.C54_chain_partial, Adapt.Props.C54_rejects, Adapt.Props.C54_rejects_mixed, Adapt.Props.C54_text_fails, Adapt.Props.C55_forced, Adapt.Props.C55_forced_only, Adapt.Props.C55_interface, Adapt.Props.C55_unchanged, Amalg.C15_each_reached_file_once, Amalg.C15_result_unique, Amalg.C15_terminates, Amalg.C16_external_include_line, Amalg.C16_externals_once, Amalg.C16_lines_kept, Amalg.C16_local_include_line, Amalg.C16_tree, Amalg.C17_error_is_missing_file, Amalg.C17_missing_is_error_fails, Amalg.C17_missing_is_error_partial, Amalg.C17_no_silent_omission, Amalg.C17_write, Arr.Props.C40_check, Arr.Props.C40_checked_fails, Arr.Props.C40_checked_partial, Arr.Props.C40_code_partial, Arr.Props.C40_decorated, Arr.Props.C40_default_option, Arr.Props.C40_defaults, Arr.Props.C40_meaning, Arr.Props.C40_nanobind, Arr.Props.C40_nanobind_defaults_fails, Arr.Props.C40_nanobind_defaults_partial, Arr.Props.C40_options_fails, Arr.Props.C40_options_partial, Arr.Props.C40_removed, Arr.Props.C40_unsupported_fails, Attach.C20_attachment, Attach.C20_block_comment_text, Attach.C20_comments_once, Attach.C20_elements_kept, Attach.C20_empty_lines_marked, Attach.C20_end_of_line_attached, Attach.C20_grouping, Attach.C20_grouping_maximal, Attach.C20_line_comments_text_fails, Attach.C20_line_comments_text_partial, Attach.C20_top_attached, Attr.Props.C121_cast_fails, Attr.Props.C121_cast_partial, Attr.Props.C121_define_fails, Attr.Props.C121_define_names, Attr.Props.C121_define_partial, Attr.Props.C121_names, Attr.Props.C121_one_line_fails, Attr.Props.C121_stub, Base.Props.C28_found, Base.Props.C28_name, Base.Props.C28_own_base_fails, Base.Props.C28_own_base_partial, Base.Props.C28_own_methods_only_fails, Base.Props.C28_qualified_fails, Base.Props.C28_terminates_fails, Base.Props.C28_visible_partial, Boxed.Props.C45_boxable, Boxed.Props.C45_distinct_fails, Boxed.Props.C45_distinct_partial, Boxed.Props.C45_glue, Boxed.Props.C45_identifier_fails, Boxed.Props.C45_identifier_partial, Boxed.Props.C45_order_independent, Boxed.Props.C45_struct, CArray.Props.C115_blanks_fails, CArray.Props.C115_blanks_partial, CArray.Props.C115_dimensions, CArray.Props.C115_literal_fails, CArray.Props.C115_literal_partial, CArray.Props.C115_macro, CArray.Props.C115_number, CArray.Props.C115_one_class, Cache.Props.C104_call, Cache.Props.C104_class_exact, Cache.Props.C104_class_fails, Cache.Props.C104_class_member, Cache.Props.C104_class_rules, Cache.Props.C104_inside_fails, Cache.Props.C104_not_stored, Cache.Props.C104_several_partial, Cache.Props.C104_words_fails, Cache.Props.C104_words_partial, Cache.Props.C105_value_fails, Cache.Props.C105_value_partial, Cls.Props.C68_array, Cls.Props.C68_array_readonly, Cls.Props.C68_binding_partial, Cls.Props.C68_fails, Cls.Props.C68_none_fails, Cls.Props.C68_none_partial, Cls.Props.C68_partial, Cls.Props.C69_fails, Cls.Props.C69_named, Cls.Props.C69_partial, Cls.Props.C70_fails, Cls.Props.C70_partial, Cls.Props.C70_stub_fails, Cls.Props.C70_stub_partial, Cls.Props.C71_closed, Cls.Props.C72_again_fails, Cls.Props.C72_again_partial, Cls.Props.C72_block_fails, Cls.Props.C72_block_partial, Cls.Props.C72_layout, Cls.Props.C73_announced, Cls.Props.C73_fails, Cls.Props.C73_partial, Cls.Props.C73_text, Cls.Props.C74_fails, Cls.Props.C74_partial, Cls.Props.C75_binding, Cls.Props.C75_iterable, Cls.Props.C75_stub, Comment.C05_fails, Comment.C05_quote_character_fails, Comment.C06_align, Comment.C06_comment_only_fails, Comment.C06_detection, Comment.C06_idempotent, Comment.C06_same_column, Custom.Props.C46_generators_fails, Custom.Props.C46_late_fails, Custom.Props.C46_main_once, Custom.Props.C46_order, Custom.Props.C46_placeholders, Custom.Props.C46_sequence, Custom.Props.C46_submodule_fails, Custom.Props.C46_targets_fails, Custom.Props.C46_targets_partial, Dispatch.Props.C122_code, Dispatch.Props.C122_reached_fails, Dispatch.Props.C122_reached_partial, Dispatch.Props.C122_tested_fails, Elem.Props.C42_distinct_fails, Elem.Props.C42_distinct_no_roots_partial, Elem.Props.C42_distinct_partial, Elem.Props.C42_not_module, Elem.Props.C42_roots_fails, Elem.Props.C42_templates_fails, Elem.Props.C42_templates_partial, Elem.Props.C42_used_class_fails, Elem.Props.C42_used_fails, Elem.Props.C42_used_partial, Elem.Props.C49_ancestors, Elem.Props.C49_cache_fails, Elem.Props.C49_depth, Elem.Props.C49_scope, Elem.Props.C49_scope_enum, Elem.Props.C49_self_fails, Elem.Props.C49_self_partial, Enums.Props.C52_arithmetic_fails, Enums.Props.C52_count, Enums.Props.C52_count_skipped_fails, Enums.Props.C52_count_skipped_partial, Enums.Props.C52_distinct_fails, Enums.Props.C52_distinct_partial, Enums.Props.C52_pydef, Enums.Props.C52_stub_base, Enums.Props.C52_stub_values, Escape.C11_denotes, Escape.C11_literal_partial, Escape.C11_valid_escapes_fails, Escape.C11_valid_escapes_partial, Escape.C51_remove_markers, Exclude.Props.C120_lonely_fails, Exclude.Props.C120_lonely_partial, Exclude.Props.C120_requests_fails, Exclude.Props.C120_requests_lost, Exclude.Props.C120_requests_partial, Find.Props.C95_exact, Find.Props.C95_list, Find.Props.C95_words_fails, Find.Props.C95_words_partial, Find.Props.C96_exact, Find.Props.C96_fails, Find.Props.C96_no_types, Find.Props.C96_others, Find.Props.C96_partial, Find.Props.C97_fails, Find.Props.C97_iff_partial, Find.Props.C97_leading, Find.Props.C97_partial, Find.Props.C97_two, Fn.Props.C62_balanced_partial, Fn.Props.C62_docstring_partial, Fn.Props.C62_fails, Fn.Props.C62_partial, Fn.Props.C63_bindable_fails, Fn.Props.C63_bindable_partial, Fn.Props.C63_ctor, Fn.Props.C63_fails, Fn.Props.C63_overloads_fails, Fn.Props.C63_overloads_partial, Fn.Props.C63_partial, Fn.Props.C63_reference_fails, Fn.Props.C63_reference_partial, Fn.Props.C64_default_fails, Fn.Props.C64_default_partial, Fn.Props.C64_names, Fn.Props.C64_optional_fails, Fn.Props.C64_optional_partial, Fn.Props.C64_values_partial, Fn.Props.C65_header, Fn.Props.C65_self, Fn.Props.C65_static_fails, Fn.Props.C65_static_partial, Fn.Props.C66_forced, Fn.Props.C66_keep_fails, Fn.Props.C66_keep_partial, Fn.Props.C66_library_partial, Fn.Props.C66_order, Fn.Props.C66_policy_fails, Fn.Props.C66_policy_partial, Fn.Props.C67_fails, FnKind.Props.C116_kinds, FnKind.Props.C116_returns, FnKind.Props.C116_virtual_fails, FnKind.Props.C116_virtual_partial, Gen.Props.C106_banner_fails, Gen.Props.C106_braces_fails, Gen.Props.C106_braces_partial, Gen.Props.C106_start, Gen.Props.C47_atomic_fails, Gen.Props.C47_atomic_partial, Gen.Props.C47_blocks, Gen.Props.C47_content, Gen.Props.C47_error_fails, Gen.Props.C47_error_partial, Gen.Props.C47_filename, Gen.Props.C47_history, Gen.Props.C47_lines_fails, Gen.Props.C47_lines_partial, Gen.Props.C47_no_header, Gen.Props.C47_outside, Glue.Props.C50_class_scope, Glue.Props.C50_named_members, Glue.Props.C50_named_scope_fails, Glue.Props.C50_named_scope_partial, Glue.Props.C50_nothing, Glue.Props.C50_publicist, Glue.Props.C50_publicist_scope, Glue.Props.C50_trampoline, Glue.Props.C50_trampoline_scope, Glue.Props.C50_using_fails, Glue.Props.C50_using_partial, Ids.Props.C110_decls_fails, Ids.Props.C111_enumerator_fails, Ids.Props.C111_enumerator_partial, Ids.Props.C111_known, Ids.Props.C111_resolves, Ignore.Props.C118_again_fails, Ignore.Props.C118_again_partial, Ignore.Props.C118_auto_again, Ignore.Props.C118_cleaned, Ignore.Props.C118_flag, Ignore.Props.C118_kept, Ignore.Props.C118_removed_fails, Ignore.Props.C118_removed_partial, Indent.C03_relative_indentation, Indent.C03_unindent, Indent.C03_unindent_idempotent, Indent.C04_reindent_fails, Indent.C04_unindent_indent, Inst.Props.C53_arguments, Inst.Props.C53_class, Inst.Props.C53_complete_fails, Inst.Props.C53_exhausted, Inst.Props.C53_function, Inst.Props.C53_gone, Inst.Props.C53_instantiate_fails, Inst.Props.C53_instantiate_partial, Inst.Props.C53_members_partial, Inst.Props.C53_progressive, Inst.Props.C53_type_fails, Inst.Props.C53_type_one, Inst.Props.C53_type_partial, Iter.Props.C126_class, Iter.Props.C126_iterable, Keyword.Props.C39_escape, Keyword.Props.C39_fails, Keyword.Props.C39_identifier, Keyword.Props.C39_injective, Keyword.Props.C39_member, Keyword.Props.C39_member_private, Keyword.Props.C39_member_short, Keyword.Props.C39_partial, Keyword.Props.C39_types, Lam.Props.C90_output_call, Lam.Props.C90_outputs, Lam.Props.C90_reference_fails, Lam.Props.C90_text_fails, Lam.Props.C90_text_partial, Lam.Props.C91_code_partial, Lam.Props.C91_no_code, Lam.Props.C91_wrapper_fails, Lam.Props.C91_wrapper_partial, Lines.C01_bound_fails, Lines.C01_bound_partial, Lines.C01_exact_partial, Lines.C01_nonblank_lines_kept, Lines.C01_run_length_encode, Markers.C08_fails, Markers.C08_flat_regions_partial, Markers.C08_one_region_partial, Markers.C08_outside_kept, Markers.C08_raw, Markers.C09_idempotent, Markers.C10_nested_opening_marker, Markers.C10_no_loss_fails, Markers.C10_no_loss_partial, Markers.C10_no_opening_marker, Markers.C10_stray_closing_marker_fails, Mut.Props.C88_const_fails, Mut.Props.C88_const_partial, Mut.Props.C88_enum_param, Mut.Props.C88_global_fails, Mut.Props.C88_groups_fails, Mut.Props.C88_hidden_fails, Mut.Props.C88_literal, Mut.Props.C88_param, Mut.Props.C88_string_fails, Mut.Props.C88_value, Name.C07_camel_round_trip, Names.Props.C109_partial, Names.Props.C109_renamed_fails, Names.Props.C109_target_fails, Names.Props.C109_use_fails, Num.Props.C25_hexadecimal_fails, Num.Props.C25_implicit_after_partial, Num.Props.C25_implicit_from_zero, Num.Props.C26_cyclic, Num.Props.C26_literals, Num.Props.C26_terminates, Num.Props.C26_unique, Num.Props.C26_value, Num.Props.C27_integer_literals, Num.Props.C27_value_fails, Num.Props.C27_value_partial, Orig.Props.C119_frame_fails, Orig.Props.C119_frame_partial, Orig.Props.C119_original, Orig.Props.C119_original_comments, Orig.Props.C119_original_none, Orig.Props.C119_template_class, Orig.Props.C119_template_function, Overload.Props.C31_decorators_fails, Overload.Props.C31_decorators_partial, Overload.Props.C31_distinct, Overload.Props.C31_hidden_fails, Overload.Props.C31_kept_iff, Overload.Props.C31_order, Overload.Props.C31_refines, Overload.Props.C31_represented, Overload.Props.C32_adjacent, Overload.Props.C32_firsts, Overload.Props.C32_idempotent, Overload.Props.C32_others, Overload.Props.C32_permutation, Overload.Props.C32_refines, Overload.Props.C32_unchanged, Parse.Props.C56_comment_after, Parse.Props.C56_comment_before, Parse.Props.C56_fails, Parse.Props.C56_ignored_comments, Parse.Props.C56_isolation, Parse.Props.C56_markers, Parse.Props.C56_nothing_else_lost, Parse.Props.C56_partial, Parse.Props.C56_survives_fails, Parse.Props.C56_survives_partial, Parse.Props.C56_typedef_comment_fails, Parse.Props.C57_declarators, Parse.Props.C57_fails, Parse.Props.C57_partial, Parse.Props.C58_has_name_fails, Parse.Props.C58_has_name_partial, Parse.Props.C58_nothing_lost, Parse.Props.C58_type_fails, Parse.Props.C58_type_partial, Parse.Props.C58_unknown_modifier, Parse.Props.C59_constructor_fails, Parse.Props.C59_constructor_partial, Parse.Props.C59_function_decl_partial, Parse.Props.C59_function_fails, Parse.Props.C59_function_partial, Parse.Props.C59_template_constructor_fails, Parse.Props.C59_trailing_fails, Parse.Props.C59_trailing_partial, Parse.Props.C60_declaration_fails, Parse.Props.C60_declaration_partial, Parse.Props.C60_initial_code, Parse.Props.C61_comments_fails, Parse.Props.C61_constructor, Parse.Props.C61_macro_name_fails, Parse.Props.C61_other_macro, Parse.Props.C61_recovered, Parse.Props.C61_rewritten, Parse.Props.C61_survives_fails, Parse.Props.C61_survives_partial, Parse.Props.C61_untouched, Pimpl.Props.C100_brace_fails, Pimpl.Props.C100_constructor, Pimpl.Props.C100_declaration, Pimpl.Props.C100_header_partial, Pimpl.Props.C98_first_fails, Pimpl.Props.C98_first_partial, Pimpl.Props.C98_suffixes_fails, Pimpl.Props.C98_suffixes_never, Pimpl.Props.C98_suffixes_partial, Pimpl.Props.C99_constructor_exact, Pimpl.Props.C99_definition_exact, Pimpl.Props.C99_definition_fails, Pimpl.Props.C99_definition_partial, Pimpl.Props.C99_deleted_fails, Pimpl.Props.C99_glue, Pimpl.Props.C99_virtual_fails, PimplFile.Props.C117_atomic_fails, PimplFile.Props.C117_atomic_partial, PimplFile.Props.C117_filled, PimplFile.Props.C117_header, PimplFile.Props.C117_twice, Prep.C18_code_kept_iff, Prep.C18_exact, Prep.C18_if_macro, Prep.C18_ifdef_macro, Prep.C19_balanced, Prep.C19_stray, Prep.C19_subsequence, Prep.C19_unclosed, Print.Props.C92_layout_fails, Print.Props.C92_layout_partial, Print.Props.C93_class_fails, Print.Props.C93_class_partial, Print.Props.C93_comment, Print.Props.C93_decl_fails, Print.Props.C93_decl_partial, Print.Props.C93_decls, Print.Props.C93_define, Print.Props.C93_definition, Print.Props.C93_enum_fails, Print.Props.C93_enum_partial, Print.Props.C93_function_fails, Print.Props.C93_function_partial, Print.Props.C93_instance, Print.Props.C94_add_fails, Print.Props.C94_add_partial, Print.Props.C94_c_style, Print.Props.C94_eol_fails, Print.Props.C94_eol_partial, Print.Props.C94_from_comments, Print.Props.C94_place, Print.Props.C94_top, Publish.Props.C44_api_fails, Publish.Props.C44_block, Publish.Props.C44_class_fails, Publish.Props.C44_class_partial, Publish.Props.C44_comment, Publish.Props.C44_iff, Publish.Props.C44_member_fails, Publish.Props.C44_member_partial, Publish.Props.C44_partial, Publish.Props.C44_signature_fails, Publish.Props.C48_complete_fails, Publish.Props.C48_complete_partial, Publish.Props.C48_distinct, Publish.Props.C48_identifier_fails, Publish.Props.C48_identifier_partial, Publish.Props.C48_refused, Publish.Props.C48_right_name, Publish.Props.C48_spaceship, Publish.Props.C48_symbol, Qual.Props.C89_fresh, Qual.Props.C89_history_fails, Qual.Props.C89_history_partial, Qual.Props.C89_instance_fails, Qual.Props.C89_instance_function_fails, Qual.Props.C89_instance_function_partial, Qual.Props.C89_instance_partial, Qual.Props.C89_terse_fails, Qual.Props.C89_terse_partial, Query.Props.C101_partition, Query.Props.C102_elements, Query.Props.C102_last_fails, Query.Props.C102_others, Query.Props.C102_overloaded, Query.Props.C102_text, Query.Props.C103_children, Query.Props.C103_inner_fails, Query.Props.C103_nested, Query.Props.C103_private, Re.Props.C79_found, Re.Props.C79_rules, Re.Props.C79_sub, Re.Props.C79_subn, Re.Props.C79_word, Re.Props.C80_fails, Re.Props.C80_literal_fails, Re.Props.C80_partial, Re.Props.C80_suffix_fails, Re.Props.C81_fails, Re.Props.C81_kept_partial, Re.Props.C81_partial, Re.Props.C82_blank_fails, Re.Props.C82_brackets_fails, Re.Props.C82_function_fails, Re.Props.C82_nothing_left_partial, Re.Props.C82_partial, Re.Props.C82_scope_fails, Repl.C14_from_line, Repl.C14_from_string, Same.Props.C125_equivalence, Same.Props.C125_margin_fails, Same.Props.C125_same, Same.Props.C125_shift_fails, Same.Props.C125_shift_partial, Same.Props.C127_characters, Same.Props.C127_literal_fails, Same.Props.C127_literal_partial, Same.Props.C127_same, Same.Props.C127_words, Scope.C21_can_access, Scope.C21_child_scope, Scope.C21_parse_print, Scope.C21_print_parse_fails, Scope.C21_print_parse_partial, Scope.C22_no_identifier_partial, Scope.C22_only_words_fails, Scope.C22_only_words_partial, Scope.C22_word_characters, Scope.C23_first_registered, Scope.C23_global, Scope.C23_innermost_fails, Scope.C23_innermost_partial, Scope.C23_not_found, Scope.C23_only_accessible, Scope.C24_only_words_partial, Scope.C24_parts_removed, Scope.C24_same_entity_fails, Scope.C24_same_entity_partial, Sig.Props.C123_duplicate, Sig.Props.C123_name, Sig.Props.C123_represented, Sig.Props.C123_same, Sig.Props.C123_signature_fails, Sig.Props.C123_signature_partial, Space.C12_redundant, Space.C12_redundant_exact, Space.C12_redundant_idempotent, Space.C12_same_characters, Space.C12_shorten_blank_lines, TArgs.Props.C41_inside_out, TArgs.Props.C41_raises, TArgs.Props.C41_returns_fails, TArgs.Props.C41_returns_partial, TArgs.Props.C41_text, Template.C13_fill_partial, Template.C13_final_comma, Template.C13_maybe_comma, Template.C13_order_fails, Template.C13_order_partial, Template.C13_process, ToPy.Props.C83_fails, ToPy.Props.C83_hidden_fails, ToPy.Props.C83_kept_partial, ToPy.Props.C83_literal_fails, ToPy.Props.C83_order_partial, ToPy.Props.C83_partial, ToPy.Props.C83_path_fails, ToPy.Props.C83_same_name_fails, ToPy.Props.C84_fails, ToPy.Props.C84_kept, ToPy.Props.C84_partial, ToPy.Props.C84_type_fails, ToPy.Props.C85_block_fails, ToPy.Props.C85_fails, ToPy.Props.C85_order_fails, ToPy.Props.C85_order_partial, ToPy.Props.C85_partial, ToPy.Props.C86_braces, ToPy.Props.C86_fails, ToPy.Props.C86_macro_fails, ToPy.Props.C86_macro_partial, ToPy.Props.C86_partial, ToPy.Props.C86_template_fails, ToPy.Props.C87_fails, ToPy.Props.C87_partial, Tpl.Props.C43_class_fails, Tpl.Props.C43_function_named, Tpl.Props.C43_function_suffix_fails, Tpl.Props.C43_function_suffix_partial, Tpl.Props.C43_identifier_fails, Tpl.Props.C43_identifier_partial, Tpl.Props.C43_injective_fails, Tpl.Props.C43_injective_partial, Tpl.Props.C43_list_fails, Tpl.Props.C43_name, Tpl.Props.C43_naming, Tpl.Props.C43_synonym, Tree.Props.C30_error, Tree.Props.C30_every_line_once, Tree.Props.C30_in_order, Tree.Props.C30_refines, Tree.Props.C30_unnamed_boundary, Type.Props.C29_api_prefix_fails, Type.Props.C29_error, Type.Props.C29_printed, Type.Props.C29_return_type, Type.Props.C29_two_const, Unit.Props.C76_created_once_fails, Unit.Props.C76_nested_name, Unit.Props.C76_nested_roots, Unit.Props.C76_partial, Unit.Props.C76_source_order_fails, Unit.Props.C77_docstring_fails, Unit.Props.C77_partial, Unit.Props.C78_binding, Unit.Props.C78_comment, Unit.Props.C78_elements, Unit.Props.C78_empty_line, Unit.Props.C78_hidden, Unit.Props.C78_isolation_fails, Unit.Props.C78_macro, Unit.Props.C78_refines, Unit.Props.C78_silent_binding, Unit.Props.C78_stub, View.Props.C124_lines, View.Props.C124_tree_fails, View.Props.C124_tree_partial, Warn.Props.C112_nested, Warn.Props.C112_parts_fails, Warn.Props.C112_parts_partial, Warn.Props.C112_place_fails, Warn.Props.C112_printed, Warn.Props.C112_text, Warn.Props.C112_type_fails, Warn.Props.C112_type_partial, Where.Props.C107_exact, Where.Props.C107_fails, Where.Props.C107_partial, Where.Props.C107_windows, Where.Props.C108_cache_fails, Where.Props.C108_line, Where.Props.C108_max_fails, Xml.Props.C113_child, Xml.Props.C113_copy_end, Xml.Props.C113_kinds_fails, Xml.Props.C113_kinds_partial, Xml.Props.C113_place, Xml.Props.C113_position_text, Xml.Props.C113_tag, Xml.Props.C114_outline_fails, Xml.Props.C114_outline_partial, Xml.Props.C114_stable_fails, Xml.Props.C114_stable_partial, Xml.Props.C114_tree
