# Formal model of flatland (mbr/flatland0) in Lean 4

## 1. Approach

The code under study is a Python schema/form library (`/repo/flatland`).  We model it
as *total, computable Lean functions* over plain data (`List Char` for text, `Int`,
`List`, `Option`, inductive types), function by function, with Python exceptions
represented as values (`Except PyErr _` or explicit error constructors).  Each model
definition cites the file and lines of `/repo` that it transcribes and says what it
simplifies (a citation `[schema/base.py:1-2]` is relative to `/repo/flatland`;
`tools/cites.py` lists definitions without one).  Properties are stated against small, separate specifications
(`Verif/Spec/*.lean` or the `Spec` section of a property file) that do not use the model's
helper functions.

Layout under `lean/Verif/`:

* `Model/*.lean`   – transcriptions of the code (no theorems except termination facts);
* `Spec/*.lean`    – independent specifications used in statements;
* `Proofs/*.lean`  – helper lemmas;
* `Props/*.lean`   – the property theorems, one file per area, each with
  non-vacuity `example`s beside it.

**Conformance with recorded behaviour.**  The modules under `lean/Verif/Conformance` run the model on the inputs of the project's own
tests (/repo/tests) and compare with the results the tests expect: several hundred kernel-checked examples, one group per test function.
They are tests of the model, not proofs of any property, and no claim in MANIFEST.json rests on them; they are evidence that the model
does what the code does, which otherwise rests on reading the two side by side.  The tests use no more of Python than the model has:
where a test needs a text the model keeps abstract (the `str` of a date, the parse of a URL) the example supplies it.

## 2. Trusted base

* Lean 4.33.0's kernel.  Theorems depend at most on `propext`, `Classical.choice`,
  `Quot.sound`.  No axioms of our own, no `sorry`, no `native_decide`/`bv_decide`.
* A few files (the `Floats` files, `Props/Hostile.lean`) import single modules of Mathlib, for rational
  numbers; what they use of it is checked by the same kernel.
* The transcription of Python into Lean (by hand).  What we assume about the Python
  runtime is made explicit as the class `Py.Runtime` (a *parameter* of the theorems, not an axiom): which characters are
  decimal digits / white space, `unicode(x)` for non-text objects, etc.  The class
  has an ASCII instance, so the assumptions are consistent.
* Interpreter semantics are those of Python 3.3 (the newest in tox.ini): `str` is text, generators
  may end with `raise StopIteration`.

## 3. What is modelled, per property

See `properties.jsonl` for the statements.

| id | model | proof |
|----|-------|-------|
| C01 | `Scalar.set` over an arbitrary `adapt`/`serialize` pair | case analysis + induction over set histories |
| C02 | String/Integer/Boolean/Enum/Temporal adapt, serialize | digit-string induction, strip idempotence |
| C03 | Temporal regexes as fixed-width parsers, calendar rules | round trip over all valid dates; converse by inversion |
| C04 | Constrained/Enum | invariant over set histories |
| C05 | `int(text)` parser, Number.adapt | iff with a grammar spec |
| C06 | Boolean | case analysis |
| C07 | creditcard `_from_string`, `_pretty_print` | round trip; negation witness for the crash |
| C08 | creditcard regexes on the decimal text | iff with numeric spec; negation witness for 13 digit Visa |
| C09 | schema trees, flatten (BFS), set_flat recursion | mutual induction over schemas; per-key agreement |
| C10 | same | per-key agreement generalisation of C09; for arbitrary submissions induction over the schema, keys rewritten one to one (tidy numerals are unique) |
| C11 | same | induction, filter commutation |
| C12 | same, exceptions as values | negation witness (List of Dict with key `l_0`); partial for safe schemas; exact condition for any scalar classes (`C12_raises_iff`) and for those of the library (`C12_library_iff`) |
| C13 | List._set_flat | length bound and exact content |
| C14 | flattened_name over positions; flatten | injectivity by induction; flatten = all scalars by position (from C23) |
| C15 | Mapping/SparseDict/Sequence `_set_flat` | case analysis |
| C16 | fq_name/el over positions | induction over positions; negation witness for Arrays |
| C17 | tokenizer of paths.py | induction over names |
| C18 | PathExpression.__call__ worklist over an abstract element graph; tokenize on the whole written grammar (names, bracketed names, `.`, `..`, blank steps, indexes, slices) | worklist = flatMap semantics; token by token |
| C19 | `_parse_slice`, Python slice semantics | case analysis; negation witness for `[a:0]` |
| C20 | `_canonicalize` | simulation over operations; normal form of a confluent rewriting system |
| C21 | pathexpr cache, by one thread and as a step machine of any number of threads | invariant over histories and schedules; negation witness for a full cache |
| C22 | Element.find | case analysis |
| C23 | all_children | permutation with depth-first enumeration, order |
| C24,C25 | List/Sequence operations with slots; the plain list operations against the documented rules for indexes, slices, insert and remove (Spec/PyLists.lean) | invariant / refinement to plain lists |
| C26,C27 | Sequence.set, MultiValue | induction |
| C28-C30 | Mapping/Dict/SparseDict operations | invariant over histories, policies |
| C31 | keyslice_pairs | equality with a set-comprehension spec |
| C32,C33 | set_default, set on trees | mutual induction over schemas |
| C34-C38 | validate/_validate/validate_element/all_valid with oracle validators | BFS invariants |
| C39 | including_validators | list algebra |
| C40-C45 | validators as decision functions | iff with spec relation |
| C46,C47 | properties.py frames over an MRO | invariant, non-interference |
| C48 | _MetaForm/_ElementCollection | characterisation of lookup |
| C49 | class_cloner as extension of a class table | frame property over histories |
| C50 | _MetaCompound locking as small-step interleaving | inductive invariant over schedules |
| C51,C52 | DateYYYYMMDD, JoinedString | round trip |
| C53 | Ref over a store of scalars; Model/RefChain.lean: Refs to Refs; Model/RefForm.lean: Dicts of scalars and Refs to them | histories; induction over the Refs of a chain, over the fields of a form and the entries of its value |
| C54 | escaping functions | induction over text |
| C55-C59 | generic.py transforms, Context | stack invariants, case analysis |
| C60 | expand_message/note_error | case analysis |
| C61 | Maybe, parse_trool | case analysis |
| C62 | Element.__eq__, value and u of trees, and Sequence lookups | equivalence; value and text exactly as the specification `Shows` says; agreement |
| C63 | Tag._open with attribute sorting | uniqueness of sorted permutations |
| C64 | a heap of element objects with parent and content; all mutating operations of Sequence, List and Mapping | heap invariant kept by each operation, frame conditions |
| C65 | pages of tag calls in one scope; the reader of markup of C54 as the browser | each call: C54 + C56 + C58; pages by induction; composed with C09 and C10 |
| C66 | validation/string.py, validation/number.py | the formatted digits are the digits read; case analysis; Luhn from C45 |
| C67 | the tag objects and stacks of a generator; templates with nested open/close | invariant over histories; mutual induction over templates; C54 for reading heads |
| C68 | Generator.tag against the tag properties | case analysis; negation witnesses |
| C69 | util/base.py symbol as a step machine of any number of threads with a lock | invariant over schedules; progress by a measure |
| C70 | out/genshi.py on event streams; Genshi's rendering as a big-step relation | closed form of the rewriting; induction on streams, template trees and derivations; negation witnesses |
| C71 | CreditCardNumber: constructor, the four validators with their messages, validate | case analysis over an independent verdict; end-to-end theorem on typed text; negation witnesses (TypeError on refusal, class validators ignored) |
| C72 | attribute lookup on elements and classes with the four descriptors of util/base.py, keyword loops of `using` and `__init__`, programs of these | the value expected is a function of the history alone; invariant between history and dicts, preserved by each operation |
| C73 | util/deferred.py: the package's `__dict__` and `sys.modules` under accesses and imports | answers from the description alone; invariant over programs; negation witnesses for clashing names and for the missing members of flatland.util |
| C74 | `Model/FormValidation.lean` puts the traversal (`Model/Validate.lean`), the validators (`Model/Validators.lean`) and the messages (`Model/Messages.lean`) together on the trees of `Model/Tree.lean`, elements being identified by positions. Simplification: validators do not change the tree (those that do, such as URLCanonicalizer, are modelled by themselves under C44, and in forms under C84). | Because a validator touches only its own element's messages, the run factors per position (`validateTree_local`); C34/C35/C37 then give result, flags and repeatability, C40 the requirements. Parts of a form (Model/FormParts.lean): the same at any position, what is within a part being what its position is a prefix of; `all_valid` by C38; the order of `all_children` (C23) by an invariant of the queue: sorted, and every entry the child of an earlier one. |
| C75 | `Model/FlatSources.lean`: what is passed to `set_flat` as a source that can be gone through once or again, threaded through the loops that read it | equality with `setFlat` of `Model/Tree.lean`; closed form for the unnamed mapping; witness of the loss |
| C76 | no new model: `fromFlat` of `Model/Tree.lean` followed by `validateForm` of `Model/FormValidation.lean` | induction on the way to the field with the closed form of C15; then C74 |
| C77 | `Model/HalfWay.lean`: `set`, `set_flat`, `set_default` again, returning the element as it is left together with result or exception; histories of calls | refinement: agrees with the models of C15, C26 etc.; invariant `Conforms` by induction on the schema and the history; where it stopped by induction on the loops |
| C78 | `Model/RichTree.lean`: element trees with Compounds and JoinedStrings, `flatten` and `set_flat` of them | simulation by plain trees (a JoinedString as a scalar, a Compound as a Dict); a pair that no element looks at can be left out, by induction on the schema; the breadth-first order puts a JoinedString before its members, which matters only if they have the same key; another order is the same nodes in another order (`reorder`); then C09 |
| C79 | `Model/TreeRules.lean`: `find`, ValuesEqual, UnisEqual and NotDuplicated on the trees of C74 | two trees that differ in raw inputs only have the same navigation (C16–C18), values and emptiness, so the environment of C74 is the same; then C09, C33, C65. `find` ends: each slice replaces a context by at most as many shorter ones as there are elements |
| C80 | `Spec/Parts.lean`: which keys lead to which field or row, which parts a submission makes, and where they are; no new model | one step down (C13, C15 for keys that may be absent), then induction over the way; the converse by induction over the position; validity by C74 |
| C81 | `Model/MappingReads.lean`: `get`, `may_contain`, what `setdefault` returns; the operations themselves are those of C28/C29 | per operation by cases over the state of the key, with the reachability invariants of C28/C29; `update` by induction over the pairs, using that an assignment reads and writes one key |
| C82 | `Model/Edits.lean`: the generic operations of C24–C29 applied to the elements of the trees of C09 (a class becomes the `MemberClass`/`MapClass` of its members), at any position | every operation keeps members proper (a closure lemma per operation), Dicts keep their keys (C28, C29); locality by induction over the position; `flatten` from C14 by comparing the two sorted lists of positions; independence by induction over the history; `Proofs/Edits3.lean` shows that `set`, `set_default` and `set_flat` of Model/HalfWay.lean (trees) and of Model/Mappings.lean, Model/ListOps.lean (generic) agree |
| C83 | the trees of C09; `Spec/Cycle.lean` says what is left of any element (`broughtBack`), without the hypothesis `Carried` of C09 | the induction of C09 with the indexes of the members that get through instead of all; then by induction over the schema: the same parts get through the second time, pruning containers hold nothing blank after the first, Lists are not too long after the first, so that `broughtBack` repeats itself; C02 for the classes of the package; C65 for pages |
| C84 | Model/Tidying.lean: validators that change the scalar they validate, on the traversal of C34 with the data of each position as state; NANPphone, NANPnxx, URLCanonicalizer on top of C66 and C44 | each element changes its own data only, so the state in which an element is judged is the original one with the data of the elements before it replaced; the queue is sorted (level by level, left to right), by induction over the descent; simulation for validators that change nothing; determinism of the judgement for validating twice |
| C85 | Model/Floats.lean: `float()` and `Decimal()` of text, int, float and Decimal as functions to exact rationals, rounding to 53 binary digits, `%f`; Float and Decimal as scalar classes of the existing model | grammar of numbers as an inductive specification, parser shown equivalent; nearest float specified by distance and parity, rounding shown to meet it; showing and reading back by error bounds; forms by the induction of C83 |
| C86 | the trees of C78, with elements that already hold something | a form with Compounds and JoinedStrings corresponds to a plain one, in which a JoinedString is a scalar that has its members as its value (`raise`, `lower`); `set_flat` of both correspond step by step, by induction on the schema; then the theorems C10–C15 carry over |
| C87 | the trees of C78, sent back any number of times | the text a JoinedString shows is all that counts when it is sent back, so C83 carries over through the plain form (`lift`, `dropR`); the pairs of Compounds and of members are noise that nobody reads (as for C78), provided no List member or optional field is there because of them alone; single-character splitting undoes joining |
| C88 | `value`, `u`, `set` and `set_default` of trees with DateYYYYMMDDs and JoinedStrings, also in Arrays (Model/RichValues.lean) | the loops of Dict.set and Sequence.set are the ones of Model/Values.lean, for any kind of element; induction over the class, as for C30, C32 and C33; what a single date or joined string does is C51 and C52 |
| C89 | no new code: `value` and `set` of Model/Values.lean, one after the other, any number of times | induction over the class with the loop of Dict.set generalised over the fields done; the built-in classes adapt what they adapted to itself (C33), so the second load is a fixed point up to `raw` |
| C90 | no new code: Model/RichValues.lean (values, `set`) and Model/RichTree.lean (flat data) put together by translations of classes and forms in Spec/Records.lean; Arrays of dates or joined strings are left out, since Model/RichTree.lean has none | C78 and C88 give one trip each; every assumption looks at texts and values only and so survives a trip; induction over the number of edits |
| C91 | `bool(el)` of scalars, containers, DateYYYYMMDDs and JoinedStrings (scalars.py:134-136, `len()` of dict and list otherwise) in Model/Truth.lean; the path step from Model/Paths.lean | case analysis over the scalar classes: the text of a true value is not empty; C51 for dates, induction over the members for joined strings |
| C92 | Model/RichNodes.lean: trees with Compounds (their present `u` and `value` as data) and JoinedStrings (their present text); navigation is that of the Dict or Array such an element is, truth that of a Scalar | cutting off false parents changes no lookup (induction over the steps and contexts), so C18 applies to every graph; induction over the way to an element; a container with a child in it is false iff it is a blank Compound or JoinedString |
| C93 | Model/RichValidation.lean: the trees of C92 with validators that may look at the whole tree, `is_empty` of Compounds by recursion, the classes' flags handed to the `validate` of C34 | the tree is validated like its shape (Compounds as Dicts, JoinedStrings as Arrays) under rules that have the same effect on blank Compounds, so C74 applies; blankness by mutual induction; dates by cases |
| C94 | Model/RichNodesOf.lean: the elements `set_flat` fills (Model/RichTree.lean) as validation sees them (Model/RichValidation.lean), with the present text and value of dates and joined strings; validators are functions of value and text | what is at a position of a filled form is a Dict, a field, a member of a JoinedString or a date (induction over the form); C86 says what a submission makes of a field, C51 what date three parts make, C93 when the form is valid; C05 for the numerals |
| C95 | Model/RichEdits.lean: elements of forms with dates and joined strings as the plain trees of Model/Tree.lean (a date is a Dict of its parts, a joined string an Array of its members), the calls of C82 on them with their own `set`, `set_flat` and `set_default`, calls that raise leaving what they leave | conformance to the plain class under a rich one is kept by every call (the closure lemmas of C82), locality and independence by induction over positions; `set`, `set_default` and `set_flat` are compared with those of Model/RichValues.lean and Model/RichTree.lean by induction over the class |
| C96 | Model/RichEdits.lean again: `richSet`, `richSetFlat` and `richDefault` return what is left behind with the exception | induction over fields, members, pieces and pairs, each up to the first one that raises; what comes before is described by the same call on less |
| C97 | Model/RichTree.lean, Model/RichNodesOf.lean and Model/RichValidation.lean, as for C94 | `set_flat` of a form with JoinedStrings and Compounds is that of one with scalars and Dicts in their place (C61), the parts of which C80 describes; the two descriptions of parts are related by induction over the way down, C15 says what an Array makes of its pairs, and C93 when the form is valid |
| C98 | Model/Tree.lean, Model/FormValidation.lean and Model/Validators.lean, as for C80 | the parts of a submitted form (C80), what an Array makes of its pairs (C15) and when a form with the package's validators is valid (C74) are put together; that an Array only gets pairs with keys by induction over the way down |
| C99 | Model/RichRules.lean: value, text and equality of elements with Compounds and JoinedStrings, find on them, and ValuesEqual, UnisEqual and NotDuplicated there | two trees with the same content have the same graph, values and texts at every position, by induction over the tree, so every validator decides alike on them; C88 and C90 give forms with the same content; find ends because the graph is a finite tree (C18), NotDuplicated by splitting the siblings at the element |

## 4. What is not modelled

* Python 2 byte/unicode coercions, `repr`, docstrings, deprecated aliases.
* Float and Decimal (C85): exponents beyond the limits of the decimal module, sign and payload of a NaN, formats other than `u'%f'` and `u'%.<n>f'`,
  and what `float()` and `Decimal()` make of objects other than text, int, bool, float and Decimal (parameters of `NumberRuntime`).
* Genshi itself (C70 models its events, attributes and the order of rendering only; evaluating expressions has no side effects there), `out/genshi.py` `setup` and the
  syntax checks of `attach`, signal dispatch of `blinker` beyond the emitted trace.
* Listing the keys of the mapping that message templates are expanded with (`as_format_mapping.__iter__`, which asks `dir()`); reading its keys is modelled (C60).
* `urlparse` and IDNA encoding (arbitrary functions).
* Object identity of shared elements, except in Model/Heap.lean (C64): elsewhere elements form trees, as built through the public API.

## 5. Disagreements between code and expectation

Each of these is a theorem about the model (a concrete witness or a general statement), unless marked *not modelled*.
Where the property's English statement is refuted, the manifest says `partial`; where the statement names the exception itself,
it says `proved`.

Refuting a property as stated:

* C07 `CreditCardNumber.set` raises ValueError on 15 or more dashes/blanks – `C07_set_crashes`, exactly then – `C07_set_raises_iff`.
  14 digit numbers are lost when redisplayed – `C07_fourteen_digits_lost`.
* C08 13 digit Visa numbers are not recognised – `C08_visa13_rejected`.
* C11 an Array of named members takes the key `name + "\n"` (`$` in a regular expression matches before a final newline) –
  `C11_newline_key_not_ignored`.
* C12 a List of Dicts raises AttributeError for a key such as `l_0` – `C12_list_of_dicts_raises`, exactly then – `C12_never_raises_iff`.
  A form with an unsigned Decimal raises decimal.InvalidOperation if `NaN` is submitted for it – `C12_decimal_nan_raises`; with Floats and Decimals the exact
  condition is `C12_library_iff`: no Decimal that a submission can get at.
* C19 `[a:0]`, `[::0]`, `[-]` – `C19_stop_zero`, `C19_stride_zero`, `C19_minus_raises`.
* C20 `..` after a slice, a missing child, a List member – `C20_slice_up_differs`, `C20_missing_child_unnoticed`, `C20_list_up_differs`.
* C21 with the cache full, `pathexpr` returns Python's builtin `compile` – `C21_full_cache_breaks`; with threads also for a path that is
  in the cache, and the cache can outgrow `max_cache_size` – `C21_threads_builtin_race`, `C21_threads_outgrow`.
* C45 `luhn10` of a negative number does not return – `C45_negative_diverges`.

Exceptions named in the properties:

* C02 sub-second precision is dropped – `C02_not_exact_datetime`.
* C15 `SparseDict.set_flat` creates field `x` for a key `xy` – `C15_sparse_prefix_quirk`.
* C15 An Array of named members gets a blank member for any other key below its name (`t_y`), and an unnamed Array of unnamed members one
  for every key that is not empty – `C15_array_members` (`takenFrom` in Spec/ArrayFlat).
* C16 no path leads to members of an Array – `C16_array_member_raises`, `C16_named_array_member_lost`; separators in names – `C16_separator_in_name_lost`.
* C17 a name with a backslash cannot be addressed, brackets undo escapes – `C17_backslash_name_not_addressable`, `C17_bracket_undoes_escape`.
* C18 `..` tests the truth value of the parent and stops at slots – `C18_falsy_parent_skipped`, `C18_list_parent_is_slot`, `C18_list_sibling_raises`;
  errors other than LookupError escape – `C18_other_errors_escape`.
* C24, C25 a sort that fails half-way leaves wrong numbers, `+=` bypasses the slots – `C24_failed_sort_misnumbers`, `C25_iadd_breaks`.
* C29 a required field can be deleted after an optional instance was stored – `C29_optional_instance_deletable`.
* C31 an empty `include` selects everything, `omit` beats `rename`, colliding names depend on set order – `C31_empty_include_selects_all`,
  `C31_omit_beats_rename`, `C31_collision_depends_on_order`.
* C32 List and Array with default None keep their content – `C32_undeclared_keeps`.
* C33 refused text is lost by `set(el.value)`, an unset Boolean becomes False – `C33_refused_text_is_lost`, `C33_unset_boolean`.
* C34 a false result that is no int makes `validate` raise – `C34_false_object_raises`; `recurse=False` follows other rules – `C34_non_recursive_differs`.
* C35 descendants that were skipped keep their old flags – `C35_stale_flags_remain`.
* C39 very negative positions wrap around – `C39_wraps_around`.
* C40 HasAtLeast and friends count characters on a MultiValue – `C40_multivalue_counts_characters`.
* C41 NotDuplicated stops comparing after the first duplicate – `C41_stops_comparing`.
* C43 a trailing newline is accepted – `C43_newline_accepted`.
* C44 `required_parts={'x': True}` accepts a blank part – `C44_required_blank`; the HTTP rules say 'schema' where the part is named 'scheme' – see `C44_http_accepts`.
* C46, C47 `setdefault` hides inherited values, `pop` on an instance reaches the class, declarations shared between classes leak –
  `C46_setdefault_hides_inherited`, `C46_instance_setdefault_after_delete`, `C47_instance_pop_reaches_class`, `C47_shared_declaration_leaks`.
* C48 Form inheritance differs from Python's MRO in a diamond – `C48_diamond_differs`.
* C49 `with_properties` on a class with a plain dict changes the original – `C49_plain_dict_leaks`.
* C50 calling a base class's `__compound_init__` sets the flag early; a class that instantiates itself there deadlocks or recurses –
  `C50_base_init_early`, `C50_self_instantiation`.
* C51 DateYYYYMMDD.set of anything that is no date keeps going silently – `C51_set_other`.
* C52 falsy members that are no text are pruned, an unpruned empty text has one member, `set(None)` raises – `C52_zero_pruned`, `C52_empty_unpruned`, `C52_none_raises`.
* C53 a Ref remembers its target for ever – `C53_stale`.
* C54 contents and attribute names go out unescaped – `C54_contents_raw`, `C54_names_raw`.
* C55 `Generator.set` is not atomic – `C55_set_not_atomic`.
* C59 a label of a checkbox or radio does not point at it, ids can collide, names are not sanitized – `C59_box_label`, `C59_collision`, `C59_name_raw`.
* C53 a form with a Ref that is not writable raises TypeError when the Ref's name is submitted – `C53_form_raises` – and when it is set to its own value – `C53_form_own_value`.
* C60 a sequence as state raises TypeError – `C60_sequence_state_raises`.
* C65 a control with a value of its own, and password fields, do not submit the element – `C65_own_value`, `C65_password`.
* C66 NANPphone with extensions kept raises TypeError (`C66_phone`), loses leading zeros of non-ASCII digits (`C66_phone_other_digits`); NANPnxx has no upper bound (`C66_nxx_unbounded`); Luhn10 never ends on a negative number and accepts the empty text (`C66_luhn_negative`, `C66_luhn_other`); NANPnpa_nxx never returns a result (`C66_npa_nxx`).
* C67 an `open()` that raises leaves the tag open; closing an inner tag of the same name closes the outer one – `C67_failed_open_stays`,
  `C67_inner_closes_outer`.
* C68 `tag('input')` is not `input()` in HTML, `tag('textarea')` is not `textarea()` in XML – `C68_not_equivalent`.
* C70 a `form:with` in which something raises keeps its options in effect (`C70_with_leaks`); an option with a switch inside a bound select
  raises ValueError (`C70_switched_option`); Markup inside a bound tag is escaped again (`C70_safe_text_lost`); an expression that gives a stream
  as contents of a bound tag raises TypeError (`C70_stream_contents`).
* C64 `array[i] = element` sets no parent, sharing an element, a slice assignment that raises half-way, removed elements –
  `C64_item_assignment_unlinked`, `C64_shared_element`, `C64_failed_slice`, `C64_removed_keeps_parent`.
* C71 a card of a class that is not accepted makes `validate()` raise TypeError (the message function becomes a bound method and is called with one argument too
  many); the message would name the last of three classes twice; validators given to the class are ignored – `C71_refused_raises`,
  `C71_text_repeats_last`, `C71_class_validators_ignored`.

* C73 `flatland.util` announces `decorator` and `format_argspec_plus`, which base.py does not define: reading them raises AttributeError and
  `from flatland.util import *` fails (`C73_util_missing`, `C73_util_star_fails`).  A submodule with the name of a member makes the name depend on
  what was imported first (`C73_clash`), and a member named like its own submodule never ends (`C73_own_name`).

* C42 the plain `MapEqual` (its `transform` is a lambda on the class) raises TypeError whenever its fields can be found (`C42_function_on_class`); an
  unlabelled field other than the last makes a mismatch raise TypeError (`C42_message`).
* C44 `allowed_schemes = ['*']` (a list) is not the wildcard `('*',)`: it is `.only [['*']]` in `C44_url_messages`.
* C53 a form with a non-writable Ref raises TypeError from `set_flat` as soon as the Ref's name is submitted (`C53_submitted`).
* C56 `generator.label` never fills in the label of the element, although its docstring says so (`C56_contents`).
* C62 `Dict.u`, and with it `==`, depends on the iteration order of the underlying dict (`C62_filling_order`).
* C75 an unnamed mapping given an iterator sets only its first field (`C75_first_field_only`, `C75_lost`).
* C76 required fields of a SparseDict that are not submitted are not there, hence not validated (`C76_sparse_not_required`).

* C78: `children_flattenable` is asked only of the element `flatten()` is called on (base.py:691-699), so that a JoinedString inside a form
  does list its members: `('tags', 'a,b'), ('tags', 'a'), ('tags', 'b')` (`C78_members_leak`). The docstring says that only the joined
  representation is considered. `dict(form.flatten())` therefore loses members.
* C78: a List of Compounds without a name cannot be restored from its flattened data: the Compound's own pair has the key `rows_0`, its
  Mapping part gets the key None and calls `None.startswith` (`C78_unnamed_compounds`).

* C83: an Array drops blank members (`prune_empty`), but not as a member of a List when neither it nor its members have names: the List
  hands on the key None, and containers.py:658-661 compares it with `u''` (`C83_unnamed_array_keeps_blanks`).
* C83: spaces for a String in a pruning List make a blank member (the submitted text is not empty, the adapted one is), which is dropped only when
  the form is sent back (`C83_rounds_needed`).
* C84: URLCanonicalizer assigns `element.value` only (network.py:338), so `u`, and with it what is shown and sent back, stays the URL as entered
  (`C84_canonical_text`, `C84_text_stays`); NANPnxx assigns `u` only, NANPphone calls `set`.
* C85: Decimal's text goes through a float (`u'%f' % value`, scalars.py:266-267). More than six places are lost (`C85_decimal_lost`: 0.1234567 comes back as
  0.123457), and from 8589934592 on also six: 8589934592.000001 comes back as 8589934592.000002 (`C85_decimal_large_negated`).
* C85: `native < 0` is outside the `try` (scalars.py:248-254), so an unsigned Decimal field raises decimal.InvalidOperation when NaN is submitted; a signed
  one raises ValueError for sNaN, in `serialize`, when the value has already been changed (`C85_decimal_set`, cases `notComparable`, `notShowable`).
* C88: `JoinedString.using(default='a,b').from_defaults()` is 'a,,,b': JoinedString inherits `set_default` from Sequence (containers.py:265-269), which
  extends by the items of the default, so a text is taken apart into characters (`C88_joined_text_default`).
* C88: a form with a blank DateYYYYMMDD cannot take its own value back with True: None has no year, and the AttributeError makes `set` return False
  (compound.py:167-178, 235-244; `C88_date_keeps`, second part).
* C89: Sequence.set catches TypeError (containers.py:258-261), also the one that a strict SparseDict in it raises for a missing field (containers.py:1006-1013);
  a List of strict SparseDicts one of which lacks a field comes back from its own value empty, and `set` only says False (`C89_list_lost`).
* C91: a path with `..` cannot leave a field of an incomplete DateYYYYMMDD: paths.py tests the parent for truth, not for None (`C91_up`, second part); a Boolean with
  `true = ''` is false although its value is True (`C91_not_shown`).
* C92: relative paths stop working inside a Compound or JoinedString that is not filled in: `..` stays at the child, silently, also for a strict lookup
  (paths.py:66-68, `C92_stuck`).
* C93: a DateYYYYMMDD with parts that make no date is valid unless it has a validator such as `Converted` (`C93_date`).
* C95: a list of pairs that names a DateYYYYMMDD twice, the second time with None, leaves the first value there and `set` returns False: setting a date to
  None changes nothing (compound.py:167-178, 235-244; `C95_repeated_none`). Model/RichValues.lean (C88) leaves this case out.

Noticed while reading, *not modelled*:

* `List.sort()` without a key raises TypeError on Python 3 (slots have no order).
