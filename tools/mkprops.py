#!/usr/bin/env python3
"""Writes /verif/properties.jsonl from the table below (one JSON object per line)."""
import json, os
P = []
def p(title, statement, quantifier, why, *anchors):
    P.append(dict(id="C%02d" % (len(P)+1), title=title, statement=statement,
                  quantifier=quantifier, why_tests_cant=why, anchors=list(anchors)))

# ---------------------------------------------------------------- scalars
p("Scalar.set keeps .value and .u in tandem and reports success honestly",
  "After el.set(x) on any scalar whose adapt/serialize only fail with AdaptationError: el.raw is x; if adaptation succeeded, set returns True, el.value is the adapted value and el.u is its serialization ('' when the value is None); if it failed, set returns False, el.value is None and el.u is the text of x ('' for None). The resulting (value, u, raw) does not depend on anything set before. Any other exception escapes from set.",
  "every scalar type (arbitrary adapt/serialize), every previous element state, every input value, every history of set calls",
  "The claim ranges over all user-written adapt/serialize pairs and all set histories; tests sample a few types and values.",
  "flatland/schema/scalars.py:Scalar.set", "flatland/schema/scalars.py:Scalar.adapt")
p("Text round trip of the built-in scalar types",
  "For String, Integer, Boolean, Enum-of-those, Date, Time and DateTime elements: after el.set(x), calling el.set(el.u) leaves el.u unchanged, and leaves el.value unchanged as well unless el is a String whose value is None (it becomes u'') or the value carried sub-second precision or was a datetime stored in a Date (serialization drops it). When x is rejected its printed form stays in el.u, and el.set(el.u) is rejected too, for every number, truth value, date, time, list and dict x (for a constrained Boolean provided the literal that x prints as, if it is one, stands for the truth value of x).",
  "every text or native input x, all strip / signed / padding-format / synonym / valid_values configurations that are self-consistent",
  "Infinite input domain (all strings incl. Unicode digits, signs, padding, whitespace; all integers and dates).",
  "flatland/schema/scalars.py:String", "flatland/schema/scalars.py:Integer", "flatland/schema/scalars.py:Boolean", "flatland/schema/scalars.py:Enum", "flatland/schema/scalars.py:Temporal")
p("Calendar safety of temporal scalars",
  "Date/Time/DateTime.set(text) succeeds exactly for text (after optional stripping) of the documented fixed-width form whose numbers denote a real calendar date / clock time, and then value is that date/time; every valid date and time is accepted in its own serialized form; the year, month, day recovered are the ones written.",
  "every text, every valid date/time (leap years included)",
  "Calendar arithmetic over all years, plus all malformed strings.",
  "flatland/schema/scalars.py:Temporal.adapt", "flatland/schema/scalars.py:DateTime", "flatland/schema/scalars.py:Date", "flatland/schema/scalars.py:Time")
p("Constrained and Enum elements never hold a value outside their domain",
  "Whatever sequence of set calls is made, an Enum's value is None or (==) one of valid_values, and a set call returns True for a non-None input only when the adapted input is in valid_values; likewise for Constrained with an arbitrary valid_value predicate.",
  "every history of set calls with arbitrary inputs, every child type and predicate",
  "Invariant over unbounded histories and arbitrary user predicates.",
  "flatland/schema/scalars.py:Constrained", "flatland/schema/scalars.py:Enum")
p("Unsigned numbers are never negative; integers parse exactly",
  "Integer.set(text) succeeds exactly when text (whitespace-trimmed) is an optionally signed non-empty digit string (and, if signed=False, denotes a non-negative number), and then value is the number denoted; with signed=False no sequence of sets ever leaves a negative value.",
  "every text and integer input, every history",
  "All strings / all integers.",
  "flatland/schema/scalars.py:Number.adapt", "flatland/schema/scalars.py:Integer")
p("Boolean text synonyms",
  "Boolean.set(text) yields True exactly for `true` or a true synonym, False exactly for `false` or a false synonym (and not a true one), otherwise fails with value None; bool(value) for native non-text input; serialization re-adapts to the same truth value whenever the `false` literal is not itself a true synonym.",
  "every text, every synonym configuration",
  "Arbitrary synonym tables and all strings.",
  "flatland/schema/scalars.py:Boolean")
p("Credit card numbers survive display formatting",
  "For every card number of 13, 15 or 16 or more digits, the displayed u, set back, yields the same number; adapting text either fails cleanly or yields the number spelt by the digits of the text; set never raises on text.",
  "every integer card number, every text",
  "All numbers / all strings; the crash needs a text of 15+ separators that no test contains.",
  "flatland/ext/creditcard.py:CreditCardNumber", "flatland/ext/creditcard.py:_from_string", "flatland/ext/creditcard.py:_pretty_print")
p("Credit card type detection",
  "A number is classed as Visa / MasterCard / American Express / Discover exactly according to its prefix and length (Visa: leading 4, 13 or 16 digits; MasterCard 51-55, 16; Amex 34/37, 15; Discover 6011, 16), the classes are mutually exclusive, and AcceptedType accepts exactly the accepted classes.",
  "every integer",
  "All integers; the regular expressions have lengths as boundaries.",
  "flatland/ext/creditcard.py:_card_type", "flatland/ext/creditcard.py:CreditCardNumber.AcceptedType")
# ---------------------------------------------------------------- flat
p("flatten / from_flat round trip",
  "For a schema tree of named scalars, Dicts, Lists and Arrays such that no sibling name extends another through the separator '_', schema.from_flat(el.flatten()) rebuilds an element equal to el (same structure, same u everywhere, same values for scalars whose text round-trips), provided Lists do not exceed maximum_set_flat_members and hold no pruned blanks; the same holds for any separator when set_flat(pairs, sep) is called on a fresh element.",
  "every schema tree of any depth, every element state, every separator",
  "Schemas and data are trees of unbounded depth and width; name collisions appear only for particular name/separator combinations.",
  "flatland/schema/base.py:Element.flatten", "flatland/schema/base.py:Element.set_flat", "flatland/schema/base.py:Element.from_flat", "flatland/schema/containers.py:List._set_flat", "flatland/schema/containers.py:Mapping._set_flat", "flatland/schema/containers.py:Array._set_flat")
p("Order of submitted pairs does not matter",
  "from_flat gives the same element for any reordering of the flattened pairs that keeps, for each key, the relative order of its values (so neither dict iteration order nor browser submission order of distinct fields matters). More generally any two submissions in which each key has the same values in the same order have the same outcome on any element, exceptions included, when every index is written without superfluous zeros, keys end in neither the separator nor a newline, and each Array has one key for its members.",
  "every schema, element and reordering",
  "All permutations.",
  "flatland/schema/base.py:Element.set_flat", "flatland/schema/containers.py:List._set_flat")
p("Unrelated form keys are ignored",
  "Pairs whose key is not the element's flattened name nor extends it through the separator have no effect on set_flat for named containers and scalars: adding or removing them anywhere in the submission leaves the result unchanged.",
  "every schema, every pair list, every interleaving of foreign keys",
  "Non-interference over all submissions.",
  "flatland/schema/base.py:Element._set_flat", "flatland/schema/containers.py:Mapping._set_flat", "flatland/schema/containers.py:List._set_flat", "flatland/schema/containers.py:Array._set_flat")
p("set_flat never raises on hostile submissions",
  "Element.set_flat on a list of (text, text) pairs terminates without an exception, whatever the keys and values are.",
  "every schema of scalars, Dicts, Lists and Arrays, every pair list",
  "Attacker-controlled input; a crashing key shape is easy to miss.",
  "flatland/schema/base.py:Element.set_flat", "flatland/schema/containers.py:List._set_flat", "flatland/schema/containers.py:Mapping._set_flat")
p("A List never grows past maximum_set_flat_members from flat data",
  "After set_flat, a List has at most maximum_set_flat_members members whatever indexes are submitted, for both prune_empty settings; with prune_empty its members are exactly the submitted indexes in increasing order that carry a non-empty value, truncated; without pruning it has min(largest submitted index + 1, maximum_set_flat_members) members. So in a whole form, whatever is submitted, no List at any depth becomes longer than its class allows.",
  "every pair list, every maximum, both prune settings",
  "Denial-of-service guard over all inputs.",
  "flatland/schema/containers.py:List._set_flat")
p("Flattened names identify elements",
  "Within one tree, two different scalar elements not members of the same Array have different flattened names, when sibling names do not extend one another through the separator.",
  "every schema tree and element state",
  "Collisions depend on unbounded combinations of names.",
  "flatland/schema/base.py:Element.flattened_name", "flatland/schema/base.py:Element.flatten")
p("set_flat leaves absent Dict fields alone and replaces sequences",
  "Dict.set_flat changes only fields whose name prefixes a submitted key (others keep their prior state); List and Array set_flat replace the former content entirely, an Array by one member for every submitted pair under its key, in order; SparseDict.set_flat yields only fields mentioned by a key (or required).",
  "every prior state and pair list",
  "State-dependent, all submissions.",
  "flatland/schema/containers.py:Mapping._set_flat", "flatland/schema/containers.py:SparseDict._set_flat")
# ---------------------------------------------------------------- names/paths
p("el(fq_name()) finds the element itself",
  "For every element of a tree of named Dicts, Lists and scalars, root.el(element.fq_name()) is that element. (Members of an Array have no path of their own and are excluded.)",
  "every element position in every tree, every separator not occurring in names",
  "All positions in all trees; fails for Array members and names with the separator.",
  "flatland/schema/base.py:Element.fq_name", "flatland/schema/base.py:Element.el")
p("Path escaping round trip",
  "A path written as '/' followed by element names joined with '/', each with '/', '.', '[' and ']' backslash-escaped, tokenizes to TOP followed by exactly those names.",
  "every list of non-empty names over all characters (only the last name may end in a backslash)",
  "All strings; escapes interact with the regular expression.",
  "flatland/schema/paths.py:tokenize", "flatland/schema/paths.py:_tokenize_re")
p("find() evaluates a path compositionally",
  "find(path) equals the result of walking its steps from left to right: names and indexes select a child, '..' the parent, '/' the root, '[a:b:c]' all children selected by the Python slice, each of the remaining steps being applied to each selected child in order; non-strict lookups drop failing branches, strict lookups raise LookupError exactly when some branch fails.",
  "every operation list, every element graph",
  "Unbounded worklist algorithm; nested slices.",
  "flatland/schema/paths.py:PathExpression.__call__", "flatland/schema/base.py:Element.find")
p("Slice syntax means what Python slices mean",
  "'[i]', '[a:b]' and '[a:b:c]' select the children seq[i:i+1] (seq[-1:] for -1), seq[a:b], seq[a:b:c].",
  "every spelling of integers for i, a, b, c",
  "All integers; zero is special.",
  "flatland/schema/paths.py:_parse_slice")
p("Path simplification preserves meaning",
  "Removing '.' steps and cancelling 'name/..' pairs before evaluation does not change the result of a lookup on elements where the named child exists and is a child of the element it was found on.",
  "every path, every element graph",
  "All paths.",
  "flatland/schema/paths.py:_canonicalize")
p("The path cache is transparent",
  "pathexpr(path) returns the same compiled expression semantics regardless of which paths were compiled before, including after the cache is full, and whatever other threads are looking up meanwhile.",
  "every history of lookups, every schedule of any number of threads",
  "History dependent: needs more than 1024 distinct paths.",
  "flatland/schema/paths.py:pathexpr")
p("find(single=True) contract",
  "With single=True, find returns the only match, None when nothing matched, raises LookupError when strict and more than one element matched, and otherwise returns one of the matches.",
  "every match list, strict or not",
  "All result sizes.",
  "flatland/schema/base.py:Element.find")
p("all_children enumerates each descendant exactly once, parents first",
  "el.all_children yields every proper descendant once, level by level, and never el itself, whichever element of a form el is; the fields of a Compound and the members of a JoinedString are descendants too.",
  "every tree",
  "Trees of unbounded depth.",
  "flatland/schema/base.py:Element.all_children")
# ---------------------------------------------------------------- sequences
p("List members are always numbered by position",
  "After any sequence of append, extend, insert, item and slice assignment, item deletion, pop, remove, sort, reverse, set and set_flat, member i of a List has flattened index i and the member is found by child lookup 'i' (the exception, shown separately, is a sort whose comparison raises half-way, and `+=`, which bypasses the numbering).",
  "every sequence of list operations with any (negative, out of range) indexes",
  "Invariant over unbounded histories.",
  "flatland/schema/containers.py:List", "flatland/schema/containers.py:List._renumber", "flatland/schema/containers.py:Sequence")
p("List operations act like Python list operations on the member values",
  "append/extend/insert/__setitem__/__delitem__/pop/remove/reverse/sort on a List change its sequence of members exactly as the same operation changes a Python list (including negative and out of range indexes and the exceptions raised, leaving the List unchanged on IndexError/ValueError); an argument no member can be made of raises and changes nothing, except that extend keeps the members made before it. The list operations meant are Python's, as documented: an index below zero counts from the end, insert clips it, a slice is the members at start, start+step, … before stop, and remove takes the first equal member.",
  "every list state, every operation and index",
  "Refinement over all states.",
  "flatland/schema/containers.py:List", "flatland/schema/containers.py:Sequence")
p("Sequence.set replaces content and reports success",
  "Sequence.set(iterable) makes the members exactly the adapted items in order and returns True iff every member's set succeeded and the input is iterable; on a non-iterable it returns False leaving the sequence empty.",
  "every input",
  "All inputs.",
  "flatland/schema/containers.py:Sequence.set")
p("MultiValue behaves as its first member",
  "MultiValue's u and value are those of its first member ('' and None when empty); assignment to them sets the first member, creating it if needed.",
  "every state",
  "All states and histories.",
  "flatland/schema/containers.py:MultiValue")
# ---------------------------------------------------------------- mappings
p("A Dict's keys never change",
  "Whatever public operations are applied (item assignment, deletion, pop, popitem, clear, update, setdefault, set, set_flat, set_default), successful or failing, the key set of a Dict equals its schema's field names.",
  "every history of operations with arbitrary keys and values",
  "Invariant over unbounded histories, including failing operations.",
  "flatland/schema/containers.py:Mapping", "flatland/schema/containers.py:Dict")
p("A SparseDict's keys stay within the schema and keep the required ones",
  "Whatever public operations are applied, the keys of a SparseDict are a subset of the schema's field names; with minimum_fields='required' every non-optional field stays present, as long as instances supplied for a field are no more optional than the field.",
  "every history of operations",
  "Invariant over unbounded histories.",
  "flatland/schema/containers.py:SparseDict")
p("Dict.set honours its policy",
  "Dict.set with policy 'duck' ignores unknown keys, with 'subset' raises KeyError for unknown keys, with 'strict' additionally raises TypeError for missing keys; when it returns, every supplied known key has been set to its value, every other field is reset to its initial state, and the return value is True iff every child's set succeeded.",
  "every mapping or pair list, every policy",
  "All key sets.",
  "flatland/schema/containers.py:Dict.set")
p("Dict.slice / set_by_object move exactly the selected keys",
  "keyslice_pairs(pairs, include, omit, rename, key) yields exactly the pairs selected, in their original order: renamed pairs under their new names, included ones, or all except the omitted ones, each under key(name); nothing else. set_by_object passes exactly the selected attributes to the fields of those names; where a name is both omitted and renamed, omit wins.",
  "every pair list and selection",
  "All combinations of include/omit/rename.",
  "flatland/util/base.py:keyslice_pairs", "flatland/schema/containers.py:Dict.slice", "flatland/schema/containers.py:Dict.set_by_object")
p("Defaults",
  "set_default on a Scalar / Dict / List / Array makes the element hold exactly its declared default (or the children's defaults), independent of the previous content; a List or Array whose default is None or undeclared is left as it was.",
  "every schema tree and prior state",
  "All trees.",
  "flatland/schema/scalars.py:Scalar.set_default", "flatland/schema/containers.py:Sequence.set_default", "flatland/schema/containers.py:List.set_default", "flatland/schema/containers.py:Mapping.set_default")
p("set(el.value) reproduces the element",
  "For trees of named Dicts, Lists and scalars whose native values re-adapt to themselves (and strict SparseDicts that are complete), creating a new element of the same schema with el.value gives an element with the same value and the same u throughout.",
  "every schema tree and element state",
  "Trees of unbounded depth.",
  "flatland/schema/containers.py:Sequence.set", "flatland/schema/containers.py:Dict.set", "flatland/schema/scalars.py:Scalar.set")
# ---------------------------------------------------------------- validation
p("validate() is the conjunction of its parts",
  "el.validate(recurse=True) returns True iff no visited element got a false result on the way down or up; after it, when no SkipAll was returned and validators leave the valid flag alone, all_valid is True iff the return value is True; every element is visited once on the way down (parents first) and once on the way up (children first). A false result that is not an int (None aside) makes validate raise TypeError exactly if no false result came before it; nothing else makes validate raise but an exception of a validator.",
  "every tree, every validator behaviour",
  "Arbitrary validators over unbounded trees.",
  "flatland/schema/base.py:Element.validate", "flatland/schema/base.py:Element.all_valid")
p("SkipAll / SkipAllFalse prune exactly the descendants",
  "When an element's descent result is SkipAll or SkipAllFalse, none of its descendants are validated and all other elements are validated as usual; the element itself counts as valid / invalid respectively.",
  "every tree, every validator behaviour",
  "Arbitrary placement in unbounded trees.",
  "flatland/schema/base.py:Element.validate")
p("Per-element validation chain",
  "Validators run in order until the first false, Skip, SkipAll or SkipAllFalse result; a false result (or SkipAllFalse) makes the element invalid, all-true or Skip/SkipAll makes it valid; None counts as false; an optional empty element is valid without running any validator; each executed validator emits exactly one signal.",
  "every validator list and every result sequence",
  "Arbitrary lists of validators.",
  "flatland/schema/base.py:validate_element", "flatland/schema/base.py:Element._validate")
p("Validation leaves no stale results",
  "validate() called twice in a row with deterministic validators that do not modify the data returns the same result and leaves the same valid flags; errors are never listed twice on an element.",
  "every tree and deterministic validators",
  "Two-run property over all trees.",
  "flatland/schema/base.py:Element.validate", "flatland/schema/base.py:Element.add_error")
p("all_valid assignment",
  "Setting el.all_valid = b marks el and every descendant, and reading all_valid then yields b; reading all_valid is True iff every element of the subtree is valid. Elements of the form outside the subtree keep their marks.",
  "every tree",
  "Trees of unbounded depth.",
  "flatland/schema/base.py:Element.all_valid")
p("including_validators splices",
  "including_validators(*new, position=p) yields a class whose validators are the old list with the new ones inserted consecutively in order, at p (append for -1, before the |p|-1 last ones for other negatives down to -(len+1)), leaving the original class unchanged.",
  "every validator list, every new list, every position in range",
  "All lengths and positions.",
  "flatland/schema/base.py:Element.including_validators")
p("Ordering and membership validators decide exactly their relation",
  "ValueLessThan/AtMost/GreaterThan/AtLeast/Between, ShorterThan, LongerThan, LengthBetween, HasAtLeast/AtMost/Between, ValueIn, Present, IsTrue/IsFalse, Converted return True exactly when the element's value/length/count satisfies the documented relation and otherwise add exactly one error; an incomparable value raises TypeError and adds none.",
  "every element value and every bound",
  "All values and bounds; boundaries.",
  "flatland/validation/scalars.py", "flatland/validation/containers.py")
p("NotDuplicated flags exactly the repeats",
  "With NotDuplicated as a validator of the members of a container, the members that get an error are exactly those equal (per comparator) to an earlier member, so all members are valid iff no two are equal.",
  "every container content and equivalence comparator",
  "All sequences.",
  "flatland/validation/containers.py:NotDuplicated")
p("Field equality validators",
  "ValuesEqual/UnisEqual accept iff all named fields have the same value/u (all pairwise equal), for any number of field paths.",
  "every number of fields and values",
  "All lists of values.",
  "flatland/validation/scalars.py:MapEqual", "flatland/validation/scalars.py:ValuesEqual")
p("E-mail validator",
  "IsEmail accepts exactly texts with a single @, a non-blank local part and a domain of at most 253 characters made of dot-separated labels of 1-63 letters/digits/hyphens (one trailing newline is tolerated), with at least two labels when non_local.",
  "every text (IDNA encoding taken as an arbitrary function)",
  "All strings.",
  "flatland/validation/network.py:IsEmail")
p("URL part rules",
  "URLValidator / HTTPURLValidator accept a parsed URL iff scheme and parts satisfy the allowed / required / forbidden rules as tabulated (a required rule of True only asks that the part is not None, so a blank part passes it); URLCanonicalizer clears exactly the discarded parts, and raises ValueError for a part name it does not know.",
  "every parse result and every rule table",
  "All combinations.",
  "flatland/validation/network.py")
p("Luhn check",
  "luhn10(n) terminates and is True exactly when the Luhn-weighted digit sum of n is divisible by 10; changing any single digit of a valid number makes it invalid.",
  "every number",
  "All integers of any length.",
  "flatland/util/base.py:luhn10", "flatland/validation/number.py:Luhn10")
# ---------------------------------------------------------------- properties, classes, forms
p("Property inheritance",
  "Reading Class.properties[k] gives the value from the most derived class in the MRO that set or deleted k (deleted: KeyError); instance properties overlay their class; keys, items, values, get, copy, truth and membership agree with indexing. (setdefault on an inherited key is the exception, shown separately.)",
  "every class hierarchy (MRO) sharing one Properties declaration and every history of property writes/deletes",
  "Histories over arbitrary hierarchies.",
  "flatland/schema/properties.py:_TypeLookup", "flatland/schema/properties.py:_InstanceLookup")
p("Property writes are isolated",
  "Writing or deleting through a class never changes what its superclasses or unrelated classes see; writing or deleting through an instance never changes its class or other instances, with the exception of pop on an instance, shown separately.",
  "every hierarchy whose classes do not share one Properties object by assignment, and every history",
  "Non-interference over all histories.",
  "flatland/schema/properties.py:_TypeLookup", "flatland/schema/properties.py:_InstanceLookup")
p("Declarative field inheritance",
  "A Form/declarative schema class has exactly one field per name; own attribute declarations override own field_schema entries, which override base classes', bases being taken in the order they are listed (not in MRO order); nothing else appears.",
  "every tuple of bases and declarations",
  "All combinations of bases.",
  "flatland/schema/forms.py:_MetaForm", "flatland/schema/forms.py:_ElementCollection")
p("Schema constructors do not modify the class they are called on",
  "named/using/of/validated_by/including_validators/with_properties return a new class; every attribute of the original and of all other classes reads as before (with_properties: for properties declared through Properties, not a plain dict).",
  "every chain of constructors",
  "Histories of constructor calls.",
  "flatland/util/base.py:class_cloner", "flatland/schema/base.py:Element.using")
p("Compound initialization happens once under concurrency",
  "However threads interleave while instantiating a Compound class, __compound_init__ runs exactly once per class and no instance is constructed before it has completed, for __compound_init__ implementations that neither call a base class implementation nor instantiate their own class.",
  "every number of threads, every interleaving",
  "Schedules cannot be enumerated by tests.",
  "flatland/schema/compound.py:_MetaCompound")
# ---------------------------------------------------------------- compounds
p("Compound date round trip",
  "DateYYYYMMDD.set(date) makes the three children hold year, month and day and value the same date; for child values forming a valid date, value is that date and u its ISO text, otherwise value is None and u ''; set never raises; text that is no date clears all three children. Children of other classes are set one after the other: True and False count as 1 and 0, an AdaptationError or TypeError of one clears all of them, NotImplementedError escapes and any other exception makes set return False and leaves the later children alone.",
  "every date, every child assignment",
  "All dates and partial states.",
  "flatland/schema/compound.py:DateYYYYMMDD", "flatland/schema/compound.py:Compound.set")
p("JoinedString split/join",
  "For a non-empty list of member texts containing no separator (and each non-empty if pruning), JoinedString.set(list).value is the joined text and setting that text gives back the same members.",
  "every list of member texts, every separator",
  "All lists and separators.",
  "flatland/schema/compound.py:JoinedString")
p("Ref mirrors its target",
  "A Ref's value and u always equal those of the element it resolved to, as long as that element stays in place; set writes value and u through when writable, is silently ignored when 'ignore' and raises TypeError when not writable, in the last two cases without touching the target. A submission naming the Ref is treated likewise. A Ref to a Ref, and so on, shows the element at the end, and the first of them that is not writable decides what setting it does. A form with Refs ignores what is submitted for those that ignore writes, and raises TypeError if one that is not writable is named; a writable Ref after its target has the last word. What the form flattens to does not name its Refs and can always be submitted; its value names them, and can be set again if all of them ignore writes, but not if one is not writable.",
  "every history of writes to Ref and target",
  "Histories.",
  "flatland/schema/scalars.py:Ref")
# ---------------------------------------------------------------- out
p("Generated attributes are injection-safe",
  "Attribute values and element text rendered by the markup generator contain no raw quote or angle bracket, every ampersand starts an entity, and unescaping gives the original text back; reading a rendered tag back gives exactly its attributes. (Attribute names, `contents` given by the caller and objects with __html__ are passed through unescaped.)",
  "every text",
  "All strings.",
  "flatland/out/markup.py:_attribute_escape", "flatland/out/generic.py:_markup_escape", "flatland/schema/base.py:Element.xa")
p("Generator option scopes nest",
  "begin()/end() and push/pop restore exactly the previous option values; a failing begin (unknown option) leaves the options unchanged; options of an outer scope are visible unless overridden; the base scope cannot be popped. A new generator has the settings it was made with and the documented defaults otherwise. Reading an option gives what is in effect and raises for what is no option, and an option assigned is read back with the others unchanged. (set() with an unknown option may have applied the options before it.)",
  "every nesting and sequence of operations",
  "Histories.",
  "flatland/out/generic.py:Context", "flatland/out/markup.py:Generator")
p("auto_* switches never leak and override context",
  "After transforms no auto_* control attribute remains in the output; explicit on/off overrides the context option, 'auto' defers to it; an attribute is only added when on, and never replaces an existing attribute unless forced.",
  "every attribute set, tag and context",
  "All combinations.",
  "flatland/out/generic.py:transform", "flatland/out/generic.py:_pop_toggle")
p("Tab indexes are consecutive",
  "Over any sequence of rendered tags within one scope, those which receive an automatic tabindex get consecutive numbers starting from the configured value; a negative tabindex stays put and 0 emits none.",
  "every sequence of tags",
  "Histories.",
  "flatland/out/generic.py:transform_tabindex")
p("checked / selected reflect the element",
  "With auto_value on, a checkbox or radio or option is marked exactly when its value attribute matches the bound element (membership for sequences, equality of u otherwise), and a mark already there is removed when it does not match.",
  "every element state and attribute set",
  "All combinations.",
  "flatland/out/generic.py:transform_value")
p("Generated DOM ids are valid and stable",
  "The automatic DOM id is the format applied to the element's name, followed for radio and checkbox by a value suffix made only of characters allowed by the sanitizer; `for` of a label equals the `id` of its control when both are automatic and the control takes no value suffix.",
  "every name and value",
  "All strings.",
  "flatland/out/generic.py:_generate_raw_domid", "flatland/out/generic.py:_sanitize_domid_suffix")
p("Error message expansion",
  "Messages are expanded with the element/validator/state-provided keys (state being None, a mapping or an object with attributes); plural forms pick the form for the count, or leave the choice to ungettext, which gets both forms and the count, the value itself if it is no number, or the key if it is unknown; with ugettext, the form and the values of keys are translated; unknown keys raise rather than silently vanish, and so does a lookup that fails otherwise; each note_error adds exactly one message once.",
  "every message, element and state",
  "All combinations.",
  "flatland/validation/base.py:Validator.expand_message", "flatland/validation/base.py:Validator.note_error")
p("Three-valued Maybe logic",
  "parse_trool is idempotent and case-insensitive; Maybe absorbs in and/or/not as a ternary truth value, True/False behave classically.",
  "all operand combinations",
  "Exhaustive algebraic laws over all operands.",
  "flatland/util/base.py:Maybe", "flatland/out/util.py:parse_trool")
p("Element equality",
  "== between elements is an equivalence relation that compares value and u only, which for a container are made of the values and texts of the fields or members it has, in order (a dict or a list; `{name: text, ...}` or `[text, ...]`, names and scalars' texts quoted); Sequence index/count/remove/in agree with it for elements and raw values.",
  "all element triples",
  "All elements.",
  "flatland/schema/base.py:Element.__eq__", "flatland/schema/containers.py:Sequence")

p("Attribute order of generated markup",
  "With ordered_attributes on, the text of a rendered tag does not depend on the order in which the attributes were given; the attributes appear as type, name, value, then the others by name. With it off they appear in the order of the mapping.",
  "every tag, bound element, context and attribute set",
  "All permutations of all attribute sets.",
  "flatland/out/markup.py:Tag._open", "flatland/out/markup.py:_attribute_sort_key")

p("Parents and members agree",
  "After any history of creating elements, set, append, extend, insert, slice assignment, deletion, pop, remove, reverse, sort and mapping assignment, successful or raising: every member of a container has that container as its parent (a List member through its slot), an element is a member of at most one container and only once, and parents/root follow exactly the containers that hold it, provided elements handed in as members are in no other container at the time. An operation changes neither the parent of elements not handed to it nor the members of other containers; what leaves a container may be added elsewhere; seq[:] may be given the sequence's own members. Deletion, pop, reverse, sort and item assignment do to the members what they do to a Python list. Exceptions: seq[i] = element on an Array sets no parent, an element put into two containers knows only the last, a slice assignment of own members that raises half-way detaches them, and an element taken out keeps its former parent.",
  "every history of operations on any number of elements",
  "Histories and aliasing: all interleavings of operations on all heaps.",
  "flatland/schema/base.py:Element.parents", "flatland/schema/containers.py:Sequence", "flatland/schema/containers.py:List", "flatland/schema/containers.py:SparseDict")

p("A rendered form submits the form",
  "A page that renders inputs, textareas, checkboxes and radio buttons for elements through the markup generator, with other tags in between and names and values switched on, submits - read by a browser that takes the names and values as written - for each text control the flattened name and the text of its element, and for each checkbox or radio button its value exactly when the element has it. So submitting a page that shows all scalars of an element, in any order, and passing the pairs to from_flat gives an equal element; for a form with Compounds and JoinedStrings a page with controls for its scalars and JoinedStrings is enough, and gives the form of C87. A page of text controls can always be rendered. Controls given a value of their own, and password, file and image inputs, are excepted.",
  "every schema, element, page, bound text (including markup characters) and generator options with names and values on",
  "All texts, trees, pages and option settings; escaping, naming and flattening must fit together.",
  "flatland/out/markup.py:Tag.__call__", "flatland/out/generic.py:transform", "flatland/schema/base.py:Element.from_flat", "flatland/schema/base.py:Element.flatten")

p("Phone numbers, exchange codes and check digits",
  "NANPphone looks at the digits of the text only (leading zeros do not count if some digit is not an ASCII one): fewer than ten are an error; ten are rewritten as (ddd) ddd-dddd with the same digits in the same order, as value and as text; with more the extensions setting decides (an error, or the first ten). Validating a rewritten number again changes nothing. NANPnxx accepts an integer exactly if it is at least 200 and not a reserved code, and then rewrites the text in decimal. Luhn10 ends on every non-negative number and notes an error exactly if the check digit is wrong.",
  "every text (any characters, any digits of any script), setting, element state and number",
  "All texts and numbers; the second validation depends on the result of the first.",
  "flatland/validation/string.py:NANPphone", "flatland/validation/number.py:NANPnxx", "flatland/validation/number.py:Luhn10", "flatland/validation/number.py:NANPnpa_nxx")

p("Opened and closed tags",
  "After any history of asking a generator for tags, opening, closing and outputting them and changing options, generator.name is the tag of that name opened last among those still open, and a new tag if none is. open(), contents, close() together give the text of calling the tag (unless it is an empty tag that is written without a closing tag), with the same effect on options and the same exceptions. A template whose opens and closes nest outputs properly nested markup and leaves no tag open.",
  "every history of tag operations; every template, nesting depth, bound element, attribute set and option setting",
  "Histories of operations on shared tag objects, and templates of any depth.",
  "flatland/out/markup.py:Generator._tag", "flatland/out/markup.py:Tag.open", "flatland/out/markup.py:Tag.close", "flatland/out/markup.py:Tag.__call__")

p("generator.tag is the tag of that name",
  "generator.tag(name, bind, **attributes) outputs the same as generator.name(bind, **attributes) for every tag the generator has a property for, and has the same effect on options.",
  "every tag name with a property in any letter case, bound element, attribute set, option setting and markup style",
  "All attributes, elements and settings.",
  "flatland/out/markup.py:Generator.tag", "flatland/out/markup.py:Generator._tag")

p("Symbols are singletons",
  "symbol(name) returns, in every thread and under every schedule, the one object of that name: two finished calls got the same object exactly if they gave the same name. Anything but a text raises (AssertionError, or TypeError if it cannot be hashed) and has no effect. Calls never deadlock, and the lock is free again after calls that raised.",
  "every number of threads, every list of calls of each, every schedule",
  "Schedules of concurrent calls.",
  "flatland/util/base.py:symbol", "flatland/util/base.py:_symbol")

p("Genshi directives",
  "In a Genshi template, form:bind and the form:auto-* switches do to a tag what the generator does: the tag keeps its name, end and namespaced attributes; its plain attributes, the switches and its contents are given to the same transforms as the generator's, and the attributes and contents these leave are what goes out, existing attributes in their places and new ones behind them in the generator's order. Contents that are not text are left alone; in a bound select every option that is not inside a binding of its own is bound to the same element, once. Directives of others take effect before flatland's whatever the order they are written in. form:with changes options for its contents only and restores them at its end, form:set for what follows; unknown options are refused. Rendering has one result.",
  "every template (tree of tags, text, expressions and directives), bound element, attribute set, switch and option setting",
  "All templates of any size and nesting, with any attributes and any directives in any order.",
  "flatland/out/genshi.py:_rewrite_stream", "flatland/out/genshi.py:_bind_unbound_tags", "flatland/out/genshi.py:_simplify_stream", "flatland/out/genshi.py:EvaluatedLast", "flatland/out/genshi.py:With", "flatland/out/genshi.py:Set")

p("Card number fields",
  "A card number field made without further arguments is valid exactly if something was entered, it could be read as a number, the number passes the check digit and its class is accepted. Otherwise validate() returns False and adds one message that says which of these failed: for a class that is not accepted, the text names the accepted ones. By default all but Discover are accepted. Validators given to the class or to the element replace these. An optional field left empty is valid.",
  "every text typed, value, list of accepted classes, label and list of earlier errors",
  "All texts and all numbers; every combination of the four checks.",
  "flatland/ext/creditcard.py:CreditCardNumber", "flatland/ext/creditcard.py:CreditCardNumber.AcceptedType", "flatland/validation/number.py:Luhn10", "flatland/schema/base.py:validate_element")

p("Attributes and labels",
  "An attribute of an element reads as what was assigned to the element last and not deleted since, else what was assigned to its class or the nearest base that has a value, else what is computed for it; an attribute of a class likewise. In particular the label is the element's own, else the class's, else the element's name, else the class's name, now and after every later change of any of these. Only a value of the element's own can be deleted; afterwards it reads as if never assigned. The constructor and using() refuse names that are no attribute with TypeError, and the constructor also the methods that make classes; what is refused changes nothing. A lazily computed attribute keeps its first value until assigned or deleted.",
  "every program of subclassing, construction with keywords, and reading, assigning and deleting of attributes of any elements and classes",
  "All histories of changes, over any number of classes and elements.",
  "flatland/util/base.py:assignable_class_property", "flatland/util/base.py:assignable_property", "flatland/util/base.py:class_cloner", "flatland/util/base.py:lazy_property", "flatland/schema/base.py:Element.label", "flatland/schema/base.py:Element.__init__", "flatland/schema/base.py:Element.using")

p("Names of a lazily loading package",
  "A name that a package with deferred submodules (flatland.util) announces stands for the same submodule or member, or raises the same error, whatever was accessed or imported before and in whatever order; other names raise AttributeError unless they are submodules imported already. No submodule is loaded before a name of it is accessed, and dir() lists all announced names, loaded or not, sorted and once each. from package import * gets every announced name, if the submodules define them, and leaves loaded what reading the names one after another loads; where a name raises, it stops there with that error. This is for packages in which no submodule has the name of an attribute.",
  "every package description, set of files and their imports, set of submodules loaded before, and program of accesses and imports",
  "All orders of accesses and imports, and all packages.",
  "flatland/util/deferred.py:deferred_module", "flatland/util/__init__.py")

p("Validating a whole form",
  "If none of the validators in an element tree raises, validate() on the root ends and returns True exactly if every element of the tree obeys its own validators: it is blank and optional, or all of its validators pass – or, if it has none, it is not blank – and, for a container, its descent validators pass. Afterwards each element is marked valid exactly if it obeys, whatever the other elements do. Each element's errors are those it had plus the message of the first of its validators that does not pass (and of the first such descent validator), appended without duplicates; a blank optional element gets none. Validating again changes neither result, flags nor messages. With the package's validators, the result is True exactly if every element that is not blank and optional meets all its documented requirements, and every new message is that of a requirement not met. validate() on an element within the form does the same for it and everything below it, whose validators may look at the rest of the form too, and leaves all other flags and messages as they were. After validate(), all_valid of every element says whether it and everything below it obey; on the root it is what validate() returned.",
  "all element trees (any nesting and size), all assignments of validators, messages and optional flags to their elements, all previous flags and messages",
  "Validity of a form depends on all its elements, their validators and the traversal at once.",
  "flatland/schema/base.py:Element.validate,Element._validate,validate_element", "flatland/schema/containers.py:Container._validate", "flatland/validation/base.py:Validator", "flatland/validation/scalars.py", "flatland/validation/containers.py")

p("Where the pairs of a submission come from",
  "set_flat and from_flat do the same with a list or tuple of pairs and with a dictionary of them, on every element. The same holds of an iterator such as a generator, except that a mapping without a name sets only its first field from it and loses what is said about the others.",
  "all schemas, element states, separators and submissions of any length; lists, dictionaries, iterators and objects whose items() is either",
  "All submissions and all shapes of forms.",
  "flatland/schema/base.py:Element.set_flat", "flatland/schema/containers.py:Mapping._set_flat", "flatland/schema/containers.py:List._set_flat", "flatland/schema/containers.py:Array._set_flat", "flatland/schema/scalars.py:Scalar._set_flat")

p("Submitted forms",
  "A field of a form, reached through any number of Dicts, is set from the first value submitted under its flattened name, and nothing else in a submission matters to it: without such a value it keeps its value and text. Hence a required field that is not submitted makes validate() False – if it has no validators or one of them rejects it blank – and so does a text the field's type cannot read if the field has Converted; the text is kept. For forms made of Dicts and scalars, validate() after from_flat is True exactly if what was submitted for each field meets all that field's requirements, or is blank and the field optional. (Required fields of a SparseDict that are not there are not asked for.)",
  "all nestings of Dicts, scalar types, separators, submissions of any length, assignments of validators and messages",
  "Depends on all keys of the submission, all fields and their validators at once.",
  "flatland/schema/base.py:Element.from_flat,Element.set_flat,Element.validate", "flatland/schema/containers.py:Mapping._set_flat,Container._validate", "flatland/schema/scalars.py:Scalar._set_flat", "flatland/validation/scalars.py:Converted,Present")

p("Calls that raise leave a usable element",
  "Whatever calls of set, set_flat and set_default are made on an element, with whatever arguments, and wherever within them an exception escapes, the element stays a proper element of its class: each Dict has children of its fields only, of the right classes, none missing that has to be there; members are of the member class. No List has more members after set_flat than it accepts. A later set does exactly what it does on a new element. A Dict's set_flat that raises has changed nothing or has stopped at a field: the ones before are updated, the ones after untouched. A List's leaves the members before the one it stopped at, and that one; an Array's the members of the pairs before; an Array of anything but scalars raises AssertionError at any set_flat and is left empty. A raising set of a List or Array leaves it empty; that of a Dict leaves it untouched if the argument cannot be iterated, and else as after setting the items before the one it stopped at. The child at which a call stopped is as that child's own call left it. A raising set_default leaves the fields before with their defaults, the one it stopped at as its own set_default left it and those after untouched (in a SparseDict new); a List with a number as default has then one member, half-way, other Lists none, an Array the members before.",
  "all schemas, sequences of calls of any length, arguments, scalar types (raising or not) and separators",
  "All points at which an exception can escape, in all trees, after all histories.",
  "flatland/schema/base.py:Element.set_flat", "flatland/schema/containers.py:Sequence.set,Sequence.set_default,List._set_flat,List.set_default,Array._set_flat,Mapping._set_flat,Mapping.set_default,Dict.set,SparseDict.set_default", "flatland/schema/scalars.py:Scalar.set")

p("Forms with compound fields and joined strings",
  "flatten() of an element tree with Compounds and JoinedStrings in it lists exactly these pairs, each once: key and text of every scalar, of every JoinedString, of every Compound besides its fields, and of the members of every JoinedString but the one flatten() is called on. Given to from_flat in that order, or in any other that keeps the values of each key in theirs, they give the same tree back, every scalar and every JoinedString set from its own text; neither the Compounds' own pairs nor those of JoinedStrings' members get in the way. This is for trees named as in C09 in which no List has Compounds without a name as its members: for such a List, from_flat of its flattened data raises AttributeError. Without the order, or as a dictionary, JoinedStrings may lose their members.",
  "all trees of Dicts, SparseDicts, Lists, Arrays, Compounds, JoinedStrings and scalars, any nesting and size, any compose function, separators",
  "All shapes of forms, all texts; the traversal order matters for which pair is used.",
  "flatland/schema/base.py:Element.flatten,Element.from_flat,Element.set_flat,Element.all_children", "flatland/schema/compound.py:Compound._set_flat,Compound.u", "flatland/schema/compound.py:JoinedString.flattenable,JoinedString.children_flattenable,JoinedString._set_flat,JoinedString.u", "flatland/schema/containers.py:Mapping._set_flat,List._set_flat")

p("Validation looks at the content of a form",
  "Validating a form depends on nothing but its content: names, structure, and text and value of every scalar. So a form that was flattened and built again from the pairs, or shown on a page and sent back unchanged, or built from the value of another, has the same result, flags and messages as the original. The validators that look around do so within the form: find() always ends, with the elements the path leads to; ValuesEqual and UnisEqual on any element pass iff the elements their paths lead to are equal, and note 'unequal' otherwise (a path that leads nowhere or to several elements raises LookupError, an empty slice AttributeError); NotDuplicated passes on a child of any container iff no earlier child equals it, and notes 'failure' otherwise, so in a valid form all such members that are not blank and optional are different.",
  "all forms of Dicts, SparseDicts, Lists, Arrays and scalars, all validators (those of the package that do not change the element, and any other that does not look at the raw input), all paths, all previous flags and messages",
  "All pairs of forms with the same content and all combinations of validators.",
  "flatland/schema/base.py:Element.validate,Element.find", "flatland/schema/paths.py:PathExpression.__call__", "flatland/validation/scalars.py:MapEqual.validate,ValuesEqual,UnisEqual", "flatland/validation/containers.py:NotDuplicated.validate", "flatland/schema/containers.py:ListSlot")

p("What a submitted form contains",
  "After from_flat, a form of Dicts, SparseDicts, Lists, Arrays and scalars contains exactly these parts: the fields a new Dict has or a submitted key leads to, and the rows of a List that a key leads to – with a value that is not empty if the List prunes, else up to the largest row number – in the order of their numbers, at most maximum_set_flat_members of them. Every part is what from_flat of its own class makes of the pairs that lead to it, in their order, with the rest of their keys. So a field in whatever row is set from the first value whose key leads to it – the names and row numbers joined is such a key – or is new. For forms without Arrays, validate() with the package's validators on the fields is True iff all fields of all these rows meet their requirements or are blank and optional, and the Lists and SparseDicts that are not optional have rows and fields.",
  "all nestings of Dicts, SparseDicts, Lists, Arrays and scalars, all submissions (any keys, repeated, in any order), separators not starting with a digit, any scalar types and validators of the package",
  "All combinations of submitted keys, at any depth of rows in rows.",
  "flatland/schema/base.py:Element.from_flat,Element.set_flat,Element.validate", "flatland/schema/containers.py:Mapping._set_flat,List._set_flat,Array._set_flat,SparseDict", "flatland/schema/scalars.py:Scalar._set_flat")

p("What Dict and SparseDict operations do to the fields",
  "In every state a mapping can get into: assigning to a field of a Dict sets that child, raising iff that raises, and an unknown key raises TypeError; del, pop, popitem, clear and setdefault always raise and change nothing. On a SparseDict an assigned element of the field's class becomes the child, another value is set on the child that is there, or a child is made of it, and none is added if that raises; del and pop take out the child iff it is there and, with minimum_fields='required', optional, and otherwise change nothing; setdefault leaves a child that is not empty alone and returns its value, else sets the child, adding it if needed, and returns the default; clear makes it as new. None of these touches the child at another key. update assigns the pairs in turn, keyword arguments last, so that the result at a key depends on the pairs for that key only; if it raises, the pairs before the one that raised have been assigned. get returns the child or raises KeyError, never the default. may_contain tells whether the schema has the field.",
  "all Dict and SparseDict schemas with distinct field names, all histories of operations, all keys and values, whatever set and construction of the children do",
  "The effects have to hold in every state, for every operation and key.",
  "flatland/schema/containers.py:Mapping.__setitem__,Mapping.__delitem__,Mapping.pop,Mapping.update,Mapping.get,Mapping.may_contain,Mapping.setdefault,Mapping.clear", "flatland/schema/containers.py:SparseDict.__setitem__,SparseDict.__delitem__,SparseDict.pop,SparseDict.setdefault,SparseDict.clear,SparseDict.may_contain")

p("Editing any part of a form keeps it proper and leaves the rest alone",
  "Let any calls be made on any elements of a form, one after the other: set, set_flat, set_default, the list operations of a List or an Array, the dict operations of a Dict or SparseDict, assignments to the attributes of a scalar; some may raise and be caught. The form stays a proper form of its class. Each call changes the element it is made on as it would change that element on its own, and no other: elements neither above nor below stay as they are, those above keep kind, name and number of children, and every pair of flatten() that does not belong to the element stays, in the same order. What becomes of a part of a form depends only on the calls made in that part, however calls elsewhere are mixed with them. A List in a form behaves as the Python list of its members, a Dict as the Python dict of its children, an Array as a List, set, set_default and set_flat included, with their results and exceptions. After any such history, flatten and from_flat rebuild the form.",
  "all schemas with named Dict fields, all elements, all histories of calls at all positions, with all arguments, including calls that raise; elements put into a container are proper elements of the place's class, not used elsewhere; no sort whose comparison raises",
  "a test makes a few calls on one form; the claim is about every mixture of calls at every depth, and about everything a call must not touch",
  "flatland/schema/containers.py:Sequence,List,Array,Mapping,Dict,SparseDict", "flatland/schema/base.py:Element.set,Element.set_flat,Element.set_default,Element.flatten")

p("Sending a form back again and again",
  "Whatever a form of Dicts, SparseDicts, Lists, Arrays and scalars holds, flattening it and building a new form from the pairs, or submitting the page generated for it, gives exactly this: every scalar is set from its own text; pruning Lists have those of their members some text of which is not empty, and within them empty texts are not set; other Lists go up to the last member of which there is any pair; both have no more members than allowed; pruning Arrays have the members with a text; optional fields of which there is no pair are missing. If scalars keep their text when it is set again, no List is too long and pruning Lists and Arrays hold nothing blank, the form does not change any more when it is sent back once more; without the last condition it does not change after the second time; and with the scalar classes of the package, whatever it holds, not after the third, without any exception on the way.",
  "all well-named schemas, all elements, any order of the pairs, any number of rounds",
  "a test sends a few forms back once; the claim is about every form and any number of rounds",
  "flatland/schema/base.py:Element.flatten,Element.from_flat,Element.set_flat", "flatland/schema/containers.py:Mapping._set_flat,List._set_flat,Array._set_flat", "flatland/schema/scalars.py:Scalar._set_flat,Scalar.set")

p("Validators that tidy up their element",
  "Some validators change the element they validate: NANPphone sets it to the number in the usual notation, NANPnxx assigns its text, URLCanonicalizer its value. validate() of a whole form with such validators ends, and if it returns, only data of scalars have changed. Each scalar is judged by its validators one after the other, each seeing what was done before: by the earlier validators, and to elements nearer to the root or further left on the same level; containers are judged by their validators in the form as it is in the end. valid, the messages and the result are what comes of this. A scalar whose validators look at its own data only becomes the same whatever else is in the form. With the package's validators after NANPphone or NANPnxx, validating again changes neither form nor flags nor result. In a valid form a phone field holds its number in the usual notation, later checks hold of the tidied data, and NotDuplicated after NANPphone means that no number is there twice in whatever notation. What URLCanonicalizer does to a value is not seen in the text, so the form continues to show and send the URL as entered.",
  "all forms, all validators that change at most the scalar they validate, all contents, flags and messages before",
  "a test validates a few forms; the claim is about every form, and about the order in which changes become visible to other validators",
  "flatland/schema/base.py:Element.validate,Element._validate,validate_element", "flatland/validation/string.py:NANPphone", "flatland/validation/number.py:NANPnxx", "flatland/validation/network.py:URLCanonicalizer", "flatland/validation/containers.py:NotDuplicated")

p("Float and Decimal fields",
  "A Float field set from a text (white space around it removed), an int, a bool, a float or a Decimal takes the 64 bit float nearest to the number, the even one of two, and shows it with the places of its format, the number rounded likewise; a text that is no number, an int too large, a signaling NaN and, if the field is unsigned, anything below zero are refused without an exception, and are shown as given. A Decimal field takes exactly the number given and shows the float nearest to it in the same way; an unsigned one raises an exception for a NaN, and a signed one for a signaling NaN, with the value changed and the text not. Setting a field from its own text gives the same answer and the same text, and after that changes nothing at all; so forms with such fields settle when they are sent back. Set again from its own value - not its text - either field has the same value and text to the last digit, and a form of such fields that took everything has the same values, texts, pairs and verdicts when a new form is set to its value. What a Float reads back is within one unit of the last place of what it held. A number that has no more places than are shown and is below 2^p, where 10^places < 2^(53-p) - with six places: below 8589934592 - is shown exactly and read back as the same number, by Decimal as by Float. A Decimal with more places is never read back, and from 8589934592 on it is read back wrong with six. Unsigned fields never hold anything below zero.",
  "all texts, ints, bools, floats and Decimals, all formats with fixed places, signed and unsigned, all forms with such fields and all submissions",
  "floats, decimal fractions and texts are unlimited in number, and rounding goes wrong at isolated ones",
  "flatland/schema/scalars.py:Number.adapt,Number.serialize,Float,Decimal,Scalar.set", "flatland/schema/base.py:Element.from_flat,Element.flatten")

p("Submissions to forms with Compounds and JoinedStrings",
  "What a submission leaves of a form with Compounds (dates in parts, say) and JoinedStrings in it, anywhere among Dicts, SparseDicts, Lists and Arrays, is a proper form of its class, with no List longer than its class allows. A field reached through Dicts and Compounds, be it a scalar or a JoinedString, is set from the first value under its key - the names on the way joined by the separator - and without one stays as it is; the members of a JoinedString are then those its text is split into. Lists of such elements have the rows that were submitted, each a new element filled with what was submitted for it, and the fields of a Dict are set from exactly the pairs that lead to them, as if they stood alone. The order of pairs with different keys does not matter, nor do pairs with keys of other elements. If scalars and JoinedStrings take any text, then no submission makes set_flat raise iff all fields of Dicts and Compounds are named, Arrays hold scalars and Lists hold scalars, JoinedStrings or unnamed Arrays, or take no members; a JoinedString takes any text if its members do and it has a separator or an expression to split by.",
  "all schemas with Compounds and JoinedStrings, all elements of them, all submissions",
  "a test submits a few pairs; the claim is about all pairs in all orders, and about what they must not touch",
  "flatland/schema/compound.py:Compound._set_flat,JoinedString._set_flat,JoinedString.set", "flatland/schema/containers.py:Mapping._set_flat,List._set_flat,Array._set_flat", "flatland/schema/base.py:Element.set_flat")

p("Sending back forms with Compounds and JoinedStrings settles",
  "Whatever a form with Compounds and JoinedStrings in it holds, flattening it and reading the pairs into a new form of the class gives a predictable form, in whatever order the pairs arrive as long as the values of each key keep theirs, and also if a page sends only the pairs of scalars and JoinedStrings: scalars and JoinedStrings are set from their own text (blank ones in pruning Lists stay unset), Compounds come back through their fields, missing and blank parts are dropped as in a form without them. If no text changes when it is set again and no List is too long, sending the form back a third time changes nothing; and for classes that settle by themselves (the library's scalars, JoinedStrings of Strings split at a single character), nothing changes any more after four times, whatever the form holds and whatever it was submitted from. This assumes that a Compound that may be missing shows nothing when all its fields show nothing (DateYYYYMMDD does so); a Compound that shows a text for blank fields keeps its blank row alive.",
  "all schemas with Compounds and JoinedStrings at any depth whose names avoid the separator, all their forms, all separators of non-digits, all numbers of rounds, all submissions",
  "The form goes through two directions of code over and over; only a proof for every form and every number of rounds shows that it comes to rest.",
  ("flatland/schema/compound.py", "Compound, JoinedString, DateYYYYMMDD"), ("flatland/schema/base.py", "Element.flatten, set_flat, from_flat"), ("flatland/schema/containers.py", "List._set_flat, Mapping._set_flat, SparseDict"))
p("Values and defaults of forms with dates and joined strings",
  "form.set(value), for a form with DateYYYYMMDDs and JoinedStrings at any depth, sets every field named in the value from its value, dates and joined strings as their own set does, and leaves the others new; it returns True iff every value supplied was taken with True and raises exactly as Dict.set and List.set do without such fields. form.value can be stored and set on a new form: if scalars take their own values again, dates hold a date or nothing, and no JoinedString has its separator within a member, the new form has the same fields, texts and values everywhere; set returns True iff no date is blank (a blank date comes back blank, but is reported as False) and every JoinedString takes its text. A date filled in only partly has the value None and comes back blank. set_default gives every part its declared default: a date the given date, or its children theirs; a JoinedString one member for each item of its default, so a list of texts has the effect of set, but a text is taken apart into single characters. A value that names a date twice, with None the second time, leaves the first value (see the property on editing such forms). A new form has new scalars and dates, JoinedStrings, Lists and Arrays without members, and the fields its kind of Dict creates. value and u of the whole are put together of those of the parts; a date of numbers that are no day shows nothing and has the value None.",
  "all schemas with dates and JoinedStrings inside Dicts, SparseDicts, Lists and Arrays at any depth, all values (that supply no date twice), all elements, all defaults",
  "Values and defaults are built and taken apart recursively for every form; no sample of forms covers the combinations of blank, partial and refused parts.",
  ("flatland/schema/compound.py", "Compound.set, Compound.value, DateYYYYMMDD, JoinedString.set, JoinedString.value"), ("flatland/schema/containers.py", "Sequence.set, Sequence.set_default, Dict.set, Mapping.set_default, Mapping.value"), ("flatland/schema/base.py", "Element.from_defaults"))
p("Storing a form's value and loading it again",
  "Whatever a form of Dicts, SparseDicts, Lists, Arrays and scalars holds, setting a new form of the same class to its value gives the same structure with every scalar set to its own value, and True iff all of them are taken. With the package's scalar classes and scalars that are new or have been set, as after any submission, no value changes, except that a Boolean without a value becomes False; only texts that were refused are lost. Loading and storing again changes no value or text any more, and from the third time on nothing at all. If every submitted text was accepted, the loaded form has the same values and texts, sends the same pairs and is validated with the same result. The only exception is a TypeError, raised iff a strict SparseDict outside of Lists and Arrays lacks a field; within a List or Array, such a member makes the whole List come back empty, with False as the only sign.",
  "all forms of Dicts, SparseDicts, Lists, Arrays and scalars, all contents, all submissions, any number of rounds",
  "a test stores and loads a few forms; the claim is about whatever a form may hold, including refused and missing input, and about any number of rounds",
  ("flatland/schema/base.py", "Element.set, Element.value, Element.from_flat"), ("flatland/schema/scalars.py", "Scalar.set"), ("flatland/schema/containers.py", "Sequence.set, Dict.set, Sequence.value, Mapping.value, SparseDict"))
p("Editing a stored record without a change",
  "A record is kept as the value of a form with scalars, dates and joined strings at any depth. To edit it, a new form is set to the record, shown on a page, and what the page sends is read by from_flat into a form whose value is kept instead. If nothing is changed on the page, any number of such edits raise nothing and change neither the record nor any text or value of the form, whether the page sends all pairs of flatten() or only those of the scalars and joined strings, and in any order that keeps the values of one key in theirs. This assumes that scalars and joined strings are the same after being set from their own text and from their own value, that dates hold a day or nothing, and that pairs can carry the form (no List is too long, no member or optional field is blank). Scalars of the package's classes that accepted a text are so, and so are days and blank dates.",
  "all schemas with dates and joined strings inside Dicts, SparseDicts and Lists, with Arrays of scalars, at any depth; all their forms of which the assumptions hold; all pages that send what the form shows; any number of edits",
  "Loading and reading a page run over different code for every kind of field; only a proof for all forms and any number of edits shows that the two agree and nothing wears off.",
  ("flatland/schema/base.py", "Element.value, Element.flatten, Element.from_flat"), ("flatland/schema/compound.py", "Compound, DateYYYYMMDD, JoinedString"), ("flatland/schema/containers.py", "Dict.set, List._set_flat, Mapping._set_flat, Sequence.set"), ("flatland/schema/scalars.py", "Scalar.set"))
p("The truth value of an element",
  "bool(el) is False for a scalar that was never set or whose last set returned False. After a set that returned True, a String, Integer, Date, Time, DateTime, Boolean or Enum of these is true exactly when its value is, except a Boolean whose text for True is empty, which is never true. A Dict, SparseDict, List or Array is true exactly when there is a field or member in it. A DateYYYYMMDD is true exactly when its fields make a real date, whatever was done to it; a JoinedString is false exactly when its members have no text and no separator comes between them. The step .. of a path from a field of a DateYYYYMMDD therefore goes to the date only if that is complete, and otherwise stays at the field.",
  "all scalar classes of the package and their configurations, all values and histories of a date, all containers, all joined strings, all element graphs for the path step",
  "Truth is decided by text and value together, which are computed per class; that the two never disagree has to hold for every class, configuration and value.",
  ("flatland/schema/scalars.py", "Scalar.__bool__, Scalar.set"), ("flatland/schema/compound.py", "Compound.u, Compound.value, JoinedString.u"), ("flatland/schema/containers.py", "Sequence, Mapping"), ("flatland/schema/paths.py", "PathExpression.__call__"))
p("Paths in forms with Compounds and JoinedStrings",
  "Whatever elements count as true, a path lookup does what it would do if an element whose parent is false had no parent: the step .. stays there. So the branch-by-branch meaning of paths holds of every tree, with false parents passed over. In a form with Compounds and JoinedStrings, filled in or not, the absolute path of the names and indexes of the steps finds exactly the element they lead to, from anywhere in the form, also through members of Arrays, MultiValues and JoinedStrings, and el(fq_name()) leads back to fields of Compounds. The step .. from a child leads to its container (through the hidden slot in a List), unless that is a Compound or JoinedString that shows nothing or has a false value: then no number of .. steps leaves the child.",
  "all element graphs and paths; all trees of scalars, Dicts, Lists, Arrays, Compounds and JoinedStrings at any depth, all start elements, all contents",
  "Tests look up a few paths in forms that are filled in; whether a relative path works depends on what is in the form, so all contents and positions have to be covered.",
  ("flatland/schema/paths.py", "PathExpression.__call__"), ("flatland/schema/base.py", "Element.find, Element.el, Element.fq_name, Element.parent"), ("flatland/schema/compound.py", "Compound, JoinedString"), ("flatland/schema/scalars.py", "Scalar.__bool__"), ("flatland/schema/containers.py", "Sequence._index, Mapping._index"))
p("Validating forms with Compounds and JoinedStrings",
  "validate() of a form with Compounds and JoinedStrings in it, at any depth, ends if no validator raises, and returns True iff every element complies: it is optional and blank, or all its validators pass (without any, it is not blank) and, if it is a container, all its descent validators. A Compound is blank iff all its fields are, a JoinedString iff it has no members. Each element is marked valid iff it complies and gets exactly the messages of its first failing validator and first failing descent validator in addition to those it had; nothing else changes. validate() of an element within the form, such as one date, does this for it and what is below it, and all_valid then says of every element whether it and all below it comply. So a DateYYYYMMDD without validators of its own is valid with its parts iff it is optional or no part is left out, whatever its value: the 30th of February and texts that are no numbers pass. With Converted it is valid iff it has a value and, if it is required, no part is left out, or it is optional and all parts are left out.",
  "all trees of scalars, Dicts, SparseDicts, Lists, Arrays, Compounds and JoinedStrings, all validators that do not raise, all flags and messages before",
  "Tests validate single forms; whether an element is blank, optional and accepted combines along the whole tree, and validation runs down and up over it.",
  ("flatland/schema/base.py", "Element.validate, Element._validate, validate_element"), ("flatland/schema/compound.py", "Compound.is_empty, DateYYYYMMDD.__compound_init__, JoinedString"), ("flatland/schema/containers.py", "Container._validate, Sequence.is_empty, SparseDict.is_empty"), ("flatland/validation/scalars.py", "Converted"))
p("When a submitted form with dates and joined strings is valid",
  "A form of scalars, JoinedStrings and DateYYYYMMDDs in Dicts, filled by from_flat from a submission and then validated by tests of the elements' values and texts, is valid iff every field is, which depends only on the first text submitted under its key: it is blank and the field optional, or all its tests pass, or there are none and it is not blank. A JoinedString is tested with its text and is blank iff it has no members, each of which has to be valid too; a date is tested with the day that its parts make, or None, and is blank iff all its parts are. Pairs that name no field never matter. So a date that has to have a value, with parts of no tests and as optional as it is, is valid with its parts iff the texts submitted for year, month and day are numerals of a real date, or it is optional and nothing but empty texts was submitted for them.",
  "all forms of scalars, JoinedStrings and DateYYYYMMDDs in Dicts nested at any depth, all submissions that raise nothing, all tests of value and text",
  "From the pairs to the verdict runs all of from_flat, the parts of dates, the splitting of joined strings and validation; a test checks single submissions.",
  ("flatland/schema/base.py", "Element.from_flat, Element.validate"), ("flatland/schema/compound.py", "Compound, DateYYYYMMDD, JoinedString"), ("flatland/schema/containers.py", "Mapping._set_flat, Container._validate"), ("flatland/schema/scalars.py", "Scalar.set, Integer"))
p("Editing forms with dates and joined strings",
  "Calls are made on elements anywhere in a form with DateYYYYMMDDs and JoinedStrings, in any order: set, set_flat, set_default, the operations of Lists, Arrays, JoinedStrings and Dicts, and assignments to dates and their parts, some of which may raise. The form stays a proper form of its class. A call changes its element as it would change it on its own, and no other. What becomes of a part of the form is decided by the calls made in that part. At any time a date is what its three parts say (the date and its ISO text if they are a calendar day, otherwise None and ''), and a joined string is its members' texts with the separator between them. Setting or assigning a date puts year, month and day into its parts, setting a part leaves the others alone, append on a joined string adds to its end, append on a List adds a new member set to the value, and form[key] = value sets the child of that name and no other. Lists, Arrays and Dicts of dates and joined strings follow lists and mappings through their operations. set on an element that already holds something ends as on a new one, unless it is a date that is set to None, which changes nothing and returns False, or the value supplies a field twice; set_default and set_flat end as the value and flat-data properties say.",
  "all classes with dates and joined strings in Dicts, SparseDicts, Lists and Arrays whose fields have names of their own, all histories of calls, on any elements, that put elements of the right classes in",
  "The value of a date and of a joined string is computed anew from elements that calls elsewhere may have changed; histories of calls on all parts of a tree cannot be listed.",
  ("flatland/schema/compound.py", "Compound, DateYYYYMMDD, JoinedString"), ("flatland/schema/containers.py", "List, Array, Dict, SparseDict, Mapping"), ("flatland/schema/base.py", "Element.set, set_flat, set_default"))
p("Calls that raise in forms with dates and joined strings",
  "When set, set_flat or set_default of an element with DateYYYYMMDDs and JoinedStrings in it raises, what it leaves is known. A Dict's set_flat has done nothing or stopped at a field: the fields before it are as if they were all there is, the ones after it as they were, and this one is as its own set_flat left it; the same holds for the parts of a date. A List's set_flat leaves it empty or ends with the member that raised, those before it being as in a List that takes no more; an Array of scalars has the members of the pairs before, and an Array of anything else raises AssertionError at any set_flat and is left empty. set leaves a List or Array empty, a JoinedString with the members of the pieces before the one that raised, or as it was if the text cannot be split, and a Dict as set with the items before would, with the field that raised as its own set left it. A date's set lets nothing through but NotImplementedError, and only if a part raises it. set_default of a Dict stops at a field in the same way, a SparseDict's leaves the field that raised and the ones after it new, a List's leaves at most one member, and an Array's or JoinedString's the members before the one that raised.",
  "all classes with dates and joined strings in Dicts, SparseDicts, Lists and Arrays, all arguments, all scalar classes and the exceptions they raise",
  "A call may raise at any of its steps, at any depth; tests can make it raise at a few.",
  ("flatland/schema/compound.py", "Compound.set, DateYYYYMMDD.explode, JoinedString.set"), ("flatland/schema/containers.py", "Sequence.set, Sequence.extend, Sequence.set_default, List._set_flat, List.set_default, Array._set_flat, Mapping._set_flat, Mapping.set_default, Dict.set, SparseDict.set_default"))
p("Submitted rows with dates, joined strings and multiple choices",
  "In a form of scalars, JoinedStrings, DateYYYYMMDDs and Arrays of scalars in Dicts, SparseDicts and Lists, of any nesting, that from_flat made, every scalar, JoinedString and part of a date in every row the submission makes is set from the first value whose key leads to it, a date shows the date its parts make or nothing, an Array has the choices that the pairs leading to it make, and nothing else is in the form. With validators on fields and dates that look at value and text, and on Arrays that look at the value, the form is valid exactly if every scalar, JoinedString, member of a JoinedString, date, Array and member of an Array is – it is blank and optional, or all its validators accept it, or it has none and is not blank –, every List that is not optional has a row, and every SparseDict that is not optional has a field. A date that has to have a value, with parts of no tests and as optional as it is, is so iff the texts submitted for year, month and day in its row are numerals of a real date, or it is optional and nothing but empty texts was submitted for them.",
  "all forms of this kind (Lists have no Arrays as rows, and Arrays and their members have no names that are empty or contain line breaks), all separators that do not start with a digit and are not a line break, all submissions that from_flat takes, all rows, any validators that look at value and text",
  "Rows are found by number in any order, dates, choices and joined strings are made of what is found in each, and validation goes down all of it; only a proof over all nestings and submissions shows that what is judged is what was sent.",
  ("flatland/schema/base.py", "Element.from_flat, Element.validate"), ("flatland/schema/containers.py", "List._set_flat, Mapping._set_flat"), ("flatland/schema/compound.py", "Compound, DateYYYYMMDD, JoinedString"))
p("When a submitted form with multiple choices is valid",
  "In a form of scalars and Arrays of scalars in Dicts, SparseDicts and Lists, of any nesting, that from_flat made, the members of an Array in whatever row are the choices that the pairs leading to it make, in their order: for a named Array that prunes, of unnamed members, the values that are not empty under its name. With the validators of the package on fields, Arrays and members, the form is valid exactly if every field is fine with what was submitted for it – blank and optional, or all its requirements are met, or it has none and is not blank –, so is every Array with its choices and each choice by itself, every List that is not optional has a row and every SparseDict that is not optional has a field. An Array is blank iff nothing was chosen, and HasAtLeast, HasAtMost and HasBetween on it count the choices.",
  "all forms of this kind (Lists have no Arrays as rows, and Arrays and their members have no names that are empty or contain line breaks), all separators that do not start with a digit and are not a line break, all submissions that from_flat takes, all rows, all these validators with any options that make sense for the values",
  "The same key comes many times with choices, mixed with the keys of other rows; which choices are counted where depends on the whole submission.",
  ("flatland/schema/base.py", "Element.from_flat, Element.validate"), ("flatland/schema/containers.py", "Array._set_flat, List._set_flat, Mapping._set_flat"), ("flatland/validation/containers.py", "HasAtLeast, HasAtMost, HasBetween"))
p("Validation looks at the content of forms with dates and joined strings",
  "The validators of the package see of a form with DateYYYYMMDDs and JoinedStrings its content alone: names, structure, and value and text of its elements. So a form that was sent to the browser and comes back unchanged, one set to the value of another, and a record that was loaded, shown and kept any number of times are validated as before, with the same result, flags and messages. find in such a form always ends, with the elements the path leads to in order. ValuesEqual and UnisEqual on paths that each lead to one element pass exactly if the values (or texts) of these elements – dates, joined strings or others – are all equal, and else note their message; with a path that leads nowhere or to several elements they raise LookupError, and AttributeError with a slice that is empty. NotDuplicated on a child of any container, be it a List of dates, a date or a joined string, passes exactly if no earlier child has the same value and text. In a valid form, children validated with NotDuplicated are all different, except ones that are blank and optional.",
  "all forms of scalars, dates and joined strings in Dicts, SparseDicts, Lists and Arrays, all validators of value, text and number of children and those named here, all paths, all pages that send every field back, any number of rounds",
  "Dates and joined strings compute value and text from their parts whenever asked, and validators reach across the tree by paths; a test compares single forms.",
  ("flatland/validation/scalars.py", "MapEqual, ValuesEqual, UnisEqual"), ("flatland/validation/containers.py", "NotDuplicated"), ("flatland/schema/base.py", "Element.find, Element.validate, Element.__eq__"), ("flatland/schema/compound.py", "Compound, JoinedString"))
out = os.path.join(os.path.dirname(os.path.abspath(__file__)), "..", "properties.jsonl")
with open(out, "w") as f:
    for q in P:
        f.write(json.dumps(q, ensure_ascii=False) + "\n")
print(len(P))
