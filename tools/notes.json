{
 "C07": {
  "note": "The last clause is false of the code: set raises ValueError for 15 or more dashes or blanks (C07_set_crashes; exact condition in C07_set_raises_iff). C07_set_total_partial is what remains. Also, 14 digit numbers do not survive (C07_fourteen_digits_lost), which the statement excludes."
 },
 "C08": {
  "note": "The 13 digit Visa clause is false of the code (C08_visa13_rejected: a lazy quantifier where an optional group was meant); everything else is proved, as an equivalence."
 },
 "C11": {
  "note": "False of the code for one key only: an Array of named members takes the key 'name + newline' (C11_newline_key_not_ignored). The partial theorem excludes that key for such Arrays and no other."
 },
 "C12": {
  "note": "False of the code: C12_list_of_dicts_raises. C12_never_raises_iff gives the exact condition on the submission, C12_safe_schemas_partial the class of schemas for which nothing is raised. C12_raises_iff and C12_library_iff extend this to scalar classes that raise for some texts (Decimal for NaN and sNaN, C12_decimal_nan_raises)."
 },
 "C19": {
  "note": "False of the code for a stop or stride of 0 (C19_stop_zero, C19_stride_zero) and for '[-]' (C19_minus_raises). C19_slice_zero and C19_stride_zero_all say what every slice selects; the partial theorems exclude exactly a written 0 there."
 },
 "C20": {
  "note": "False of the code where '..' follows a slice, a missing child or a List member (C20_slice_up_differs, C20_missing_child_unnoticed, C20_list_up_differs). The partial theorems exclude these."
 },
 "C21": {
  "note": "False of the code once the cache is full: pathexpr returns the builtin compile (C21_full_cache_breaks). Proved for up to 1024 paths, and that nothing else but that builtin is ever returned wrongly (C21_never_stale)."
 },
 "C45": {
  "note": "False of the code for negative numbers, where luhn10 never returns (C45_negative_diverges). Proved for all others."
 },
 "C68": {
  "note": "False of the code (C68_not_equivalent): generator.tag loses the flags for empty HTML tags and for tags that are always paired. The partial theorem says exactly when the texts agree."
 },
 "C71": {
  "note": "False of the code for a class that is not accepted: validate raises TypeError (C71_refused_raises), negative numbers never return (C71_negative) and validators of the class are ignored (C71_class_validators_ignored). C71_validate_partial covers every other verdict; C71_typed is the full equivalence for 'is valid'."
 }
}