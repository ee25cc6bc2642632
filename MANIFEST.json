{
 "claims": [
  {
   "property": "C01",
   "status": "proved",
   "theorems": [
    "EP.C01_varint_roundtrip"
   ],
   "note": ""
  },
  {
   "property": "C02",
   "status": "proved",
   "theorems": [
    "EP.C02_varint_canonical"
   ],
   "note": ""
  },
  {
   "property": "C03",
   "status": "proved",
   "theorems": [
    "EP.C03_zigzag_bijection"
   ],
   "note": ""
  },
  {
   "property": "C04",
   "status": "proved",
   "theorems": [
    "EP.C04_fixed_roundtrip"
   ],
   "note": ""
  },
  {
   "property": "C05",
   "status": "proved",
   "theorems": [
    "EP.C05_tag_roundtrip"
   ],
   "note": ""
  },
  {
   "property": "C06",
   "status": "proved",
   "theorems": [
    "EP.C06_varint_classified"
   ],
   "note": ""
  },
  {
   "property": "C07",
   "status": "proved",
   "theorems": [
    "EP.C07_scalar_roundtrip"
   ],
   "note": ""
  },
  {
   "property": "C08",
   "status": "partial",
   "theorems": [
    "EP.C08_write_log_partial",
    "EP.C08_false",
    "EP.C08_block_iff",
    "EP.C08_never"
   ],
   "note": "Proved for block pushes below 2^31 bytes. For blocks near 2^32 bytes the statement is false of the code (index sum wraps, memcpy out of bounds): C08_false. C08_block_iff says exactly when: undefined if and only if write position + length wraps. C08_never: false for every buffer that can hold a byte."
  },
  {
   "property": "C09",
   "status": "partial",
   "theorems": [
    "EP.C09_false",
    "EP.C09_bulk_push_partial",
    "EP.C09_iff"
   ],
   "note": "False of the code: an exact fit is refused (strict comparison), C09_false. Partial: success exactly when strictly less than the available size is pushed. C09_iff: right for every length but that of all the room there is."
  },
  {
   "property": "C10",
   "status": "proved",
   "theorems": [
    "EP.C10_read_fifo",
    "EP.C10_read_any"
   ],
   "note": ""
  },
  {
   "property": "C11",
   "status": "partial",
   "theorems": [
    "EP.C11_false",
    "EP.C11_advance_partial",
    "EP.C11_advance_iff",
    "EP.C11_capacities"
   ],
   "note": "False of the code: read_index_ + N wraps and the read position moves backwards, C11_false. Partial: holds if and only if the sum does not wrap, C11_advance_iff, which also says what happens when it does. C11_capacities: true only for buffers that cannot hold a byte."
  },
  {
   "property": "C12",
   "status": "proved",
   "theorems": [
    "EP.C12_section_window",
    "EP.C12_section_delivers"
   ],
   "note": ""
  },
  {
   "property": "C13",
   "status": "partial",
   "theorems": [
    "EP.C13_declarations",
    "EP.C13_serialize_partial",
    "EP.C13_standard_partial",
    "EP.C13_readable_partial",
    "EP.C13_false",
    "EP.C13_standard_iff",
    "EP.C13_shorter"
   ],
   "note": "False of the code: negative int32/enum take 5 bytes and -0.0 without presence is dropped, C13_false. Partial: the exact bytes for every value; equal to the standard bytes when those cases do not occur; always readable per the specification as the same value. C13_standard_iff: equal to the standard bytes exactly then; C13_shorter: else strictly fewer. C13_declarations: exactly the declarations for which every object is written as by a standard encoder."
  },
  {
   "property": "C14",
   "status": "proved",
   "theorems": [
    "EP.C14_serialized_size",
    "EP.C14_size_of_encoding"
   ],
   "note": ""
  },
  {
   "property": "C15",
   "status": "proved",
   "theorems": [
    "EP.C15_buffer_full"
   ],
   "note": ""
  },
  {
   "property": "C16",
   "status": "partial",
   "theorems": [
    "EP.C16_declarations",
    "EP.C16_exact_fit_partial",
    "EP.C16_exactly",
    "EP.C16_no_slack_partial",
    "EP.C16_false"
   ],
   "note": "False of the code: a message ending in a string does not fit exactly, C16_false. C16_exactly is the exact condition for a WriteBufferFixedSize: available size at least serialized_size(), and more than that if the encoding ends in the contents of a non-empty string (Spec/Trailing). Partial: holds for types without string/bytes and for buffers without slack. C16_declarations: exactly the declarations for which it holds of every object."
  },
  {
   "property": "C17",
   "status": "partial",
   "theorems": [
    "EP.C17_declarations",
    "EP.C17_round_trip_partial",
    "EP.C17_exact_partial",
    "EP.C17_false",
    "EP.C17_exact_iff"
   ],
   "note": "False of the code for -0.0 in a field without presence, C17_false. Partial: the round trip gives the canonical value (with -0.0 there read as 0.0), and the exact value if and only if there is no such -0.0 (C17_exact_iff). C17_declarations: exactly the declarations for which every object comes back."
  },
  {
   "property": "C18",
   "status": "partial",
   "theorems": [
    "EP.C18_merge_partial",
    "EP.C18_false",
    "EP.C18_held",
    "EP.C18_blank_iff",
    "EP.C18_blank_partial",
    "EP.C18_declarations"
   ],
   "note": "False of the code: a repeated message element re-uses what an earlier element left behind, C18_false. Partial: holds for types without repeated messages, for objects that never had an array of messages shortened other than by clear(), and for every object whose leftovers are blank. C18_held says exactly what happens for every reachable object, C18_blank_iff that blank leftovers are necessary. C18_declarations: exactly the declarations for which it holds of every object."
  },
  {
   "property": "C19",
   "status": "partial",
   "theorems": [
    "EP.C19_records_partial",
    "EP.C19_false",
    "EP.C19_held",
    "EP.C19_blank_partial",
    "EP.C19_declarations"
   ],
   "note": "False of the code for the same reason as C18, C19_false. Partial: as C18; C19_held is the exact statement for every reachable object. C19_declarations: exactly the declarations for which it holds of every object."
  },
  {
   "property": "C20",
   "status": "proved",
   "theorems": [
    "EP.C20_no_ub",
    "EP.C20_api_no_ub"
   ],
   "note": ""
  },
  {
   "property": "C21",
   "status": "partial",
   "theorems": [
    "EP.C21_within",
    "EP.C21_only",
    "EP.C21_section",
    "EP.C21_terminates_partial",
    "EP.C21_terminates_any_partial",
    "EP.C21_false",
    "EP.C21_diverges_false",
    "EP.C21_bound",
    "EP.C21_outcome",
    "EP.C21_never",
    "EP.C21_never_false"
   ],
   "note": "False of the code: a length near 2^32 moves the read index backwards and decoding never ends, C21_false, C21_diverges_false. Partial: terminates when no varint in the input taken as a length wraps the index. C21_within: any bytes in which no length is beyond the end, any buffer; C21_only: otherwise both must be there; C21_section: in a section always. C21_never: for every declaration that leaves a field number unused there are at most ten bytes with which decoding never ends, whatever the object."
  },
  {
   "property": "C22",
   "status": "proved",
   "theorems": [
    "EP.C22_nested_exact"
   ],
   "note": ""
  },
  {
   "property": "C23",
   "status": "partial",
   "theorems": [
    "EP.C23_field_partial",
    "EP.C23_unchanged_partial",
    "EP.C23_member_partial",
    "EP.C23_false",
    "EP.C23_declarations",
    "EP.C23_field_iff",
    "EP.C23_member_iff"
   ],
   "note": "False of the code: an absent optional field becomes present, and a oneof is unset, C23_false. Partial: INVALID_WIRETYPE, nothing consumed after the tag and the data member untouched for every field of every reachable object; value unchanged except for those two cases. Exactly when the message is unchanged: C23_field_iff, C23_member_iff. C23_declarations: it holds exactly for declarations with neither an optional field nor a oneof."
  },
  {
   "property": "C24",
   "status": "partial",
   "theorems": [
    "EP.C24_too_long_partial",
    "EP.C24_too_long_optional_partial",
    "EP.C24_too_long_member_partial",
    "EP.C24_short_partial",
    "EP.C24_short_optional_partial",
    "EP.C24_exact_partial",
    "EP.C24_exact_optional_partial",
    "EP.C24_exact_member_partial",
    "EP.C24_false",
    "EP.C24_declarations",
    "EP.C24_optional_iff",
    "EP.C24_member_iff",
    "EP.C24_short_member"
   ],
   "note": "False of the code for a string in a oneof, whose content is lost, C24_false. Partial: ARRAY_FULL keeps the content, END_OF_BUFFER leaves the bytes there were, complete strings are stored exactly, for singular and optional fields of any object; for oneof members the exact effect. Exactly when the message is unchanged: C24_optional_iff, C24_member_iff. C24_declarations: for strings that are too long it holds exactly for declarations without a string in a oneof."
  },
  {
   "property": "C25",
   "status": "partial",
   "theorems": [
    "EP.C25_held",
    "EP.C25_blank_partial",
    "EP.C25_declarations",
    "EP.C25_packed_partial",
    "EP.C25_elements_partial",
    "EP.C25_length",
    "EP.C25_false"
   ],
   "note": "False of the code for arrays of messages with stale elements, C25_false. Partial: packed arrays and arrays of strings of any object, arrays of messages of objects only used to receive. The length bound holds for all bytes and objects. C25_held says what happens for every object; C25_blank_partial is the property for every object whose array of this field has blank leftovers. C25_declarations: it holds of every object exactly for the same declarations as C39, given that one element more than fits in an array fits in a buffer."
  },
  {
   "property": "C26",
   "status": "partial",
   "theorems": [
    "EP.C26_three_ways",
    "EP.C26_lost",
    "EP.C26_overlong",
    "EP.C26_exact",
    "EP.C26_truncated_partial",
    "EP.C26_tag_accepted",
    "EP.C26_false",
    "EP.C26_nested_accepted",
    "EP.C26_packed_accepted",
    "EP.C26_unknown_accepted",
    "EP.C26_never"
   ],
   "note": "False of the code: input ending inside a tag is accepted (for every declaration, C26_tag_accepted), also between the fields of a nested message, inside a packed array and inside an unknown length-delimited field, C26_false. Partial, but with the boundary exact: C26_three_ways classifies every proper prefix of every record stream; C26_exact says that it is END_OF_BUFFER exactly if it ends inside a scalar, string, length or unknown scalar at any depth (Truncated) and accepted exactly if it ends in one of the other ways (Lost), with the resulting value given by C26_lost; prefixes that end inside the contents of an unknown field depend on the buffer (C26_overlong). C26_never: false for every declaration that leaves a field number unused."
  },
  {
   "property": "C27",
   "status": "proved",
   "theorems": [
    "EP.C27_call",
    "EP.C27_every_history",
    "EP.C27_has"
   ],
   "note": "\"Deserialized\" means that a tag of the field was met, also when its record turns out malformed (see C23)."
  },
  {
   "property": "C28",
   "status": "proved",
   "theorems": [
    "EP.C28_live",
    "EP.C28_call",
    "EP.C28_every_history",
    "EP.C28_last",
    "EP.C28_set",
    "EP.C28_no_inactive_access",
    "EP.C28_get"
   ],
   "note": "A failed decode of a member leaves the oneof unset; reading a member that is not selected is undefined, see C52."
  },
  {
   "property": "C29",
   "status": "proved",
   "theorems": [
    "EP.C29_clear",
    "EP.C29_default",
    "EP.C29_empty_encoding",
    "EP.C29_zero_bytes"
   ],
   "note": ""
  },
  {
   "property": "C30",
   "status": "proved",
   "theorems": [
    "EP.C30_assign",
    "EP.C30_construct"
   ],
   "note": "Assignment of an object to itself or to a part of itself is not covered."
  },
  {
   "property": "C31",
   "status": "partial",
   "theorems": [
    "EP.C31_history_partial",
    "EP.C31_call_partial",
    "EP.C31_error",
    "EP.C31_get",
    "EP.C31_access_partial",
    "EP.C31_stale",
    "EP.C31_false",
    "EP.C31_exact",
    "EP.C31_iff",
    "EP.C31_call_iff",
    "EP.C31_never",
    "EP.C31_never_false",
    "EP.C31_types"
   ],
   "note": "False of the code: set(i, v) or get(i) beyond the end, after set_data or assignment made the list shorter, brings removed elements back, C31_false. Partial: all histories without such an access; any single call on any reachable object; errors leave the object bit for bit as it was. C31_exact: the result of every history; C31_iff: right if and only if no access uncovers anything but default values; C31_call_iff: the same for one call, in terms of get_const. C31_types: false exactly for the types with a value that is not the default and the maximum lengths other than 0."
  },
  {
   "property": "C32",
   "status": "partial",
   "theorems": [
    "EP.C32_history_partial",
    "EP.C32_call_partial",
    "EP.C32_get",
    "EP.C32_stale",
    "EP.C32_false",
    "EP.C32_exact",
    "EP.C32_iff",
    "EP.C32_never",
    "EP.C32_lengths"
   ],
   "note": "False of the code for the same reason, C32_false. Partial: as C31; set(const char*) keeps the characters that fit without an error. C32_exact: the result of every history; C32_iff: right if and only if no access uncovers anything but NUL. C32_lengths: false for every maximum length."
  },
  {
   "property": "C33",
   "status": "proved",
   "theorems": [
    "EP.C33_deterministic"
   ],
   "note": ""
  },
  {
   "property": "C34",
   "status": "partial",
   "theorems": [
    "EP.C34_declarations",
    "EP.C34_injective_partial",
    "EP.C34_false",
    "EP.C34_injective_iff",
    "EP.C34_exact_partial"
   ],
   "note": "False of the code for -0.0 in a field without presence, C34_false. Partial: injective up to that, exactly (C34_injective_iff); C34_exact_partial: injective among values without such -0.0. C34_declarations: exactly the declarations for which it holds of all values."
  },
  {
   "property": "C35",
   "status": "partial",
   "theorems": [
    "EP.C35_implicit_presence_partial",
    "EP.C35_false",
    "EP.C35_types"
   ],
   "note": "False of the code: -0.0 is dropped, C35_false. Partial: no bytes iff zero or -0.0. C35_types: exactly for the types without -0.0."
  },
  {
   "property": "C36",
   "status": "partial",
   "theorems": [
    "EP.C36_groups_exact",
    "EP.C36_groups_held",
    "EP.C36_groups_value",
    "EP.C36_unknown_group",
    "EP.C36_group_iff",
    "EP.C36_cut_exact",
    "EP.C36_cut_nested",
    "EP.C36_skipped_partial",
    "EP.C36_truncated_partial",
    "EP.C36_group_partial",
    "EP.C36_false",
    "EP.C36_truncated_false",
    "EP.C36_never"
   ],
   "note": "False of the code: the contents of groups and of truncated unknown length-delimited fields are decoded as fields of the message, C36_false, C36_truncated_false. Partial: complete unknown fields that are not groups are skipped exactly; truncated scalars and lengths are errors. What happens otherwise, exactly: groups C36_groups_exact, C36_groups_value (only the tags are left out, matching or not), C36_group_iff, and groups with nothing known inside are skipped, C36_unknown_group; lengths beyond the end C36_cut_exact (fixed size buffer) and C36_cut_nested. C36_never: false for every declaration that leaves a field number unused."
  },
  {
   "property": "C37",
   "status": "partial",
   "theorems": [
    "EP.C37_false",
    "EP.C37_bool_varint_partial",
    "EP.C37_bool_iff"
   ],
   "note": "False of the code: only one byte is read, C37_false. Partial: holds if and only if the varint has one byte, C37_bool_iff, which also says what happens to longer ones."
  },
  {
   "property": "C38",
   "status": "partial",
   "theorems": [
    "EP.C38_cut_accepted",
    "EP.C38_length_accepted",
    "EP.C38_overlong_partial",
    "EP.C38_false",
    "EP.C38_length_false",
    "EP.C38_declarations"
   ],
   "note": "False of the code: both cases are accepted, C38_false, C38_length_false, and for every declaration, field, object and buffer by C38_cut_accepted and C38_length_accepted, which give the resulting value and where decoding goes on. Partial: an overlong varint among the elements is an error and the elements before it are kept. C38_declarations: it holds exactly for declarations without a repeated field of scalars."
  },
  {
   "property": "C39",
   "status": "partial",
   "theorems": [
    "EP.C39_held",
    "EP.C39_blank_partial",
    "EP.C39_received",
    "EP.C39_blank_iff",
    "EP.C39_declarations",
    "EP.C39_append_partial",
    "EP.C39_false"
   ],
   "note": "False of the code: an appended element re-uses what an earlier element left behind, C39_false. Partial: objects that never had an array of messages shortened other than by clear(), any number of elements; C39_held and C39_received say what happens for every object; C39_blank_partial and C39_blank_iff: right exactly if the leftovers of this array are blank; C39_declarations: it holds of every object exactly for the declarations in which no repeated field of the message has room for a message that can hold anything."
  },
  {
   "property": "C40",
   "status": "proved",
   "theorems": [
    "EP.C40_concat",
    "EP.C40_concat_encodings"
   ],
   "note": "For all well formed messages (not only encodings), all reachable objects, any three buffers; also says what happens when the first part does not fit."
  },
  {
   "property": "C41",
   "status": "proved",
   "theorems": [
    "EP.C41_int_forms"
   ],
   "note": ""
  },
  {
   "property": "C42",
   "status": "proved",
   "theorems": [
    "EP.C42_failed_member",
    "EP.C42_malformed"
   ],
   "note": ""
  },
  {
   "property": "C43",
   "status": "proved",
   "theorems": [
    "EP.C43_wiretype",
    "EP.C43_number",
    "EP.C43_after_records"
   ],
   "note": ""
  },
  {
   "property": "C44",
   "status": "proved",
   "theorems": [
    "EP.C44_reuse"
   ],
   "note": ""
  },
  {
   "property": "C45",
   "status": "proved",
   "theorems": [
    "EP.C45_within",
    "EP.C45_any",
    "EP.C45_buffers"
   ],
   "note": "For well formed messages and for all bytes in which no length is beyond the end (C45_within), all reachable objects. For other bytes the implementations may differ in what they do past the end (see C21)."
  },
  {
   "property": "C46",
   "status": "partial",
   "theorems": [
    "EP.C46_never",
    "EP.C46_never_false",
    "EP.C46_exact_partial",
    "EP.C46_iff_partial",
    "EP.C46_value_partial",
    "EP.C46_unterminated",
    "EP.C46_false",
    "EP.C46_all_partial",
    "EP.C46_defined_iff",
    "EP.C46_whenever"
   ],
   "note": "False of the code: in an array that is too small the pointer moves behind the end and the remaining size wraps, C46_false; a string of maximum length is read beyond its array, C46_unterminated. Proved: the exact result for every object and every array (C46_all_partial, with C46_defined_iff: defined exactly if every string shown has a NUL in its array and the text is not longer than the array; C46_whenever: whenever defined, as stated). C46_never: false for every declaration, already for a new object and every array too small for its text."
  },
  {
   "property": "C47",
   "status": "partial",
   "theorems": [
    "EP.C47_placed_partial",
    "EP.C47_ids",
    "EP.C47_optional",
    "EP.C47_wf_partial",
    "EP.C47_false"
   ],
   "note": "False of the code: a field of the type of the message itself is left out of the class, C47_false. Partial: every other valid descriptor, including that the class is one the other theorems apply to; ids and optional fields for all descriptors."
  },
  {
   "property": "C48",
   "status": "partial",
   "theorems": [
    "EP.C48_order_partial",
    "EP.C48_complete",
    "EP.C48_error",
    "EP.C48_prefix_false",
    "EP.C48_scope_false",
    "EP.C48_outer_false",
    "EP.C48_false"
   ],
   "note": "False of the code in three ways: a type whose name begins with that of an enclosing message is taken for nested in it (C48_prefix_false); removing the scope by str.replace can confuse names (C48_scope_false); circular definitions through an enclosing message are accepted (C48_outer_false). Partial: all files without these, nested to any depth. The Python package toposort is modelled after its documentation."
  },
  {
   "property": "C49",
   "status": "partial",
   "theorems": [
    "EP.C49_accepted",
    "EP.C49_partial",
    "EP.C49_lengths_partial",
    "EP.C49_refused",
    "EP.C49_ordered_partial",
    "EP.C49_repeated_false",
    "EP.C49_name_false",
    "EP.C49_inside_false",
    "EP.C49_false"
   ],
   "note": "The registration pass over all files and get_template_parameters, with the lengths a class needs described by paths through the definitions (Spec/Templates). Accepted whenever every message type is complete before its use (C49_accepted), which the sorting of C48 gives for files passed on in import order (C49_ordered_partial). The list is exactly the names of the lengths needed, each once, if no repeated field with a maxLength has a type with template parameters and no two lengths have the same name (C49_partial; without the last condition C49_lengths_partial). The full statement is false: C49_repeated_false (parameters of the elements are forgotten, the header does not compile), C49_name_false and C49_inside_false (colliding names)."
  },
  {
   "property": "C50",
   "status": "partial",
   "theorems": [
    "EP.C50_iff",
    "EP.C50_set_c_string_partial",
    "EP.C50_history_partial",
    "EP.C50_decoded_partial",
    "EP.C50_full",
    "EP.C50_false",
    "EP.C50_never",
    "EP.C50_never_false"
   ],
   "note": "False of the code: set(data, length) over a longer string shows its rest, and a string of maximum length has no terminator, C50_false, C50_full. Partial: exact condition in C50_iff; set(const char*) and decoding with room for the terminator; histories that never shortened the string. C50_never: false for every maximum length."
  },
  {
   "property": "C51",
   "status": "proved",
   "theorems": [
    "EP.C51_frame"
   ],
   "note": ""
  },
  {
   "property": "C52",
   "status": "partial",
   "theorems": [
    "EP.C52_selected_partial",
    "EP.C52_false",
    "EP.C52_declarations",
    "EP.C52_iff"
   ],
   "note": "False of the code: get_x() of a oneof member reads the union without looking at the selector, C52_false. Partial: the selected member (exact characterisation in C28_get). Defined exactly then: C52_iff. C52_declarations: it holds of every object exactly for declarations without oneofs."
  },
  {
   "property": "C53",
   "status": "partial",
   "theorems": [
    "EP.C53_partial",
    "EP.C53_deep",
    "EP.C53_exact",
    "EP.C53_arranged",
    "EP.C53_flat",
    "EP.C53_false"
   ],
   "note": "False of the code: a message using a type nested two levels deep in itself is refused, C53_false. Partial: C53_partial, files with any nesting in which no message does that (Shallow). C53_exact: for names the generator is not confused by (Clear, NoOuter of C48), a file is accepted if and only if its messages, on all levels, can be arranged and no message uses what is two or more levels deep in it."
  },
  {
   "property": "C54",
   "status": "proved",
   "theorems": [
    "EP.C54_wellFormed",
    "EP.C54_encodings"
   ],
   "note": "Also for encodings of values that do not fit the receiver."
  },
  {
   "property": "C55",
   "status": "partial",
   "theorems": [
    "EP.C55_compare_partial",
    "EP.C55_values_partial",
    "EP.C55_rounded_partial",
    "EP.C55_same",
    "EP.C55_sign_false",
    "EP.C55_order_false",
    "EP.C55_float_false",
    "EP.C55_types_partial"
   ],
   "note": "False of the code for a negative value and an unsigned field (int32 -1 equals uint32 4294967295, C55_sign_false, C55_order_false) and for an integer that is rounded to float or double (int32 16777217 equals float 16777216, C55_float_false). Partial: every pair of values that keep their numbers in the conversion; that this is necessary for every value in C55_values_partial, exactly which pairs of types are always compared correctly in C55_types_partial, and what is right in spite of rounding in C55_rounded_partial."
  },
  {
   "property": "C56",
   "status": "proved",
   "theorems": [
    "EP.C56_older_receiver",
    "EP.C56_older_receiver_records"
   ],
   "note": "Both for what this library serializes and for any well formed sequence of records of the newer declaration."
  },
  {
   "property": "C57",
   "status": "proved",
   "theorems": [
    "EP.C57_newer_receiver",
    "EP.C57_lifted"
   ],
   "note": "The value received is the one sent, lifted to the newer declaration; C57_lifted says what that is."
  },
  {
   "property": "C58",
   "status": "partial",
   "theorems": [
    "EP.C58_types",
    "EP.C58_compatible_partial",
    "EP.C58_compatible_iff",
    "EP.C58_int32_int64_false",
    "EP.C58_int64_uint32_false",
    "EP.C58_uint32_boolean_false",
    "EP.C58_sint64_sint32_false",
    "EP.C58_false"
   ],
   "note": "False of the code: negative int32 read as int64 or uint64 (C58_int32_int64_false), numbers from 2^35 on or negative int64 read as uint32 or enum (C58_int64_uint32_false), numbers from 128 on or negative read as bool (C58_uint32_boolean_false), sint64 out of range read as sint32 (C58_sint64_sint32_false). Partial: all other numbers and all other pairs of types; C58_compatible_iff: exactly these. C58_types: exactly the pairs of types for which it holds."
  },
  {
   "property": "C59",
   "status": "proved",
   "theorems": [
    "EP.C59_stable"
   ],
   "note": ""
  },
  {
   "property": "C60",
   "status": "proved",
   "theorems": [
    "EP.C60_size_bound",
    "EP.C60_always_fits",
    "EP.C60_reached"
   ],
   "note": "The size is ElemTy.maxLen (Spec/MaxSize), computed from the declaration; it is shown to be a bound and to be reached."
  },
  {
   "property": "C61",
   "status": "partial",
   "theorems": [
    "EP.C61_declarations",
    "EP.C61_standard_partial",
    "EP.C61_negative_enum_partial",
    "EP.C61_refused_partial",
    "EP.C61_iff_partial",
    "EP.C61_false"
   ],
   "note": "False of the code: negative enum values are refused with OVERLONG_VARINT, C61_false; every such value of every enum field in C61_negative_enum_partial. Partial: all values without negative enums. C61_refused_partial, C61_iff_partial: these are exactly the values that are decoded; all others, with the negative enum at any depth, are refused with OVERLONG_VARINT. C61_declarations: everything is understood exactly for the declarations without a place for an enum."
  },
  {
   "property": "C62",
   "status": "partial",
   "theorems": [
    "EP.C62_packed_partial",
    "EP.C62_unpacked_refused_partial",
    "EP.C62_false",
    "EP.C62_declarations"
   ],
   "note": "False of the code: no unpacked element is accepted, C62_false; for every field and object in C62_unpacked_refused_partial. Partial: packed records. C62_declarations: it holds exactly if no repeated field of scalars has room for an element."
  },
  {
   "property": "C63",
   "status": "partial",
   "theorems": [
    "EP.C63_tag_partial",
    "EP.C63_dropped_partial",
    "EP.C63_iff",
    "EP.C63_false",
    "EP.C63_stored_false"
   ],
   "note": "False of the code: the bits of a tag from 2^32 on are dropped, so the tag of field number 2^29 + 1 stores into field 1, C63_false, C63_stored_false. C63_iff: an accepted tag is read right if and only if it is below 2^32. Partial: tags below 2^32; exactly what happens to the others in C63_dropped_partial."
  },
  {
   "property": "C64",
   "status": "proved",
   "theorems": [
    "EP.C64_within",
    "EP.C64_reference",
    "EP.C64_section"
   ],
   "note": "parseMessage (Spec/Parse) is the reference decoder. C64_reference for any buffer keeping the interface contract; C64_section for sections, where the decoder has a result for all bytes. Its outcome overrun marks the excepted input."
  },
  {
   "property": "C65",
   "status": "partial",
   "theorems": [
    "EP.C65_exact",
    "EP.C65_set_exact",
    "EP.C65_no_strings_partial",
    "EP.C65_no_text_partial",
    "EP.C65_false",
    "EP.C65_declarations"
   ],
   "note": "False of the code (C65_false): a string or bytes field that is not empty is copied onto itself with memcpy, which is undefined. C65_exact: this is the only exception, and otherwise no bit changes. Partial: declarations without strings, and objects whose strings are empty. C65_declarations: exactly the declarations for which it holds of every object."
  },
  {
   "property": "C66",
   "status": "partial",
   "theorems": [
    "EP.C66_add",
    "EP.C66_set",
    "EP.C66_set_same",
    "EP.C66_set_data",
    "EP.C66_set_data_front",
    "EP.C66_string",
    "EP.C66_c_string",
    "EP.C66_oneof_never",
    "EP.C66_oneof_copy",
    "EP.C66_false"
   ],
   "note": "False of the code (C66_false): set_b(get_a()) with two members of one oneof uses the argument after it was destroyed, always (C66_oneof_never). Exact results for the other calls: elements of arrays always work, except self-assignment of a message with text (C66_add, C66_set, C66_set_same, C66_set_data, C66_set_data_front); strings work unless source and destination overlap (C66_string, C66_c_string)."
  },
  {
   "property": "C67",
   "status": "partial",
   "theorems": [
    "EP.C67_implements_partial",
    "EP.C67_objects_partial",
    "EP.C67_round_trip_partial",
    "EP.C67_constructed_partial",
    "EP.C67_recursive_false",
    "EP.C67_enum_false"
   ],
   "note": "About Gen.render (Model/GenClass): the templates instantiated to statements in which everything is referred to by name, run by an interpreter that looks the names up. False of the code for a field of the type of the message itself, which is left out (C67_recursive_false), and, read strictly, for an enum in a oneof, which is never constructed by placement new (C67_enum_false). Partial: all other messages; C67_objects_partial and C67_round_trip_partial carry the other theorems over to the generated class. C67_constructed_partial: with the enum constructed like every other member, and nothing else changed, C67 holds of messages with enums in oneofs too. to_string of the class is C81."
  },
  {
   "property": "C68",
   "status": "partial",
   "theorems": [
    "EP.C68_compiles_partial",
    "EP.C68_names_false",
    "EP.C68_false"
   ],
   "note": "False of the code for twelve sorts of names, C68_names_false. Partial: names in the usual style (PlainNames). Compiling is understood as: nothing declared twice, no keyword, nothing inherited hidden."
  },
  {
   "property": "C69",
   "status": "partial",
   "theorems": [
    "EP.C69_no_ub_partial",
    "EP.C69_serialize_partial",
    "EP.C69_constructed_partial",
    "EP.C69_enum_false"
   ],
   "note": "False of the code, read strictly, for an enum in a oneof (C69_enum_false): it is assigned without having been constructed. Partial: messages without this and without a field of their own type; C69_constructed_partial: with the enum constructed, messages with enums in oneofs too."
  },
  {
   "property": "C70",
   "status": "partial",
   "theorems": [
    "EP.C70_short",
    "EP.C70_long",
    "EP.C70_tag_only",
    "EP.C70_false"
   ],
   "note": "False of the code: only the tag is passed over (C70_tag_only, every message and position), so that the length and payload are taken for tags; an empty such field is INVALID_FIELD_ID, C70_false; every such record with fewer than 8 bytes of payload is refused (C70_short), and with more, the payload is taken for that of the unknown field whose tag the length happens to be (C70_long)."
  },
  {
   "property": "C71",
   "status": "proved",
   "theorems": [
    "EP.C71_names"
   ],
   "note": ""
  },
  {
   "property": "C72",
   "status": "partial",
   "theorems": [
    "EP.C72_exact",
    "EP.C72_enum_templates",
    "EP.C72_partial",
    "EP.C72_wrong_type_false",
    "EP.C72_no_type_false",
    "EP.C72_false"
   ],
   "note": "C72_exact: for every set of files and field, right if and only if the type is in sight of the class (InSight). C72_enum_templates: for enums no class template stands in the way, since such a file is refused. False of the code: with a nested message of the same simple name silently another type, C72_wrong_type_false; names of base classes, class templates, packages and the field itself stand in the way, C72_no_type_false. Partial: every type and part of a package has a name of its own."
  },
  {
   "property": "C73",
   "status": "partial",
   "theorems": [
    "EP.C73_exact",
    "EP.C73_partial",
    "EP.C73_cases_false",
    "EP.C73_false"
   ],
   "note": "C73_exact: if and only if no scope around the class, nor the class, has a type or namespace named EmbeddedProto. False of the code: package a.EmbeddedProto, a oneof of that name, C73_cases_false. Partial: nothing but an outermost package has the name."
  },
  {
   "property": "C74",
   "status": "partial",
   "theorems": [
    "EP.C74_partial",
    "EP.C74_collision",
    "EP.C74_cases_false",
    "EP.C74_false"
   ],
   "note": "False of the code (C74_cases_false): guards of a/b.proto and a_b.proto are the same (of two headers with one guard at most one is compiled, in any program: C74_collision), names containing that of the options or descriptor file, characters that are not allowed in macros, names of library headers. Partial: all import graphs with plain names."
  },
  {
   "property": "C75",
   "status": "partial",
   "theorems": [
    "EP.C75_exact",
    "EP.C75_partial",
    "EP.C75_false"
   ],
   "note": "False of the code: negative numbers are narrowed in an enum class over uint32_t, C75_false; C75_exact says exactly when it compiles. Partial: no negative number, no keyword."
  },
  {
   "property": "C76",
   "status": "partial",
   "theorems": [
    "EP.C76_never_false",
    "EP.C76_false",
    "EP.C76_partial"
   ],
   "note": "False of the code: protoc leaves the syntax of proto2 files empty in the request, so that no request of protoc is ever refused, C76_never_false. Partial: descriptors that say proto2."
  },
  {
   "property": "C77",
   "status": "partial",
   "theorems": [
    "EP.C77_partial",
    "EP.C77_wf_partial",
    "EP.C77_implements_partial",
    "EP.C77_cases_false",
    "EP.C77_recursive_false",
    "EP.C77_false"
   ],
   "note": "The instance of the class with the given arguments (Model/GenInstance) against the type with the lengths chosen by path (InstanceOf). False of the code (C77_cases_false): a repeated field with a maximum length of a type that needs lengths, two parameters of one name, also one class inside another, a parameter with the name of a member; a field of the type of the message itself is missing (C77_recursive_false). Partial: all other files, any depth and values; the type is one the other theorems are about (C77_wf_partial) and the functions of the class do what the declaration says (C77_implements_partial, given that its names compile)."
  },
  {
   "property": "C78",
   "status": "partial",
   "theorems": [
    "EP.C78_repeated",
    "EP.C78_history_partial",
    "EP.C78_history_exact",
    "EP.C78_history_iff",
    "EP.C78_string_exact",
    "EP.C78_string_partial",
    "EP.C78_false",
    "EP.C78_lengths"
   ],
   "note": "False of the code for strings and bytes: a longer value is dropped without an error, C78_false; C78_string_exact is the exact behaviour, and C78_lengths: it holds exactly if the maximum length of the target is not smaller. Repeated fields: C78_repeated; every later history exactly, C78_history_exact, and exactly when it is one of a list, C78_history_iff; C78_history_partial is a condition on the calls alone."
  },
  {
   "property": "C79",
   "status": "partial",
   "theorems": [
    "EP.C79_readable_partial",
    "EP.C79_iff",
    "EP.C79_array_partial",
    "EP.C79_array_iff",
    "EP.C79_schema_partial",
    "EP.C79_comma",
    "EP.C79_comma_false",
    "EP.C79_quote_false",
    "EP.C79_infinity_false",
    "EP.C79_declarations",
    "EP.C79_asC_partial"
   ],
   "note": "False of the code: a message without plain fields in which the first oneof is not set and another one is begins with a comma (C79_comma, for all of them; C79_comma_false), strings are not escaped (C79_quote_false: contents of one field are read as another member), inf and nan (C79_infinity_false). Proved for every readable value (C79_readable_partial, C79_array_partial for the array itself) and for every value of schemas without strings and floating point (C79_schema_partial); C79_asC_partial: of strings with a NUL inside, the part before it. C79_iff, C79_array_iff: the text is right if and only if the value is readable. C79_declarations: exactly the declarations for which the text of every object is JSON."
  },
  {
   "property": "C80",
   "status": "partial",
   "theorems": [
    "EP.C80_headers",
    "EP.C80_partial",
    "EP.C80_order_partial",
    "EP.C80_accepted_partial",
    "EP.C80_exact",
    "EP.C80_own_false",
    "EP.C80_false",
    "EP.C80_accepted_false",
    "EP.C80_error_files"
   ],
   "note": "The whole of generate_code and main_plugin (Model/GenRequest), against the request (Spec/Request). False of the code: a field of the type of its own message is left out (C80_own_false), and files that can be put in order are refused, the second of the three rounds over the template parameters being in vain (C80_accepted_false). Partial: requests without the causes listed in GoodRequest (those of C48, C49, C72, C74); for them C80_partial says that the headers are right and C80_order_partial that they are made if each file can be sorted by the generator, C80_accepted_partial if no message uses what is two or more levels deep in it; C80_exact: accepted if and only if no file is proto2, each can be arranged and is Shallow. C80_headers (all requests): names, guards and includes are those of C74."
  },
  {
   "property": "C81",
   "status": "partial",
   "theorems": [
    "EP.C81_text",
    "EP.C81_print_partial",
    "EP.C81_json_partial",
    "EP.C81_json_iff",
    "EP.C81_comma",
    "EP.C81_made_partial",
    "EP.C81_members_partial",
    "EP.C81_shown_partial",
    "EP.C81_false"
   ],
   "note": "to_string with the names of the class (Model/GenShow). False of the code: a field of the type of the message itself is left out but counts as the first, so that what follows begins with a comma (C81_comma, every such class and object that shows anything; C81_false). Proved for all other classes without an enum in a oneof (C81_json_partial), for all objects made with the functions of the class (C81_made_partial, C81_shown_partial), and in terms of get_f and has_f (C81_members_partial). C81_text is the exact text in either case; C81_print_partial: whatever C46 says of an object. The names of fields in nested messages, and which of those are bytes, are a parameter of the printer. C81_json_iff: exactly the readable values."
  },
  {
   "property": "C82",
   "status": "partial",
   "theorems": [
    "EP.C82_alive_partial",
    "EP.C82_iff_partial",
    "EP.C82_lost",
    "EP.C82_undefined",
    "EP.C82_read",
    "EP.C82_alive_iff",
    "EP.C82_obtained",
    "EP.C82_history",
    "EP.C82_elsewhere",
    "EP.C82_false",
    "EP.C82_kept_false"
   ],
   "note": "References to fields, optional fields, arrays, elements and oneof members at any depth (Model/Kept). False of the code: a reference into an optional field that was cleared or behind the length of an array writes what nobody sees (C82_lost), one to a oneof member that was replaced is undefined (C82_undefined), C82_false, C82_kept_false. Partial: exactly the references that are alive (C82_alive_partial, C82_iff_partial), which is to say that the value of the message has something in that place (C82_alive_iff); those just obtained are (C82_obtained), calls for other fields do not matter (C82_elsewhere), and with them no new states are reached (C82_history). References to single characters of a string are not in the model."
  },
  {
   "property": "C83",
   "status": "partial",
   "theorems": [
    "EP.C83_partial",
    "EP.C83_false"
   ],
   "note": "The texts of the templates, Jinja, and the text of the response as characters (Model/TemplateText, Jinja, Render, Header, GenText); the text is tokenized. False of the code: a oneof with a field of the type of its own message gives `new(&o_.x_) //;`, where the comment takes the semicolon (C83_false). Partial: all requests without such a oneof, with names made of letters, digits and underscores."
  },
  {
   "property": "C84",
   "status": "partial",
   "theorems": [
    "EP.C84_write_partial",
    "EP.C84_standard_partial",
    "EP.C84_fits",
    "EP.C84_false",
    "EP.C84_read",
    "EP.C84_read_sound",
    "EP.C84_records",
    "EP.C84_for_class",
    "EP.C84_from_class"
   ],
   "note": "Writing, reading and the two directions between hand written records and generated classes hold of all fields and values (C84_write_partial, C84_fits, C84_read, C84_read_sound, C84_for_class, C84_from_class). False of the code: SerializeInt<int32_t> and SerializeEnum write a negative value in 5 instead of 10 bytes (C84_false); the bytes are the standard ones exactly if there is none (C84_standard_partial). DeserializeBool takes any byte, also one with a continuation bit."
  },
  {
   "property": "C85",
   "status": "proved",
   "theorems": [
    "EP.C85_beginning"
   ],
   "note": "The point is described by Spec/Upto. Whether the loss is reported is settled exactly by C26 (Truncated or Lost). Messages shorter than 2^32 bytes, as for C13."
  },
  {
   "property": "C86",
   "status": "proved",
   "theorems": [
    "EP.C86_delivered",
    "EP.C86_delivered_exactly",
    "EP.C86_in_order",
    "EP.C86_can_send",
    "EP.C86_can_receive",
    "EP.C86_defined"
   ],
   "note": "The value sent up to -0.0 in a field without presence (C17), exactly if there is none (C86_delivered_exactly). A frame that makes deserialize loop forever (C21) ends the history: the receive step is about calls that return. Buffers below 2^31 and 2^32 bytes, messages below 2^32."
  },
  {
   "property": "C87",
   "status": "partial",
   "theorems": [
    "EP.C87_calls_partial",
    "EP.C87_index",
    "EP.C87_false",
    "EP.C87_iff",
    "EP.C87_empty",
    "EP.C87_encoding",
    "EP.C87_refused"
   ],
   "note": "False of the code: get(i), get_const(i) and set(i, v) of a field of maximum length 0 are undefined for every i, since MAX_LENGTH-1 is 2^32-1, C87_false, C87_index; exactly then, C87_iff. The other calls, the encoding and received records: as stated (C87_calls_partial, C87_empty, C87_encoding, C87_refused for packed fields, C25 for the others)."
  },
  {
   "property": "C88",
   "status": "proved",
   "theorems": [
    "EP.C88_interface",
    "EP.C88_reception",
    "EP.C88_same"
   ],
   "note": "The same for endless runs: if one run is endless with some bound, so is the other (C88_interface, C88_reception)."
  },
  {
   "property": "C89",
   "status": "proved",
   "theorems": [
    "EP.C89_older_receiver",
    "EP.C89_newer_receiver",
    "EP.C89_defined"
   ],
   "note": "What the receiver knows is described by Spec/Older (shown, lifted), as for C56 and C57. Values up to -0.0 in a field without presence (C17)."
  },
  {
   "property": "C90",
   "status": "proved",
   "theorems": [
    "EP.C90_held",
    "EP.C90_wellFormed",
    "EP.C90_unique",
    "EP.C90_versions",
    "EP.C90_encodings",
    "EP.C90_older_receiver",
    "EP.C90_newer_receiver"
   ],
   "note": "That the bytes say something at all is settled by the specification alone (Records and HRecords; C90_unique: at most one value). Messages shorter than 2^32 bytes for encodings. What an object that had been used before holds, C90_held."
  },
  {
   "property": "C91",
   "status": "proved",
   "theorems": [
    "EP.C91_frame",
    "EP.C91_stream",
    "EP.C91_sent",
    "EP.C91_put",
    "EP.C91_put_all",
    "EP.C91_round_trip"
   ],
   "note": "The two programs are in Model/Framed; they call only functions of the library. A message cut off by the end of the buffer is not described here (C85). Encodings shorter than 2^32 bytes."
  },
  {
   "property": "C92",
   "status": "partial",
   "theorems": [
    "EP.C92_any_order_partial",
    "EP.C92_unique",
    "EP.C92_unique_newer",
    "EP.C92_types",
    "EP.C92_receives_partial"
   ],
   "note": "For classes that the other claims find nothing wrong with (Usable: C47, C49, C67, C68, C77 say what is wrong with the others), C92_receives_partial for versions in which what was kept is in the same order (Grown), with one correspondence for both directions; C92_any_order_partial for any order, with a correspondence for each direction. The correspondence is unique on values that can be received (C92_unique, C92_unique_newer); that of the types alone needs less (C92_types). Messages shorter than 2^32 bytes; values up to -0.0 in a field without presence (C17)."
  },
  {
   "property": "C93",
   "status": "partial",
   "theorems": [
    "EP.C93_receive",
    "EP.C93_alone",
    "EP.C93_size",
    "EP.C93_encodings",
    "EP.C93_unique",
    "EP.C93_round_trip",
    "EP.C93_types",
    "EP.C93_generated_partial"
   ],
   "note": "For declarations the claim is proved in full (C93_unique, C93_receive, C93_alone, C93_size, C93_encodings, C93_round_trip). For classes generated from files it is proved for those that C77 and C68 show to compile (Usable: names that do not clash, no enum in a oneof, lengths in range)."
  },
  {
   "property": "C94",
   "status": "partial",
   "theorems": [
    "EP.C94_hops",
    "EP.C94_passed_on",
    "EP.C94_back",
    "EP.C94_generated_partial"
   ],
   "note": "For declarations proved in full (C94_passed_on, C94_back, C94_hops); for generated classes those of C92 (Usable). Messages shorter than 2^32 bytes; values up to -0.0 in a field without presence (C17). If a program on the way has no room it reports ARRAY_FULL (C90)."
  },
  {
   "property": "C95",
   "status": "proved",
   "theorems": [
    "EP.C95_from_newer",
    "EP.C95_from_older",
    "EP.C95_streams",
    "EP.C95_files"
   ],
   "note": "The two programs are those of C91 (Model/Framed). For files the classes are those of C92 (Usable). Encodings shorter than 2^32 bytes; values up to -0.0 in a field without presence (C17)."
  },
  {
   "property": "C96",
   "status": "proved",
   "theorems": [
    "EP.C96_members",
    "EP.C96_values",
    "EP.C96_templates",
    "EP.C96_enums",
    "EP.C96_messages"
   ],
   "note": "The reader of types and literals is Spec/CppTypes, with the names of Fields.h:441-456 in its own table. The tokens are those of C83; names of messages and enums are taken to be found as in C72 (Stands), where these fail the class is not that of the declaration."
  },
  {
   "property": "C97",
   "status": "proved",
   "theorems": [
    "EP.C97_read",
    "EP.C97_text"
   ],
   "note": "On the tokens of C83; whether the declaration compiles is C75."
  },
  {
   "property": "C98",
   "status": "proved",
   "theorems": [
    "EP.C98_values",
    "EP.C98_setters",
    "EP.C98_received"
   ],
   "note": "C98_setters: already with set_x and add_x alone; C98_received: by receiving alone, when the encoding is shorter than 2^32 bytes."
  }
 ]
}
