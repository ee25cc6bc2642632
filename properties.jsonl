{"id": "C01", "title": "Varint round trip", "statement": "Serializing any 32 or 64 bit unsigned value as a varint and deserializing it with the same width returns NO_ERRORS and the same value, and consumes exactly the bytes that were written, whatever follows them in the buffer.", "quantifier": "every uint32_t / uint64_t value, every trailing byte string, every read buffer that honours the interface contract", "why_tests_cant": "2^64 values times every continuation; tests sample a handful", "anchors": ["src/WireFormatter.h:SerializeVarint", "src/WireFormatter.h:DeserializeVarint"]}
{"id": "C02", "title": "Varint encoding is the canonical base-128 encoding", "statement": "The bytes written for a value are exactly the protobuf base-128 little-endian groups: no group is redundant, all bytes but the last carry the continuation bit, and at most 5 (32 bit) or 10 (64 bit) bytes are written.", "quantifier": "every uint32_t / uint64_t value", "why_tests_cant": "all 2^64 values", "anchors": ["src/WireFormatter.h:SerializeVarint"]}
{"id": "C03", "title": "ZigZag is the protobuf zigzag bijection", "statement": "ZigZagEncode maps n>=0 to 2n and n<0 to -2n-1, and ZigZagDecode is its two-sided inverse, for both widths.", "quantifier": "every int32_t / int64_t value and every uint32_t / uint64_t value", "why_tests_cant": "2^64 values, boundary values of the shifts", "anchors": ["src/WireFormatter.h:ZigZagEncode", "src/WireFormatter.h:ZigZagDecode"]}
{"id": "C04", "title": "Fixed width values round trip, little endian", "statement": "Serializing a fixed32/fixed64/sfixed/float/double value writes its bit pattern as 4 or 8 little endian bytes; deserializing gives back the same bit pattern (NaN payloads and signed zeros included) and consumes exactly those bytes.", "quantifier": "every bit pattern, every trailing byte string", "why_tests_cant": "2^64 bit patterns", "anchors": ["src/WireFormatter.h:SerializeFixedNoTag", "src/WireFormatter.h:DeserializeFixed", "src/WireFormatter.h:SerialzieFloatNoTag", "src/WireFormatter.h:DeserializeFloat"]}
{"id": "C05", "title": "Tags round trip and never collide", "statement": "For every field number in 1..2^29-1 and every wire type, reading back the tag that was written yields the same field number and wire type; two different (number, type) pairs never give the same tag bytes.", "quantifier": "every field number below 2^29, every wire type", "why_tests_cant": "2^29 x 6 combinations", "anchors": ["src/WireFormatter.h:MakeTag", "src/WireFormatter.h:DeserializeTag"]}
{"id": "C06", "title": "Varint decoding of arbitrary bytes is bounded and classified", "statement": "Decoding a varint from any byte string consumes at most 5 / 10 bytes. It returns NO_ERRORS exactly when one of those bytes has no continuation bit (value = sum of the 7-bit groups modulo 2^width), END_OF_BUFFER exactly when the bytes run out first, OVERLONG_VARINT exactly when all 5 / 10 bytes carry the continuation bit. The output variable changes only on NO_ERRORS.", "quantifier": "every byte string", "why_tests_cant": "unbounded set of malformed inputs", "anchors": ["src/WireFormatter.h:DeserializeVarint"]}
{"id": "C07", "title": "Every scalar field type round trips", "statement": "For each of the 14 scalar field types, a field holding any value serializes to bytes that the same field type deserializes to the same value, consuming exactly these bytes and leaving what follows.", "quantifier": "every scalar field type, every value, every trailing byte string", "why_tests_cant": "value space is 2^32/2^64 per type", "anchors": ["src/Fields.h:FieldTemplate::serialize", "src/Fields.h:FieldTemplate::deserialize"]}
{"id": "C08", "title": "The fixed size write buffer is an append-only log within its capacity", "statement": "After any sequence of clear / push(byte) / push(bytes,n) the buffer holds exactly the concatenation of the successful pushes since the last clear; a failed push changes nothing; get_size + get_available_size = get_max_size; nothing is ever written outside the array.", "quantifier": "every history of operations, every capacity below 2^31", "why_tests_cant": "unbounded histories and capacities", "anchors": ["src/WriteBufferFixedSize.h:push", "src/WriteBufferFixedSize.h:clear", "src/WriteBufferFixedSize.h:get_available_size"]}
{"id": "C09", "title": "A bulk push succeeds whenever the bytes fit", "statement": "push(bytes,n) succeeds exactly when n <= get_available_size(), as push(byte) does (documented: 'True when there was space to add the bytes').", "quantifier": "every buffer state and length", "why_tests_cant": "needs the exact-fit boundary at every capacity", "anchors": ["src/WriteBufferFixedSize.h:push(const uint8_t*, const uint32_t)"]}
{"id": "C10", "title": "The fixed size read buffer is a FIFO over the bytes stored in it", "statement": "After any sequence of push / set_bytes_written / clear / peek / pop / advance the bytes delivered are the stored bytes in order starting at the read position; reads at the end fail without changing the output; no access is outside the array.", "quantifier": "every history of operations, every capacity", "why_tests_cant": "unbounded histories", "anchors": ["src/ReadBufferFixedSize.h:push", "src/ReadBufferFixedSize.h:pop", "src/ReadBufferFixedSize.h:peek", "src/ReadBufferFixedSize.h:advance", "src/ReadBufferFixedSize.h:set_bytes_written"]}
{"id": "C11", "title": "advance(n) never moves the read position backwards", "statement": "advance(n) either moves the read position forward by at most n inside the stored data or leaves it unchanged, and succeeds exactly when at least n unread bytes are stored.", "quantifier": "every buffer state and every uint32_t n", "why_tests_cant": "needs n near 2^32", "anchors": ["src/ReadBufferFixedSize.h:advance(const uint32_t)"]}
{"id": "C12", "title": "A buffer section never lets a reader leave its window", "statement": "Whatever sequence of reads is made through a section of declared size n, the underlying buffer is advanced by at most n bytes, the bytes delivered are those of the underlying buffer in order, and at most n are delivered. This holds for sections nested to any depth.", "quantifier": "every declared size, every history of reads, every underlying strict buffer, every nesting depth", "why_tests_cant": "unbounded histories and nesting", "anchors": ["src/ReadBufferSection.cpp:ReadBufferSection::pop", "src/ReadBufferSection.cpp:ReadBufferSection::advance", "src/ReadBufferSection.cpp:ReadBufferSection::ReadBufferSection"]}
{"id": "C13", "title": "Serialization emits exactly the protobuf encoding", "statement": "For every message type that can be generated and every object reachable through the API, serialize() appends exactly the byte string that the protobuf wire format prescribes for the observable field values in declaration order (presence, packing, nested length prefixes), and nothing else.", "quantifier": "every message schema (any nesting, repeated, optional, oneof), every reachable object, every write buffer honouring the contract", "why_tests_cant": "unbounded schemas and values", "anchors": ["generator/EmbeddedProto/templates/TypeDefMsg.h:serialize", "src/MessageInterface.cpp:MessageInterface::serialize_with_id", "src/RepeatedField.h:serialize_with_id", "src/FieldStringBytes.h:serialize_with_id", "src/Fields.h:serialize_with_id"]}
{"id": "C14", "title": "serialized_size() is the number of bytes serialize() writes", "statement": "serialized_size() equals the number of bytes that a successful serialize() appends (for encodings below 2^32 bytes).", "quantifier": "every schema, every reachable object", "why_tests_cant": "unbounded schemas and values", "anchors": ["src/Fields.cpp:Field::serialized_size", "src/MessageSizeCalculator.h:MessageSizeCalculator::push", "generator/EmbeddedProto/templates/TypeDefMsg.h:serialize"]}
{"id": "C15", "title": "Serialization fails only for lack of room, and then leaves a prefix", "statement": "serialize() returns NO_ERRORS or BUFFER_FULL only. It succeeds whenever the buffer has more room than serialized_size(). When it fails the bytes already in the buffer are untouched and what was appended is a proper prefix of the full encoding.", "quantifier": "every schema, every reachable object, every buffer fill level", "why_tests_cant": "unbounded fill levels times schemas", "anchors": ["generator/EmbeddedProto/templates/TypeDefMsg.h:serialize", "src/WireFormatter.h:SerializeVarint", "src/MessageInterface.cpp:MessageInterface::serialize_with_id"]}
{"id": "C16", "title": "A message that exactly fits is serialized", "statement": "If get_available_size() >= serialized_size() then serialize() returns NO_ERRORS (the boundary case of sizing the buffer with serialized_size()).", "quantifier": "every schema, every reachable object, every buffer", "why_tests_cant": "exact boundary for every schema", "anchors": ["src/WriteBufferFixedSize.h:push(const uint8_t*, const uint32_t)", "src/FieldStringBytes.h:serialize"]}
{"id": "C17", "title": "Message round trip", "statement": "Deserializing the bytes produced by serialize() into a newly constructed or cleared object of the same type returns NO_ERRORS, consumes all bytes and yields an object with the same observable value (fields, presence flags, oneof cases, repeated elements, nested messages).", "quantifier": "every schema, every reachable object", "why_tests_cant": "unbounded schemas, nesting and values", "anchors": ["generator/EmbeddedProto/templates/TypeDefMsg.h:serialize", "generator/EmbeddedProto/templates/TypeDefMsg.h:deserialize", "src/MessageInterface.cpp:deserialize_check_type", "src/RepeatedField.h:deserialize_packed", "src/RepeatedField.h:deserialize_unpacked"]}
{"id": "C18", "title": "Deserializing into a non-empty object merges", "statement": "Deserializing an encoding of v into an object with value u gives the protobuf merge of u and v: present scalars, strings and enums replace, repeated fields append, nested messages merge recursively, a oneof is replaced unless the same message case is set, absent fields keep u.", "quantifier": "every schema, every pair of values whose repeated fields together fit", "why_tests_cant": "pairs of unbounded values", "anchors": ["generator/EmbeddedProto/templates/TypeDefMsg.h:deserialize", "generator/EmbeddedProto/templates/TypeOneof.h:deserialize"]}
{"id": "C19", "title": "Decoding accepts any record order, repetition and unknown fields", "statement": "Feeding well formed records in any order, with any repetition (last one wins / appends / merges), interleaved with any well formed unknown fields of wire type varint, fixed64, fixed32 or length delimited, returns NO_ERRORS and the object obtained by applying the known records in order.", "quantifier": "every schema, every finite sequence of known and unknown records", "why_tests_cant": "all permutations and interleavings", "anchors": ["generator/EmbeddedProto/templates/TypeDefMsg.h:deserialize", "src/MessageInterface.cpp:skip_unknown_field"]}
{"id": "C20", "title": "Decoding arbitrary bytes has no undefined behaviour and respects capacities", "statement": "For any byte string whatsoever, deserialize() never accesses an array out of bounds or an inactive oneof member, and afterwards (success or error) every string length <= its maximum, every repeated length <= its maximum and every oneof is consistent.", "quantifier": "every schema, every byte string, every starting object reachable through the API", "why_tests_cant": "the space of malformed inputs is unbounded", "anchors": ["generator/EmbeddedProto/templates/TypeDefMsg.h:deserialize", "src/RepeatedField.h:deserialize_packed", "src/RepeatedField.h:deserialize_unpacked", "src/FieldStringBytes.h:deserialize", "generator/EmbeddedProto/templates/TypeOneof.h:deserialize"]}
{"id": "C21", "title": "Decoding always terminates", "statement": "deserialize() terminates on every input, after at most one loop iteration per input byte.", "quantifier": "every schema, every byte string", "why_tests_cant": "non-termination cannot be observed by a test", "anchors": ["generator/EmbeddedProto/templates/TypeDefMsg.h:deserialize", "src/MessageInterface.cpp:skip_length_delimited", "src/ReadBufferFixedSize.h:advance(const uint32_t)"]}
{"id": "C22", "title": "A nested field consumes exactly its declared length", "statement": "When a length-delimited message field is decoded without error from a buffer that holds its declared length, the next tag is read exactly after the declared length.", "quantifier": "every schema, every nested content, every continuation", "why_tests_cant": "all nested contents", "anchors": ["src/MessageInterface.cpp:deserialize_check_type", "src/ReadBufferSection.cpp:ReadBufferSection"]}
{"id": "C23", "title": "A wire type mismatch is rejected without touching the value", "statement": "If a known field number arrives with a wire type other than the field's, deserialize() returns INVALID_WIRETYPE, consumes nothing after the tag and leaves the field's stored value unchanged.", "quantifier": "every schema, every field, every wrong wire type, every continuation", "why_tests_cant": "all combinations", "anchors": ["src/Fields.h:deserialize_check_type", "src/MessageInterface.cpp:deserialize_check_type", "src/RepeatedField.h:deserialize_check_type", "src/FieldStringBytes.h:deserialize_check_type"]}
{"id": "C24", "title": "Over-long strings and bytes are rejected and leave the field unchanged", "statement": "A string/bytes field whose encoded length exceeds its maximum returns ARRAY_FULL and keeps its old content; otherwise, if all bytes are present the content is exactly those bytes; if bytes are missing END_OF_BUFFER is returned.", "quantifier": "every maximum length, every declared length, every content", "why_tests_cant": "unbounded lengths", "anchors": ["src/FieldStringBytes.h:deserialize"]}
{"id": "C25", "title": "Repeated field overflow is reported and keeps the first elements", "statement": "When more elements arrive than a repeated field can hold, deserialization returns ARRAY_FULL, the length never exceeds the maximum and the elements that fit are kept in order.", "quantifier": "every capacity, every element list", "why_tests_cant": "unbounded lists", "anchors": ["src/RepeatedField.h:deserialize_packed", "src/RepeatedField.h:deserialize_unpacked", "src/RepeatedFieldFixedSize.h:add"]}
{"id": "C26", "title": "Truncated input is detected", "statement": "If the input ends in the middle of a field (inside a tag, a scalar, a string, a nested message or a packed array), deserialize() does not return NO_ERRORS.", "quantifier": "every schema, every encoding, every truncation point", "why_tests_cant": "all truncation points of all encodings", "anchors": ["generator/EmbeddedProto/templates/TypeDefMsg.h:deserialize", "src/MessageInterface.cpp:deserialize_check_type", "src/RepeatedField.h:deserialize_packed"]}
{"id": "C27", "title": "Presence flags are independent", "statement": "has_x() is true exactly when field x was set (set_x, mutable_x or deserialized) after the last clear_x, whatever is done to other optional fields, for any number of optional fields (bits spread over several 32 bit words).", "quantifier": "every number of optional fields, every history of operations", "why_tests_cant": "unbounded number of fields and histories", "anchors": ["generator/EmbeddedProto/templates/TypeDefMsg.h:presence", "generator/EmbeddedProto/templates/FieldBasic_GetSet.h"]}
{"id": "C28", "title": "A oneof holds at most one member and it is the last one set", "statement": "After any history of set_/mutable_/clear_/assignment/deserialization the case selector matches the member whose storage is live; setting one member clears any other; no inactive member is ever accessed by the generated code.", "quantifier": "every oneof declaration, every history of operations", "why_tests_cant": "unbounded histories", "anchors": ["generator/EmbeddedProto/templates/TypeOneof.h:init", "generator/EmbeddedProto/templates/TypeOneof.h:clear", "generator/EmbeddedProto/templates/TypeOneof.h:deserialize", "generator/EmbeddedProto/templates/TypeOneof.h:assign"]}
{"id": "C29", "title": "clear() restores the default message", "statement": "After clear() every field reads as its default, all presence flags and oneofs are unset, the object serializes to zero bytes, and later decodes behave as on a new object.", "quantifier": "every schema, every reachable object", "why_tests_cant": "unbounded schemas and histories", "anchors": ["generator/EmbeddedProto/templates/TypeDefMsg.h:clear", "src/RepeatedFieldFixedSize.h:clear", "src/FieldStringBytes.h:clear"]}
{"id": "C30", "title": "Copying gives an observably equal message", "statement": "After a = b (or copy construction) a has the same observable value as b and serializes to the same bytes, whatever a held before, and b is unchanged.", "quantifier": "every schema, every pair of reachable objects", "why_tests_cant": "pairs of unbounded values", "anchors": ["generator/EmbeddedProto/templates/TypeDefMsg.h:operator=", "generator/EmbeddedProto/templates/TypeOneof.h:assign", "src/RepeatedFieldFixedSize.h:operator=", "src/FieldStringBytes.h:set"]}
{"id": "C31", "title": "A repeated field behaves like a bounded list", "statement": "Any history of add / set / set_data / clear / operator= / element access on a repeated field behaves like the same operations on a list of at most MAX elements; failing operations (ARRAY_FULL, INDEX_OUT_OF_BOUND) change nothing.", "quantifier": "every capacity, every history of operations", "why_tests_cant": "unbounded histories", "anchors": ["src/RepeatedFieldFixedSize.h:add", "src/RepeatedFieldFixedSize.h:set", "src/RepeatedFieldFixedSize.h:set_data", "src/RepeatedFieldFixedSize.h:get_const", "src/RepeatedFieldFixedSize.h:clear"]}
{"id": "C32", "title": "A string/bytes field behaves like a bounded byte string", "statement": "Any history of set / clear / operator[] / c-string assignment on a string or bytes field behaves like operations on a byte string of at most MAX bytes.", "quantifier": "every maximum, every history of operations", "why_tests_cant": "unbounded histories", "anchors": ["src/FieldStringBytes.h:set", "src/FieldStringBytes.h:get", "src/FieldStringBytes.h:clear", "src/FieldStringBytes.h:FieldString::set"]}
{"id": "C33", "title": "The encoding is a deterministic function of the observable value", "statement": "Two objects with the same observable value serialize to the same bytes, independent of how they were built (stale array contents and history do not leak).", "quantifier": "every schema, every pair of reachable objects", "why_tests_cant": "pairs of histories", "anchors": ["generator/EmbeddedProto/templates/TypeDefMsg.h:serialize", "src/RepeatedField.h:serialize_packed", "src/FieldStringBytes.h:serialize"]}
{"id": "C34", "title": "Different values have different encodings", "statement": "Two objects with different observable values never serialize to the same bytes.", "quantifier": "every schema, every pair of reachable objects", "why_tests_cant": "pairs of unbounded values", "anchors": ["generator/EmbeddedProto/templates/TypeDefMsg.h:serialize"]}
{"id": "C35", "title": "Implicit presence: a default value costs no bytes and any other value is sent", "statement": "A singular field without presence tracking is written iff its value differs from the default; in particular every non-default bit pattern survives a round trip.", "quantifier": "every scalar type, every bit pattern", "why_tests_cant": "2^64 patterns, signed zero", "anchors": ["generator/EmbeddedProto/templates/FieldBasic_Serialize.h", "generator/EmbeddedProto/templates/FieldEnum_Serialize.h"]}
{"id": "C36", "title": "Unknown fields of every valid wire type are skipped", "statement": "A field with an unknown number is skipped completely, whatever its (valid) wire type, groups included, and decoding resumes after it; a truncated unknown field is an error.", "quantifier": "every unknown field content", "why_tests_cant": "unbounded contents", "anchors": ["src/MessageInterface.cpp:skip_unknown_field", "src/MessageInterface.cpp:skip_length_delimited"]}
{"id": "C37", "title": "Booleans decode like any other varint", "statement": "A bool field decodes every varint encoding: the value is true iff the varint is non-zero and exactly the varint's bytes are consumed.", "quantifier": "every varint encoding", "why_tests_cant": "all non canonical encodings", "anchors": ["src/WireFormatter.h:DeserializeBool"]}
{"id": "C38", "title": "Packed fields report malformed contents", "statement": "If the length prefix of a packed field cannot be decoded, or its payload ends in the middle of an element, deserialization returns an error.", "quantifier": "every packed element type, every malformed payload", "why_tests_cant": "unbounded malformed payloads", "anchors": ["src/RepeatedField.h:deserialize_packed"]}
{"id": "C39", "title": "Decoding a repeated message appends exactly the received elements", "statement": "After decoding k more elements into a repeated message field, the array holds the old elements followed by exactly the received ones, whatever the object was used for before.", "quantifier": "every schema, every history of the destination", "why_tests_cant": "unbounded histories", "anchors": ["src/RepeatedField.h:deserialize_unpacked", "src/RepeatedFieldFixedSize.h:operator=", "src/RepeatedFieldFixedSize.h:set_data"]}
{"id": "C40", "title": "Concatenated encodings decode like successive decodes", "statement": "Decoding the concatenation of two encodings gives the same object as decoding the first and then the second into the same object.", "quantifier": "every schema, every pair of encodings", "why_tests_cant": "pairs of unbounded inputs", "anchors": ["generator/EmbeddedProto/templates/TypeDefMsg.h:deserialize"]}
{"id": "C41", "title": "int32 / int64 fields accept the 10-byte sign extended form", "statement": "A negative int32 sent by a standard protobuf encoder as a 10-byte sign extended varint decodes to the same negative value; a 5-byte encoding decodes to the same value too.", "quantifier": "every int32 value", "why_tests_cant": "2^32 values", "anchors": ["src/WireFormatter.h:DeserializeInt"]}
{"id": "C42", "title": "A failed oneof decode leaves the oneof unset", "statement": "If decoding a oneof member fails the oneof is left unset (NOT_SET) with no live member.", "quantifier": "every oneof, every member, every malformed payload", "why_tests_cant": "unbounded malformed payloads", "anchors": ["generator/EmbeddedProto/templates/TypeOneof.h:deserialize"]}
{"id": "C43", "title": "Field id zero and invalid wire types are rejected", "statement": "A tag with field number 0 gives INVALID_FIELD_ID; a tag whose wire type is 6 or 7 gives INVALID_WIRETYPE; in both cases no field changes.", "quantifier": "every schema, every continuation", "why_tests_cant": "all continuations", "anchors": ["generator/EmbeddedProto/templates/TypeDefMsg.h:deserialize", "src/WireFormatter.h:DeserializeTag"]}
{"id": "C44", "title": "An object that failed to decode can be reused", "statement": "After a failed deserialize() the object still satisfies all API guarantees and clear() followed by a fresh decode gives the same result as on a new object.", "quantifier": "every schema, every malformed input followed by every valid input", "why_tests_cant": "pairs of unbounded inputs", "anchors": ["generator/EmbeddedProto/templates/TypeDefMsg.h:deserialize", "generator/EmbeddedProto/templates/TypeDefMsg.h:clear"]}
{"id": "C45", "title": "The result of decoding does not depend on the buffer implementation", "statement": "Any two read buffers honouring the interface contract and holding the same bytes lead to the same error code and the same object for well formed input.", "quantifier": "every pair of contract-honouring buffers, every well formed input", "why_tests_cant": "quantifies over user implementations", "anchors": ["src/ReadBufferInterface.h", "generator/EmbeddedProto/templates/TypeDefMsg.h:deserialize"]}
{"id": "C46", "title": "to_string stays inside the caller's character array", "statement": "to_string() never writes outside the given array and reports the characters left.", "quantifier": "every schema, every object, every array size", "why_tests_cant": "all sizes and contents", "anchors": ["src/Fields.h:to_string", "generator/EmbeddedProto/templates/TypeDefMsg.h:to_string", "src/RepeatedField.h:to_string", "src/FieldStringBytes.h:to_string"]}
{"id": "C47", "title": "The generator puts every proto field into exactly one place", "statement": "Each field of a message descriptor ends up exactly once in the generated class: as plain, optional, repeated or as member of exactly its own oneof; synthetic oneofs of proto3 optional fields disappear; field numbers are preserved.", "quantifier": "every message descriptor", "why_tests_cant": "unbounded descriptors", "anchors": ["generator/EmbeddedProto/TypeDefinitions.py:MessageDefinition", "generator/EmbeddedProto/Oneof.py:Oneof", "generator/EmbeddedProto/Field.py:Field.factory"]}
{"id": "C48", "title": "Generated types are defined before they are used", "statement": "In the generated header every message type appears after all message types its fields use; circular definitions are refused.", "quantifier": "every acyclic / cyclic set of message definitions", "why_tests_cant": "unbounded dependency graphs", "anchors": ["generator/EmbeddedProto/ProtoFile.py:toposort_add_msg", "generator/EmbeddedProto/ProtoFile.py:ProtoFile.__init__"]}
{"id": "C49", "title": "All template parameters are registered", "statement": "For every set of acyclic message definitions every length template parameter needed by a message (its own and those of the messages it contains) appears exactly once in its template parameter list.", "quantifier": "every set of message definitions and max-length options", "why_tests_cant": "unbounded definition sets", "anchors": ["generator/EmbeddedProto/main.py:generate_code", "generator/EmbeddedProto/Field.py:register_template_parameters", "generator/EmbeddedProto/TypeDefinitions.py:register_template_parameters"]}
{"id": "C50", "title": "Strings read through the C accessor are the stored string", "statement": "The NUL terminated text obtained from the const char* accessor of a string field equals the string that was set.", "quantifier": "every maximum length, every history of set operations", "why_tests_cant": "unbounded histories", "anchors": ["src/FieldStringBytes.h:FieldString::set", "src/FieldStringBytes.h:set", "generator/EmbeddedProto/templates/FieldString_GetSet.h"]}
{"id": "C51", "title": "A call changes only the field it is for", "statement": "A setter, mutable accessor or clear_x of one field leaves the value and presence of every other field and oneof unchanged; a decode leaves every field unchanged of which no tag is met.", "quantifier": "every schema, every pair of fields, every reachable object, every call", "why_tests_cant": "all pairs of fields of all schemas", "anchors": ["generator/EmbeddedProto/templates/FieldBasic_GetSet.h", "generator/EmbeddedProto/templates/TypeDefMsg.h:deserialize", "generator/EmbeddedProto/templates/TypeDefMsg.h:presence"]}
{"id": "C52", "title": "Reading a field is always defined", "statement": "x(), get_x() of any field of any object a program can have reads an object that exists, also for the members of a oneof that are not selected.", "quantifier": "every schema, every field, every history", "why_tests_cant": "unbounded histories", "anchors": ["generator/EmbeddedProto/templates/FieldBasic_GetSet.h", "generator/EmbeddedProto/templates/FieldMsg_GetSet.h", "generator/EmbeddedProto/templates/FieldString_GetSet.h", "generator/EmbeddedProto/templates/TypeOneof.h:init"]}
{"id": "C53", "title": "Definitions that can be ordered are accepted", "statement": "If the message definitions of a file, and those nested in them, can be put in an order in which every type comes before the messages using it, the generator accepts the file.", "quantifier": "every file descriptor", "why_tests_cant": "unbounded dependency graphs", "anchors": ["generator/EmbeddedProto/ProtoFile.py:toposort_add_msg", "generator/EmbeddedProto/ProtoFile.py:ProtoFile.__init__"]}
{"id": "C54", "title": "A well formed message decodes, or is reported as too large", "statement": "Decoding any well formed message - records in any order, repeated, with unknown fields mixed in, sent by a program with the same or larger array sizes - into any object ends, and returns NO_ERRORS with the whole input consumed, or ARRAY_FULL; no other error code.", "quantifier": "every schema, every object, every read buffer honouring the interface, every well formed byte string", "why_tests_cant": "all well formed messages and all histories of the object", "anchors": ["generator/EmbeddedProto/templates/TypeDefMsg.h:deserialize", "src/RepeatedField.h:deserialize_check_type", "src/FieldStringBytes.h:deserialize", "src/MessageInterface.cpp:skip_unknown_field"]}
{"id": "C55", "title": "Scalar fields compare like the numbers they hold", "statement": "For two scalar fields, ==, !=, <, >, <= and >= tell whether the numbers the fields hold are in that relation; with a NaN only != holds.", "quantifier": "every pair of scalar field types that can be compared, every pair of values, every operator", "why_tests_cant": "all pairs of 64 bit values of all pairs of types", "anchors": ["src/Fields.h:FieldTemplate::operator==", "src/Fields.h:FieldTemplate::operator<", "src/Fields.h:FieldTemplate::operator>="]}
{"id": "C56", "title": "A receiver with an older declaration gets every field it knows", "statement": "If fields, oneofs or oneof members were added to a message, fields were made optional, or array sizes changed, at any depth, then what a program with the newer declaration serializes is decoded by one with the older declaration as exactly the fields it knows, provided the values fit its arrays.", "quantifier": "every schema, every older version of it, every object, every pair of buffers honouring the interfaces", "why_tests_cant": "all pairs of versions of all schemas and all their values", "anchors": ["generator/EmbeddedProto/templates/TypeDefMsg.h:deserialize", "generator/EmbeddedProto/templates/TypeDefMsg.h:serialize", "src/MessageInterface.cpp:skip_unknown_field"]}
{"id": "C57", "title": "A receiver with a newer declaration gets everything an older sender sent", "statement": "What a program with an older declaration of a message serializes is decoded by one with the newer declaration as the same values, the added fields having their default value or being absent.", "quantifier": "every schema, every older version of it, every object, every pair of buffers honouring the interfaces", "why_tests_cant": "all pairs of versions of all schemas and all their values", "anchors": ["generator/EmbeddedProto/templates/TypeDefMsg.h:deserialize", "generator/EmbeddedProto/templates/TypeDefMsg.h:serialize"]}
{"id": "C58", "title": "A field may be changed into one of a compatible type", "statement": "What a field of one of the types int32, int64, uint32, uint64, bool and enum wrote is read by a field of any other of these as the same number cast to the type of the reader; likewise sint32 and sint64, fixed32 and sfixed32, fixed64 and sfixed64.", "quantifier": "every pair of compatible types, every value", "why_tests_cant": "all 64 bit values of all pairs of types", "anchors": ["src/WireFormatter.h:DeserializeInt", "src/WireFormatter.h:DeserializeUInt", "src/WireFormatter.h:DeserializeBool", "src/WireFormatter.h:SerializeInt"]}
{"id": "C59", "title": "A message that is decoded and sent on is the same bytes", "statement": "What one program serialized, decoded by another with the same declaration into a new or cleared object and serialized again, is exactly the bytes received.", "quantifier": "every schema, every object, every three buffers honouring the interfaces", "why_tests_cant": "all values of all schemas", "anchors": ["generator/EmbeddedProto/templates/TypeDefMsg.h:serialize", "generator/EmbeddedProto/templates/TypeDefMsg.h:deserialize"]}
{"id": "C60", "title": "A buffer for the largest message of a declaration suffices for every message", "statement": "The number of bytes of the largest message can be computed from the declaration alone; no object has a larger serialized_size(), one has exactly this size, and serializing into a buffer with more room always succeeds.", "quantifier": "every schema, every object, every write buffer honouring the interface", "why_tests_cant": "all values of all schemas", "anchors": ["generator/EmbeddedProto/templates/TypeDefMsg.h:serialize", "src/MessageInterface.cpp:serialized_size", "src/WireFormatter.h:SerializeVarint"]}
{"id": "C61", "title": "Messages of standard protobuf encoders are understood", "statement": "What a standard protobuf encoder writes for a value (negative int32 and enum values in ten bytes) is decoded as this value by a program with the same declaration.", "quantifier": "every schema, every value fitting the array sizes, every read buffer honouring the interface", "why_tests_cant": "all values of all schemas", "anchors": ["src/WireFormatter.h:DeserializeInt", "src/WireFormatter.h:DeserializeVarint", "src/Fields.h:enumeration"]}
{"id": "C62", "title": "Repeated scalar fields are accepted packed and unpacked", "statement": "The elements of a repeated scalar field are accepted both packed in one length delimited record and each in a record of its own, as parsers are required to.", "quantifier": "every schema, every repeated scalar field, every object, every sequence of elements", "why_tests_cant": "all scalar types, objects and elements", "anchors": ["src/RepeatedField.h:deserialize_check_type", "src/RepeatedField.h:deserialize_packed"]}
{"id": "C63", "title": "A tag is understood as the field number it consists of", "statement": "DeserializeTag succeeds only with the field number and wire type of which the tag consists; a tag of another field is never taken for that of a declared one.", "quantifier": "every byte string, every read buffer honouring the interface", "why_tests_cant": "all tags of up to ten bytes", "anchors": ["src/WireFormatter.h:DeserializeTag", "src/WireFormatter.h:DeserializeVarint"]}
{"id": "C64", "title": "Decoding any bytes gives the result of a reference decoder", "statement": "For any bytes, well formed or not, the error code of deserialize() and what every field holds afterwards (also after an error, and including left-over array elements) are those of a decoder on byte lists that knows nothing of buffers, sections, presence bits and unions; they depend only on the bytes, the declaration and what the object held before. Excepted is input with an unknown length delimited field that is longer than the data, outside a section.", "quantifier": "every schema, every object, every byte string, every read buffer honouring the interface", "why_tests_cant": "all byte strings, well formed or not, and all previous contents of the object", "anchors": ["generator/EmbeddedProto/templates/TypeDefMsg.h:deserialize", "src/MessageInterface.cpp:skip_unknown_field", "src/RepeatedField.h:deserialize", "src/FieldStringBytes.h:deserialize", "src/ReadBufferSection.cpp"]}
{"id": "C65", "title": "Assigning an object to itself leaves it unchanged", "statement": "x = x for a message object, and set_y(get_y()) for one of its fields, leave the object as it is.", "quantifier": "every schema, every object reached by any history of calls", "why_tests_cant": "all histories of all schemas", "anchors": ["generator/EmbeddedProto/templates/TypeDefMsg.h:operator=", "generator/EmbeddedProto/templates/TypeOneof.h:assign", "src/RepeatedFieldFixedSize.h:operator=", "src/FieldStringBytes.h:set"]}
{"id": "C66", "title": "An argument that is a part of the object itself is taken as it was before the call", "statement": "add, set and set_data of a repeated field with elements of the same field, set of a string with characters of the same string, and the setter of a oneof member with (a part of) another member of the same oneof do what they do with a copy of the argument.", "quantifier": "every schema, every object reached by any history of calls, every choice of the part", "why_tests_cant": "all histories, element types, lengths and positions", "anchors": ["src/RepeatedFieldFixedSize.h:add", "src/RepeatedFieldFixedSize.h:set", "src/RepeatedFieldFixedSize.h:set_data", "src/FieldStringBytes.h:set", "generator/EmbeddedProto/templates/FieldMsg_GetSet.h", "generator/EmbeddedProto/templates/TypeOneof.h:init"]}
{"id": "C67", "title": "The functions of a generated class do what the declaration of the message says", "statement": "If the class generated for a message compiles, then its constructor, clear, assignment, serialize and deserialize, and get_x, set_x, mutable_x, has_x, clear_x, add_x, x(index), get_which_o and clear_o, found by name as the C++ compiler does, act on exactly the declared field with the declared type, and there are no others.", "quantifier": "every valid message declaration, every object made by any sequence of calls of these functions, every buffer", "why_tests_cant": "all declarations, names and histories of calls", "anchors": ["generator/EmbeddedProto/templates/TypeDefMsg.h", "generator/EmbeddedProto/templates/TypeOneof.h", "generator/EmbeddedProto/templates/FieldBasic_GetSet.h", "generator/EmbeddedProto/templates/FieldMsg_GetSet.h", "generator/EmbeddedProto/templates/FieldRepeated_GetSet.h", "generator/EmbeddedProto/Field.py", "generator/EmbeddedProto/Oneof.py"]}
{"id": "C68", "title": "Every valid message declaration gives a class that compiles", "statement": "For every declaration protoc accepts, the generated class declares no name twice, uses no keyword as a name and hides no inherited function.", "quantifier": "every valid message declaration, every choice of names protoc accepts", "why_tests_cant": "all names", "anchors": ["generator/EmbeddedProto/templates/TypeDefMsg.h", "generator/EmbeddedProto/templates/TypeOneof.h", "generator/EmbeddedProto/Field.py:variable_id_name"]}
{"id": "C69", "title": "No sequence of calls of the functions of a generated class is undefined", "statement": "Whatever functions of a generated class a program calls, in whatever order and with whatever arguments (other than a part of the object itself, and the value of a oneof member that is not set), no call has undefined behaviour.", "quantifier": "every valid message declaration, every history of calls", "why_tests_cant": "all histories of all declarations", "anchors": ["generator/EmbeddedProto/templates/TypeDefMsg.h", "generator/EmbeddedProto/templates/TypeOneof.h", "generator/EmbeddedProto/Field.py:get_oneof_allocation"]}
{"id": "C70", "title": "A record of a field of the type of the message itself does not disturb decoding", "statement": "A message with a field of its own type, received with this field present, is decoded without an error; the field, which the generated class does not have, is passed over.", "quantifier": "every valid message declaration with such a field, every payload", "why_tests_cant": "all payloads", "anchors": ["generator/EmbeddedProto/templates/TypeDefMsg.h:deserialize", "generator/EmbeddedProto/templates/FieldErrorRecursive_GetSet.h"]}
{"id": "C71", "title": "field_number_to_name gives the declared name", "statement": "field_number_to_name gives for the number of each declared field its name, and for every other number a text that says it is invalid.", "quantifier": "every valid message declaration whose class compiles, every number", "why_tests_cant": "all declarations and numbers", "anchors": ["generator/EmbeddedProto/templates/TypeDefMsg.h:field_number_to_name"]}
{"id": "C72", "title": "The type of a field in the generated class is the declared type", "statement": "In the generated header the name written for the type of a message or enum field stands, by the rules of C++ for looking up names, for the type the .proto file declares for the field.", "quantifier": "every set of files, packages, nesting of messages and choice of names protoc accepts; every field", "why_tests_cant": "all declarations and names; a wrong type of the same shape compiles", "anchors": ["generator/EmbeddedProto/Field.py:get_reduced_scope", "generator/EmbeddedProto/Field.py:get_type", "generator/EmbeddedProto/Field.py:match_field_with_definitions", "generator/EmbeddedProto/TypeDefinitions.py:Scope"]}
{"id": "C73", "title": "The names of library types in a generated class stand for the library types", "statement": "EmbeddedProto::int32 and the other scalar types written in a generated class stand for the types of the library, whatever the package of the class and the names in it.", "quantifier": "every set of files, packages and names protoc accepts; every scalar type", "why_tests_cant": "all declarations and names", "anchors": ["generator/EmbeddedProto/Field.py:FieldBasic", "generator/EmbeddedProto/templates/Header.h"]}
{"id": "C74", "title": "Including a generated header brings in the headers of all imported files", "statement": "For every request one header per file is made; including any of them compiles the headers of exactly the files it imports, directly or not, each once and after those it imports itself; the include guards are names of macros and no header has the name of one of the library.", "quantifier": "every set of files with imports without cycles, every choice of file names", "why_tests_cant": "all import graphs and names", "anchors": ["generator/EmbeddedProto/main.py:generate_code", "generator/EmbeddedProto/ProtoFile.py:get_dependencies", "generator/EmbeddedProto/ProtoFile.py:get_header_guard", "generator/EmbeddedProto/templates/Header.h"]}
{"id": "C75", "title": "Every enum gives a declaration that compiles, with the declared numbers", "statement": "For every enum protoc accepts in a proto3 file, the generated enum class compiles, and each value is sent as the number in the declaration.", "quantifier": "every enum declaration", "why_tests_cant": "all declarations", "anchors": ["generator/EmbeddedProto/templates/TypeDefEnum.h", "generator/EmbeddedProto/TypeDefinitions.py:EnumDefinition"]}
{"id": "C76", "title": "Files in proto2 are refused", "statement": "When a file to be generated is in proto2 syntax, whose presence and defaults the generated code does not have, the generator reports an error instead of making a header.", "quantifier": "every request of protoc", "why_tests_cant": "all requests", "anchors": ["generator/EmbeddedProto/ProtoFile.py:__init__"]}
{"id": "C77", "title": "Values given for template parameters are the lengths of the fields they are named after", "statement": "A generated class whose lengths are left open can be instantiated with any values for its template parameters, and then every string, bytes and repeated field in it, at any depth, has exactly the length given for the parameter with its name; two fields of the same message type can have different lengths.", "quantifier": "every set of files protoc passes on, every message, every list of values", "why_tests_cant": "all nestings and values; a swapped length still compiles", "anchors": ["generator/EmbeddedProto/Field.py:get_type", "generator/EmbeddedProto/Field.py:get_template_parameters", "generator/EmbeddedProto/TypeDefinitions.py:Scope", "generator/EmbeddedProto/templates/TypeDefMsg.h"]}
{"id": "C78", "title": "A copy between fields of different maximum length holds the same value", "statement": "Constructing a repeated field from one of the same or a smaller maximum length gives a field with the same elements, that behaves like a list of these elements in everything done with it afterwards.  After a = b, with a and b string or bytes fields of whatever maximum lengths, the contents of a are those of b.", "quantifier": "every element type, all maximum lengths, every pair of objects a program can reach, every later history of calls", "why_tests_cant": "all pairs of lengths and contents; tests copy one short value", "anchors": ["src/RepeatedFieldFixedSize.h:RepeatedFieldFixedSize(const RepeatedFieldFixedSize<DATA_TYPE, MAX_LENGTH_RHS>&)", "src/FieldStringBytes.h:FieldString::operator=", "src/FieldStringBytes.h:FieldBytes::operator="]}
{"id": "C79", "title": "The text shown for a message is JSON with its names and values", "statement": "For every message object, the characters that to_string writes form a JSON text (RFC 8259). Its value is an object with one member for every field and for every oneof that is set, in the order of declaration, named like the field and with the value that the accessors return: integers exactly, booleans, strings with the same bytes, bytes and repeated fields as arrays in order, messages as nested objects.", "quantifier": "all message types, all object states, all nesting depths and string contents, all arrays with enough room", "why_tests_cant": "Commas, brackets and quotation marks depend on which fields and oneofs are set at every depth and on the contents of strings; tests compare the text of a few objects with a literal, and do not read it as JSON.", "anchors": ["src/Fields.h: FieldTemplate::to_string", "src/FieldStringBytes.h: FieldString::to_string, FieldBytes::to_string", "src/RepeatedField.h: RepeatedField::to_string", "generator/EmbeddedProto/templates/TypeDefMsg.h: to_string", "generator/EmbeddedProto/templates/TypeOneof.h: to_string_x"]}
{"id": "C80", "title": "From a request of protoc the generator makes the right headers", "statement": "If the generator reports no error, its response holds exactly one header for every file of the user (and for the descriptor of Google if one imports it); the header defines the types of the file, each once and after those it uses; and the class of every message has a place for every field, exactly the lengths it needs as template parameters, and for every member the declared type. What protoc has checked and can be put in an order is accepted.", "quantifier": "every request of protoc, any number of files, any nesting of messages", "why_tests_cant": "The whole generator for all requests; tests compile the headers of one set of files.", "anchors": ["generator/EmbeddedProto/main.py: generate_code, main_plugin", "generator/EmbeddedProto/ProtoFile.py: __init__", "generator/EmbeddedProto/TypeDefinitions.py: MessageDefinition", "generator/EmbeddedProto/templates/Header.h", "generator/EmbeddedProto/templates/TypeDefMsg.h"]}
{"id": "C81", "title": "What to_string of a generated class shows are the declared names with what the getters return", "statement": "For every message a class is generated for and every object made with the functions of the class, to_string writes a JSON text (given readable values, see the property on JSON), the value of which has a member for every field outside the oneofs, with the declared name of the field and the value of what get_f() refers to, a member for every field in a oneof for which has_f() is true, and no other member.", "quantifier": "every message descriptor whose class compiles, every object made with its functions, all arrays with enough room", "why_tests_cant": "All descriptors, including those with fields the generator leaves out; tests compare the text of a few objects of a few classes with a literal.", "anchors": ["generator/EmbeddedProto/templates/TypeDefMsg.h: to_string", "generator/EmbeddedProto/templates/TypeOneof.h: to_string_x", "generator/EmbeddedProto/templates/TypeDefMsg.h: field names"]}
{"id": "C82", "title": "A reference to a part of a message can be kept and used later", "statement": "A program keeps the reference that mutable_x(), get(i) or a chain of such calls returns, makes other calls on the message, and then uses it. This has the effect of making the calls along the way again and using their result: what is written is in the message, what is read is what the accessors return, and nothing else changes.", "quantifier": "all message types, all places at any depth, all object states a program can reach, everything that can be done through a reference", "why_tests_cant": "All states of the object between obtaining a reference and using it, at every depth; tests use the reference in the next statement.", "anchors": ["generator/EmbeddedProto/templates/FieldMsg_GetSet.h: mutable_x", "generator/EmbeddedProto/templates/FieldBasic_GetSet.h: mutable_x", "generator/EmbeddedProto/templates/TypeOneof.h: init_x, clear_x", "src/RepeatedFieldFixedSize.h: get, clear"]}
{"id": "C83", "title": "The text of a header is that of the classes the other properties are about", "statement": "For every request of protoc, the contents of the files in the response are, apart from white space and comments, exactly the guard, the includes, the namespaces, the enums with their values and the classes of the file; each class consists of the functions and members whose behaviour the other properties describe, the types of its members are spelled as looked up, and no name, number or type in the text can run into its neighbour.", "quantifier": "every request of protoc, any number of files, messages, fields, oneofs and enums, any nesting, all names protoc allows", "why_tests_cant": "All texts that nineteen templates with loops, conditions, macros and stripped white space can give; tests compile the headers of one set of files.", "anchors": ["generator/EmbeddedProto/templates/Header.h", "generator/EmbeddedProto/templates/TypeDefMsg.h", "generator/EmbeddedProto/templates/TypeOneof.h", "generator/EmbeddedProto/templates/TypeDefEnum.h", "generator/EmbeddedProto/templates/FieldBasic_GetSet.h", "generator/EmbeddedProto/Field.py: get_type, render_get_set, render_serialize, render_deserialize", "generator/EmbeddedProto/main.py: generate_code"]}
{"id": "C84", "title": "Messages can be written and read by hand with the functions of the wire format", "statement": "A program that writes fields one after the other with SerializeInt, SerializeUInt, SerializeSInt, SerializeFixed, SerializeSFixed, SerializeFloat, SerializeDouble, SerializeBool and SerializeEnum appends exactly the records a standard protobuf encoder makes for these numbers and values, or gets BUFFER_FULL, which only happens if they do not fit. Reading with DeserializeTag and the Deserialize function of the type gives back the numbers and values from any valid encoding of them, and leaves the rest of the buffer; whatever the bytes are, what is read without an error was there. A message of scalar fields written this way is read by its generated class as the same value, and the other way round.", "quantifier": "all sequences of fields of all scalar types with all values, all buffers that keep the promises of the interface, all byte strings to read", "why_tests_cant": "All sequences of fields, values, capacities and input bytes; tests write a single field with a few values to a mock.", "anchors": ["src/WireFormatter.h: SerializeInt, SerializeUInt, SerializeSInt, SerializeFixed, SerializeSFixed, SerializeFloat, SerializeDouble, SerializeBool, SerializeEnum", "src/WireFormatter.h: DeserializeTag, DeserializeInt, DeserializeUInt, DeserializeSInt, DeserializeFixed, DeserializeSFixed, DeserializeFloat, DeserializeDouble, DeserializeBool, DeserializeEnum"]}
{"id": "C85", "title": "Of a message of which only the beginning arrives, the loss is reported or the values before some point are received", "statement": "If a message is serialized and only a beginning of the bytes reaches the other side, deserialize() into a new or cleared object returns END_OF_BUFFER, or NO_ERRORS. In the second case the object has exactly the values of the message up to some point (which may be inside a nested message or an array) and the default value everywhere after it: no number, string or array element is received that was not sent, and nothing after the point.", "quantifier": "all message types, all object states, all buffers, every point at which the bytes can be cut", "why_tests_cant": "Every prefix of every message of every type; tests truncate a few messages, and the outcome depends on where in which kind of field the cut is.", "anchors": ["generator/EmbeddedProto/templates/TypeDefMsg.h: serialize, deserialize", "src/MessageInterface.h: deserialize_check_type", "src/RepeatedField.h: deserialize_packed, deserialize_unpacked", "src/ReadBufferSection.h: pop"]}
{"id": "C86", "title": "Messages sent over an unreliable network arrive as they were sent, or not at all", "statement": "One program changes an object with any calls and, again and again, clears its WriteBufferFixedSize, serializes the object and sends the bytes. Another one puts the bytes that arrive into its ReadBufferFixedSize (through get_data() and set_bytes_written(), or push()), clears its object and deserializes. The network may lose, repeat, reorder, corrupt and invent frames. Whenever the bytes of a message that was sent are received, deserialize() returns NO_ERRORS and the object has the value sent, whatever happened before; if the network keeps the order, the values received are those sent, in order; such bytes can be received at any time, a message can be sent at any time if the buffer is longer than the longest one, and nothing that arrives makes the receiver undefined.", "quantifier": "all message types, all histories of both programs and the network, all buffer sizes", "why_tests_cant": "Every interleaving of edits, sends, failures, and receptions of good and bad frames, with the leftovers of each in four objects; tests serialize and deserialize once with new objects.", "anchors": ["src/WriteBufferFixedSize.h", "src/ReadBufferFixedSize.h: clear, push, get_data, set_bytes_written", "generator/EmbeddedProto/templates/TypeDefMsg.h: serialize, deserialize, clear"]}
{"id": "C87", "title": "A repeated field that has been given no room behaves like a field that is not there", "statement": "If the maximum length of a repeated field is 0, its size is always 0; add() and set_data() report ARRAY_FULL and get_const(i, value) INDEX_OUT_OF_BOUND; none of its functions has undefined behaviour, whatever the index; the message is encoded as if the field had not been declared; and a received element for it gives ARRAY_FULL and changes nothing.", "quantifier": "all element types, all message types with such a field at any position, all histories of calls, all indices", "why_tests_cant": "All histories and indices; the clamp of the index is written for a length that is not 0, and tests only use arrays with room.", "anchors": ["src/RepeatedFieldFixedSize.h: get, get_const, set, add, set_data", "src/RepeatedField.h: serialize_with_id, deserialize_check_type"]}
{"id": "C88", "title": "What is received depends on the bytes that arrive and on nothing else", "statement": "If two programs with the same class, or one program at two times, put the same bytes into a ReadBufferFixedSize in either of the two ways, clear their object and deserialize, they get the same return value and the same value of the object; also if the bytes are no message at all, whatever was received before, and whatever the sizes of the two buffers are. More generally, deserialize() cannot tell apart two buffers that give the same answers through the interface.", "quantifier": "all message types, all byte strings, all pairs of histories, all buffer sizes, all pairs of buffers behind the interface that answer alike", "why_tests_cant": "All pairs of histories with all garbage; bytes after the end of the message that were left by an earlier one, and the size of the array, could have an influence, and tests compare single runs with literals.", "anchors": ["src/ReadBufferFixedSize.h", "src/ReadBufferInterface.h", "src/ReadBufferSection.h", "generator/EmbeddedProto/templates/TypeDefMsg.h: deserialize, clear", "src/RepeatedField.h: deserialize_packed, deserialize_unpacked"]}
{"id": "C89", "title": "Programs with different versions of a declaration understand each other over an unreliable network", "statement": "As in the property on messages sent over an unreliable network, but one program is made from a newer version of the declaration (fields, members of oneofs, messages added; maximum lengths changed). Whenever the bytes of a message that was sent are received and what the receiver knows of it fits its class, deserialize() returns NO_ERRORS and the object has the values of the fields both know; fields that only the receiver knows are not set. This holds in both directions and whatever was received before, and whatever arrives the receiver does not become undefined.", "quantifier": "all pairs of an older and a newer declaration, all histories of both programs and the network, all buffer sizes", "why_tests_cant": "All pairs of versions and all histories; tests have one version of each message.", "anchors": ["generator/EmbeddedProto/templates/TypeDefMsg.h: serialize, deserialize, clear", "src/WireFormatter.h: DeserializeTag", "src/MessageInterface.h: skip_unknown_field", "src/ReadBufferFixedSize.h", "src/WriteBufferFixedSize.h"]}
{"id": "C90", "title": "A message for which the receiver has no room is refused, never silently cut", "statement": "If a well formed message is deserialized, there are two cases. If the arrays and strings of the object have room for everything the bytes say, deserialize() returns NO_ERRORS and all of it is in the object. If not, it returns ARRAY_FULL. In particular a message that was sent by a program with longer arrays and strings, or with a newer version of the declaration, is received completely (as far as the receiver knows its fields) with NO_ERRORS, if it fits; if it does not fit, the result is ARRAY_FULL; also over an unreliable network after any history.", "quantifier": "all message types, all well formed messages, all values (whether or not they fit), all object states, all pairs of declarations with other maximum lengths or of different versions", "why_tests_cant": "Every combination of lengths at every depth; an implementation can drop the elements that are too many at one level only, and tests overflow one field at a time.", "anchors": ["src/RepeatedField.h: deserialize_packed, deserialize_unpacked, deserialize_check_type", "src/RepeatedFieldFixedSize.h: add", "src/FieldStringBytes.h: deserialize", "generator/EmbeddedProto/templates/TypeDefMsg.h: deserialize"]}
{"id": "C91", "title": "Several messages in one buffer, each preceded by its size", "statement": "A program writes any number of messages to one buffer, each preceded by its serialized_size() as a varint, and reads them back with ReadBufferSection, one after the other into one object that it clears before each. What it receives for each message, the error and the value, is what a new object would receive for that message alone: a message that cannot be decoded, or for which there is no room, does not disturb the ones after it. This holds for any bytes as messages; decoding each of them ends, and afterwards the buffer is at the byte after the message, also when there was an error.", "quantifier": "all declarations, any number of messages, any bytes as their contents, all buffers that keep the promises of the interface, all objects, and everything after the messages", "why_tests_cant": "the result depends on where decoding a malformed message leaves the buffer, for every malformed message, and on what it leaves in the object", "anchors": ["src/ReadBufferSection.h: ReadBufferSection, get_size, advance", "src/WireFormatter.h: SerializeVarint, DeserializeVarint", "src/MessageInterface.h: serialize, deserialize, serialized_size, clear"]}
{"id": "C92", "title": "Two programs whose classes were generated from different versions of the .proto files understand each other", "statement": "Two programs are built from two versions of the same .proto files; in the newer one there are new messages, fields, oneofs and members of oneofs anywhere, also in nested messages, fields have been made optional, fields and oneofs have been renamed, maximum lengths and the values of the template parameters are others. Whatever is sent with a class generated from one version is received with the class generated from the other: NO_ERRORS and the values of the fields both know, if there is room for them, and the fields that only the receiver knows not set; ARRAY_FULL if there is no room.", "quantifier": "all pairs of versions of any number of .proto files with the classes of each other as types of fields, all values of the template parameters, all objects made with the functions of the generated classes, all buffers that keep the promises of the interface", "why_tests_cant": "all pairs of versions of all files; the generator orders, names and parametrises the classes of each version separately, and tests have one version of each file", "anchors": ["generator/EmbeddedProto/Field.py", "generator/EmbeddedProto/TypeDefinitions.py", "generator/EmbeddedProto/Oneof.py", "generator/EmbeddedProto/templates/TypeDefMsg.h: serialize, deserialize", "src/MessageInterface.h: skip_unknown_field"]}
{"id": "C93", "title": "The order in which a message is declared does not matter", "statement": "Two programs have the same messages in their .proto files, with the fields, the oneofs and the members of the oneofs written in different orders, at any depth, and use the generated classes with the same lengths (by the names of the template parameters, whose order may differ).  What is sent by either is received by the other, field by field.  From any bytes both receive the same values and the same error code, also after an error (unless the bytes say that more is to be skipped than there is).  Objects with the same values have the same serialized size.", "quantifier": "all .proto files and all orders in them, all lengths, all values, all buffers, all received bytes", "why_tests_cant": "tests compare few orders of few messages; the switch over the field numbers, the memory of the oneofs and the template parameters are laid out by the order of the declarations, for every message anew", "anchors": ["generator/EmbeddedProto/TypeDefinitions.py:MessageDefinition", "generator/EmbeddedProto/Field.py", "generator/EmbeddedProto/Oneof.py", "generator/EmbeddedProto/templates/TypeDefMsg.h:deserialize/serialize"]}
{"id": "C94", "title": "A program with an older version passes on all it knows of a message, and nothing else", "statement": "A program with a newer version of a message sends it to one with an older version, which sends it on through any number of programs with that older version to one with a newer version, the first one or another.  Unless one of them has no room, the last one receives the values of all fields the older version has; all that the older version does not have is not set.  What is sent on is never longer than what was received, and a program with the version of the first one always has room for what comes back.", "quantifier": "all declarations and all that may have been added to them at any depth, all objects, any number of programs, all buffers that keep the promises of the interface; also for the classes generated from three versions of any .proto files", "why_tests_cant": "three programs with different classes must be run one after the other, for every message and all additions; the library drops what it does not know without notice", "anchors": ["src/MessageInterface.h: skip_unknown_field", "generator/EmbeddedProto/templates/TypeDefMsg.h: serialize, deserialize", "src/Fields.h", "src/RepeatedField.h"]}
{"id": "C95", "title": "Several messages in one buffer, for a program with another version", "statement": "A program writes any number of messages to one buffer, each preceded by its size, and a program with an older or a newer version of the declaration, or with other maximum lengths, reads them one after the other into one object.  For each message it receives NO_ERRORS and the values of the fields both know, if there is room for them, and otherwise ARRAY_FULL; a message that is too large, or has fields the reader does not know, does not disturb the ones after it.  Afterwards the buffer is at the byte after the last message.", "quantifier": "all declarations and all that may have been added to them at any depth, any number of messages, all objects, all buffers that keep the promises of the interface, and everything after the messages; also for the types of the classes generated from two versions of any .proto files", "why_tests_cant": "the position of the buffer after each message depends on all unknown and all too large fields in it; tests read few messages with one version", "anchors": ["src/ReadBufferSection.h: ReadBufferSection, get_size, advance", "src/MessageInterface.h: skip_unknown_field", "src/WireFormatter.h: SerializeVarint, DeserializeVarint", "generator/EmbeddedProto/templates/TypeDefMsg.h: serialize, deserialize"]}
{"id": "C96", "title": "The types and the initial values in a header are those of the declaration", "statement": "The data members in the text of a generated class, read as C++, have the types of the declaration: the class of the library for the type of a scalar, enumeration, FieldString or FieldBytes with the given length or that of the template argument, the class of the message with the right arguments, RepeatedFieldFixedSize of the right type and length; the same for the members of unions.  The functions set_x, get_x and x of a scalar have the C++ type of the value in the member, and its initial value, with which it is also compared before it is serialized, is a literal of the kind of this type with the value zero.  For an enum this type is the enum of the member, and the initial value is zero cast to it; for a message it is the class of the member, whose destructor is called by the last name of its path, with the same template arguments.", "quantifier": "all requests with proper names and without a oneof that has a field of its own message, all classes in them at any depth, all values of the template parameters for which the members can be declared, provided that the names of types are found (C72, C73)", "why_tests_cant": "the text must be read and its meaning compared with the declaration, for all files; a wrong entry in a table of types compiles and shows only as a wrong encoding or a wrong default", "anchors": ["generator/EmbeddedProto/Field.py: type_to_cpp_type, type_to_cstdint, type_to_default_value, get_type, get_default_value", "src/Fields.h: int32, ..., enumeration", "generator/EmbeddedProto/templates/TypeDefMsg.h", "generator/EmbeddedProto/templates/TypeOneof.h"]}
{"id": "C97", "title": "The enums in the text of a header are those of the file", "statement": "Every enum of a .proto file, nested in messages or not, is in the text of its header: its tokens follow each other there, and read as C++ they are an enum class over uint32_t with the name of the enum and the names and values of its enumerators, in this order.  (C75 says which of these compile.)", "quantifier": "all requests with proper names and without a oneof that has a field of its own message; all enums with any names and values, at any depth", "why_tests_cant": "tests have few enums, none with a negative value; the text must be read as C++", "anchors": ["generator/EmbeddedProto/templates/TypeDefEnum.h", "generator/EmbeddedProto/TypeDefinitions.py: EnumDefinition", "generator/EmbeddedProto/templates/Header.h", "generator/EmbeddedProto/templates/TypeDefMsg.h"]}
{"id": "C98", "title": "An object can hold exactly the values within its maximum lengths", "statement": "The values that the objects of a generated class can hold, whatever functions are called on them, are exactly the values of the declaration in which every string, every bytes field and every array is within its maximum length, at every depth: none of these is out of reach, and no call makes an object hold any other.", "quantifier": "all declarations with any lengths at any depth, all values, all sequences of calls", "why_tests_cant": "the set of all states an object can be brought to by any sequence of calls cannot be enumerated", "anchors": ["src/Fields.h", "src/FieldStringBytes.h: set", "src/RepeatedFieldFixedSize.h: add, set, set_data", "generator/EmbeddedProto/templates/FieldBasic_GetSet.h", "generator/EmbeddedProto/templates/TypeDefMsg.h: deserialize"]}
