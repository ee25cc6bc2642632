# A Lean 4 model of EmbeddedProto

This file was written before the proofs and is kept current.  The property list
is `properties.jsonl`, the claim table is `MANIFEST.json`, mutation-test results are in
`seeded/LOG.jsonl`.

## 1. Shape of the model

The C++ runtime (`/repo/src`) and the code the generator emits
(`/repo/generator/EmbeddedProto/templates`) are modelled function by function as
total, computable Lean functions.  Every definition cites file and lines.

* **Outcomes.**  Every modelled function returns `Res α`: `ok a`, `ub`
  (an access outside an array, or to an inactive union member) or `diverge`
  (loop fuel exhausted).  C++ error codes are ordinary data (`Error`).
* **Integers.**  Values are `BitVec 32` / `BitVec 64`.  `uint32_t` indices and
  sizes are `Nat` with explicit `% 2^32` at every C++ addition that can wrap.
* **Floats** are bit patterns; the only float operation in the code under study is
  the comparison with `0.0`, modelled as "all bits but the sign are zero".
* **Buffers** are type classes (`ReadBuffer`, `WriteBuffer`) = the C++ abstract
  interfaces, with instances for `ReadBufferFixedSize`, `ReadBufferSection` (over any
  read buffer), `WriteBufferFixedSize`, `MessageSizeCalculator`.  All code above is
  polymorphic in the buffer, as in C++, so theorems also cover user
  implementations that satisfy the documented contract (`ReadModel`, `WriteModel`).
* **Classes.**  A C++ class derived from `Field` is a `FieldClass`: a state type
  and the virtual functions.  `FieldTemplate`, `FieldString/FieldBytes`,
  `RepeatedFieldFixedSize<T,N>`, and generated messages are combinators building
  `FieldClass`es, as the C++ templates do.
* **Schemas.**  `ElemTy / Fields / Alts / Oneofs` are the message declarations;
  `ElemTy.cls` is "what the generator emits" for it: a `FieldClass` computed from
  the schema by instantiating the templates.  Theorems quantify over all schemas.
* **Loops** whose termination is a property (the tag loop and the packed loop) take
  `fuel`; termination is proved as "enough fuel exists", and non-termination as
  "`diverge` for every fuel".
* Arrays are modelled completely, including the stale elements above the current
  length, and including the presence bit words and the oneof selector + union
  storage, because several defects live there.

## 2. Specification, separate from the model

`Verif/Spec/*` does not mention the code (except `Observe`, `Shown` and `Contracts`, which say what an object or
a buffer of the model *means*):

| File | Content |
|------|---------|
| Wire | base-128 varints on `Nat`, zigzag on `Int`, little endian, tags, length-delimited records |
| Schema | message declarations |
| Value | logical values (plain = value, optional = `Option`, repeated = `List`, oneof = tagged choice), protobuf encoding, merge, which values fit.  `encode` uses the 5-byte form of negative int32/enum that the code writes; `encodeStandard` the 10-byte form of protobuf |
| Stream | well formed record streams (any order, repetition, non-minimal varints, unknown fields) and their effect |
| Syntax | well formed messages without saying what their values are or whether they fit |
| Held | value of an object with the leftovers in its arrays of messages; what decoding does to it |
| Observe | the observable value `abs`, the class invariant `Inv`, and `Clean` (unused elements of arrays of messages are as new) of each class |
| Contracts, Outcome, BufferHistory | the documented contracts of the buffer interfaces, Hoare predicates, log/queue reference machines |
| Fail, Truncate, Lost | which malformed/truncated inputs give which error and leave what value; which truncated inputs go unnoticed, and with what value |
| Moved | the same declaration with fields, oneofs and members in another order: `Moved`, generated by exchanging neighbours at any depth; the same value (`val`) and contents (`held`) in the other order |
| Reordered | `.proto` files in another order: `ReorderedFiles`; the same template arguments by name: `SameArguments`; newer versions in which what was kept may be in another order: `ChangedFiles` |
| Evolved | what may be changed in a new version of `.proto` files |
| Framed | a message preceded by its size; what is received for a message alone |
| Link | two programs, with classes from one declaration or two, with an object and a buffer each, and what can be seen of them |
| Upto | a value equals another up to some point, and is the default after it |
| Without | a declaration and a value without one of the fields |
| Slot, SlotRecord | one field of a declaration, its value and the records for it |
| Bounded | lists of bounded length (for repeated and string fields) |
| Shelf | an array of which the first elements are shown: what repeated and string fields do in every history (C31, C32) |
| Groups | messages with unknown groups, and what is left without their tags (C36) |
| Beyond | bytes in which a length is more than what follows (C21, C45, C64) |
| Text, Shown | the text of a value, when `to_string` has enough room |
| CppTypes | a reader of the types of members, the fundamental types, literals and enum declarations in C++ tokens, with the names of the library (Fields.h:441-456) |
| Json | a reader of JSON texts (RFC 8259), and the JSON value of a message |
| Named | the text of a generated class: names of its fields, the JSON value of what a data member holds |
| Trailing | which encodings end with the contents of a string |
| Number | the number a scalar value stands for (for floating point: its IEEE magnitude, scaled), what the six comparisons mean |
| Older | the older versions of a declaration (added fields, oneofs, members; fields made optional; other array sizes; at any depth), what a value is for the older and for the newer version |
| Compatible | which scalar types may be changed into each other, and the cast of a number to a type |
| MaxSize | the size of the largest message of a declaration |
| Standard | a property of all scalars in a value; enums that are not negative |
| Parse | a reference decoder on lists of bytes: for any bytes the error and what the object holds afterwards |
| Alias | does a value hold a non-empty string |
| Names, Served | rules for names in the usual style; what each function of a generated class is to do, in terms of the declaration, and the objects made by calling them |
| Request | requests of protoc, the classes in a response, when they are right |
| Descriptor, Placed, Header, Templates | what protoc passes to the generator, where fields belong, order of types in a header, lengths a class needs |
| AsC | the value an object has if its strings are read up to the first NUL |
| Instance | the type of a message with a length chosen for each path |
| Lookup, Files | names of C++ looked up in nested scopes; including headers with guards, import graphs, enums |

"Every state a program can reach" is `ElemTy.Reach` (Model/Api.lean): the calls of the public interface of the
generated class, of the field classes behind `mutable_x()`, and decoding from any source, in any order.  `History`
(Model/Accessors.lean) is the same with labels.  `Received` are objects only used to receive and be cleared.

## 3. Proof plan per property

| Id | How |
|----|-----|
| C01 C02 C06 | induction on the number of 7-bit groups; decoder characterised on arbitrary bytes |
| C03 | bit-level extensionality + integer interpretation |
| C04 | induction over bytes, little endian reassembly |
| C05 | arithmetic on `8*n+t` plus C01 |
| C07 C41 | case analysis over scalar types using C01, C03, C04 |
| C08 C10 C31 C32 | refinement: abstraction function to lists, every operation commutes, induction over histories; for the exact results, refinement to arrays of which the first elements are shown (`Spec/Shelf`) |
| C09 C11 C16 C21 C26 C35 C36 C37 C38 C39 C46 C50 (expected false in part) | concrete counter-example proved about the model; the true part as `_partial` |
| C26, exact boundary | every proper prefix of a record stream is `Truncated`, `Lost` or `Overlong` (mutual induction over the declaration); the reference decoder of C64 on each of them |
| C36, exactly | the reference decoder of C64 on a message with groups and on the same without the group tags, step by step; for lengths beyond the end, the index of `ReadBufferFixedSize` after the skip |
| C21, when decoding ends | the reference decoder of C64 leaves something open only after a length beyond the end of the data (mutual induction over the declaration, any bytes) |
| C79 (expected false in part) | a reader of JSON is the specification; the text of C46 consists of members and elements (`MemberText`, `ElemText`), and the reader recovers them; structural induction over the schema; conversely what is read as the right value is readable, since a string is never longer than what it was read from and as long only without escapes (`Proof/JsonOnly.lean`); the declarations without unreadable values (`Spec/Json.lean`: `Safe`) by structural induction (`Proof/JsonSafe.lean`), with C98 |
| C81 (expected false in part) | the statements of `to_string` as the templates emit them, with names looked up in the class; folding them over the members is the `to_string` of the declaration (C46), except for the comma; then C79 |
| C82 (expected false in part) | a reference is a path of data members, elements and union members; using it is a function on the object that does not look at flags, lengths and selectors; induction over the path compares it with the calls of `Model/Accessors` made again |
| C83 (expected false in part) | the templates as text (Model/TemplateText, equal to the files in /repo: tools/templates.py), a parser and renderer for the part of Jinja they use, a tokenizer for C++; the parse trees of the templates by computation, the rendering of each macro and loop by induction over fields, oneofs, enumerators and nested classes; the tokens are those of a tree of the class, printed (Spec/HeaderOf), which with types and spellings erased is the class of `Gen.render` |
| C87 (expected false in part) | the invariant of the class leaves one state; the encoding by induction over the position of the field in the declaration (`Spec/Without`); received records: C25 |
| C94 | C13, C90, C56 and C57 one after the other; that the older version's encoding of what it knows is not longer, and that the newer version has room for what comes back, by induction over the declaration (`Proof/PassedOn.lean`) |
| C95 | C91 with the receivers of C90 and C92: what is received for a frame is what a section with these bytes gives (`alone_read`), and this is known for the encodings of the other version |
| C96 | a reader of C++ types and literals (`Spec/CppTypes.lean`), independent of the tables of the generator; the tokens of each member are those of C83, and reading them gives the type of `instanceTypes` (C77) |
| C97 | a reader of enum declarations (`Spec/CppTypes.lean`), on the tokens of the header (C83), of which those of each enum are a part |
| C98 | `Fits` (the lengths of strings and arrays in the value) is kept by every call (the invariant of C01); conversely a value that fits is made by setting one field after the other (`Spec/Made.lean`: objects made with the setters only; structural induction in `Proof/Made.lean`), or by decoding its encoding into a new object |
| C93 | two types with the same members in different orders (`Spec/Moved.lean`); the reference decoder (C64) commutes with the exchange of neighbours, by induction over the declaration (`Proof/Moved.lean`); sizes, fitting and canonical values likewise; for files, `instantiate` of reordered files gives a reordered type, with template parameters matched by name (`Proof/Reordered.lean`) |
| C92 | by induction over the order of the classes, the type of an instance of a class from the older files is an older version, as in C56, of that of the newer (`instantiate_older`); with C67 and C77 both classes implement the model of their types, so C13 and C90 apply; in any order (`Proof/AnyOrder`): either version is first put in the order of the other, which C93 shows to make no difference |
| C91 | the size is read (`varint_dec`), the section holds exactly the message (`Section.new_frame`), decoding in it follows the reference decoder (C64) and keeps the section's invariant also after an error (`Proof/Clean`), and `advance` leaves the buffer behind it; induction over the messages |
| C90 | the reading of the bytes described in `Spec/Parse` either is the effect of the records or stops with `ARRAY_FULL` (`Proof/OkOrFull`, induction over the declaration); leftovers that are blank do not show (`Proof/Lower`); for encodings of values that do not fit, compare with a declaration with more room (`Proof/Wide`) |
| C88 | bisimulation: no code above the interface can tell buffers apart that answer alike (`Proof/Bisim`, for every class by induction over the declaration); the fixed size buffer only shows the bytes written |
| C89 | the invariant of C86, for two declarations, with C56 and C57 |
| C86 | invariant over histories of both programs (Proof/Link): reachable objects, sane buffers, every frame sent is an encoding, every reception a run of `deserialize` on it; runs with different loop bounds agree (Proof/LoopBound) |
| C85 | every proper prefix of an encoding is `Truncated`, or `Lost` with a value that is the sent one up to a point (mutual induction over the declaration and the value); then C26 |
| C84 (expected false in part) | the functions of `WireFormatter` that write a tag and a value, and `DeserializeEnum` (Model/WireFields), programs that call them one after the other; writing: by induction over the fields from C02, C04, C05; reading: the bytes of any valid encoding are read, and conversely what is read without an error was there, by cases on the type; for classes: the encoding of a message of scalar fields is the concatenation of the records of its fields |
| C78 (expected false in part) | result of the element-wise copy; then the refinement to lists of C31 from the copied state, and to arrays (`Spec/Shelf.lean`) for every history |
| C13 C17 C34 exact conditions | a value equals its canonical form iff it has no `-0.0` in a field without presence (`Spec/NegZero`), by induction over the declaration; encodings then differ from the standard ones only by being shorter |
| C25 C39 for every object | what an array field holds, leftovers included (`Slot.array`), and how elements are merged into the leftovers in order (`Into`); blank leftovers are the case in which this is what was sent |
| C08 C11 C37 C58 exact conditions | the result of the call in the remaining cases, computed |
| C13 C16 C17 C34 C61 C65 exact declarations | the places in a declaration where there can be a value (`Spec/Places.lean`); every value has a property of its scalars and strings iff the type in every place has it (`Proof/Places.lean`; for C16 `Proof/TextPlaces.lean`; for C61 `Proof/EnumPlaces.lean`, with a bound on what a standard encoder writes); every value is that of some object (C98) |
| C18 C19 exact declarations | `Spec/Steady.lean`: no array has room for a message that can hold anything; every reachable object has blank leftovers iff so (`Proof/Steady.lean`: calls on a part are calls on the whole, and an array emptied with `set_data` keeps its elements); what there is room for fits (`Proof/Room.lean`), so that C18_blank_iff applies |
| C25 C39 exact declarations | the same, one level only: repeated fields of the message itself (`NothingLeft`); an array with something left in its first place shows it when an empty message is received |
| C23 C24 C38 C52 C62 exact declarations | which fields a declaration has; for each a record that shows the fault, of an object that has the field or oneof in the state in which it shows |
| C21 C26 C36 for no declaration | an unknown field with a length beyond the data, resp. one that leads back to the start of the buffer; the loop is followed on the buffer itself |
| C46 for no declaration | the strings of a new object are terminated (`terminated_init`), so that the exact behaviour applies to any array too small for its text |
| C31, C32 for no maximum length | the exact result (`C31_exact`, `C32_exact`) of one history: one element is added, the contents are replaced by nothing, element 0 is looked at; conversely, if every cell has the default value, nothing else can be uncovered |
| C78 for which maximum lengths | the longest string of the source, which an object holds since every value that fits can be made (C98) |
| C09, C63 exactly | arithmetic on the exact conditions |
| C08, C11 for which buffers | a full buffer and the `n` with which its read position wraps; one byte and a block with which the write position wraps |
| C58 for which types | the exact numbers that survive (`C58_compatible_iff`), and for each pair of types with one that does not, such a number |
| C16 exact condition | which encodings end in string contents: `Spec/Trailing`; `AppendsT` carries that flag through every serialization law, and `WriteModel.Sharp` says when the two pushes of a buffer refuse |
| C12 | invariant "parent position <= start + n" over any sequence of operations |
| C13 C14 C15 | one law per class combinator ("appends a prefix of enc"), then induction over schemas |
| C17 C18 C19 C22 | "consumes" law per class: from view `record ++ rest` to view `rest` with merged value; induction over schemas and record streams; the same laws instantiated with an observation that includes leftovers give the exact result for every reachable object |
| C40 C45 C54 | "syntax" law per class: for well formed input error code and object are settled by the object and the bytes, whatever the buffer; induction over schemas and records |
| C55 (expected false in part) | the usual arithmetic conversions keep the number unless a negative one is made unsigned; IEEE magnitude is strictly monotone in the bits; an integer converted to `float` or `double` is between the same floating point numbers as before, and unchanged if it is one |
| C56 C57 | a record of the newer declaration is a record, or an unknown one, of the older; a lifted value has the same encoding; induction over the relation between declarations; then C13, C17 |
| C58 (expected false in part) | which varints a field accepts (C08, C09) applied to what another type writes |
| C59 | C13, C17, and that the canonical form of a value is canonical |
| C60 | the length of an encoding is bounded by induction over the declaration; a largest value exists and can be decoded |
| C61 (expected false in part) | both encodings agree on values without negative enums; the records of the standard encoding are well formed (C19); with a negative enum at any depth: the records before it are read, then the decode fails (the relation of C26) |
| C62 (expected false) | C23 for the wire type of the element; C19 for packed records |
| C63 (expected false) | classification of varints (C06) |
| C64 | the read operations as steps on a position in a byte list (`Proof/Cursor`), then induction over the declaration and the records (`Proof/Parse`); totality in sections (`Proof/ParseTotal`) |
| C65 (expected false in part) | induction over the declaration: self-assignment changes nothing, or copies a non-empty string onto itself |
| C66 (expected false in part) | arrays: an element is read before its place is written; strings: overlap of the two ranges; oneofs: the member read is not the live one after `init` |
| C20 C44 | safety law per class for arbitrary input; induction over schemas |
| C23 C24 C25 C42 C43 | direct per class, lifted to messages |
| C27 | bit-vector words refine a set of booleans |
| C28 | invariant over histories |
| C29 C30 C33 C34 | laws `clear`, `assign` per class; C33/C34 follow from C13 and C17 |
| C46 | text of a value as a list of bytes; "writes" law per class: with enough room exactly the text is appended; induction over schemas; for strings that are not terminated the value as C reads it (`asC`), or none |
| C47 | mkMessage against `Placed`: permutation of the fields into members |
| C67 (expected false in part) | `render`: the templates as syntax trees, an interpreter that looks names up; each function found by name acts on the slot of its field (GenAccess), the whole-object functions refine the combinators by induction over the fields and oneofs (GenRefine) |
| C68 (expected false) | pairwise distinctness of all declared names from rules on the given names |
| C69 (expected false in part) | C67 with the safety laws of C20, C44; objects made by calls are reachable ones |
| C70 (expected false) | the case of a field left out is empty; what becomes of the record then depends on its length (`Props/OwnType`) |
| C71 | the descriptors left in the class are those of the declaration |
| C72 C73 (expected false) | the lookup of names of C++ as a function on scopes; exactly when it gives the declared type, by induction on the depth of the class; prefixes of a full name are scopes, by induction on nesting |
| C74 (expected false in part) | the preprocessor with include guards as a function; invariant over nested includes, rank by position in the request |
| C75 C76 (expected false) | direct |
| C77 (expected false in part) | instantiation of class templates by names of parameters; induction on the position of a class, arguments of inner classes by the paths of C49 |
| C80 (expected false in part) | the phases of `generate_code` composed; sorting a file keeps its messages, so that C47, C48, C49, C72, C74 apply to what each phase passes on; acceptance: each phase is total on what protoc has checked |
| C48 C53 | topological sort proved for any dictionary; the dependencies recorded by the generator are enough for the nested order; acceptance by a rank: the position at which a class begins in a header that is in order; the converse by a cycle through the nested names |
| C49 | invariant of the registration pass over the classes completed so far; then induction on the position of a class |
| C50 C51 C52 | frame lemmas per accessor (Slot, Member); exact characterisation of the array behind a string |

## 4. Trusted base

Lean 4.33 kernel; axioms `propext`, `Quot.sound`, `Classical.choice` only (audited by
`#print axioms`/vcheck); the reading of C++ semantics expressed by the model's
definitions.  The combinators that build a class from a declaration are hand instantiations of the templates; that
they agree with the templates is proved (C67) for the class `Gen.render` builds from the descriptor, in which the
statements of the templates are syntax trees that refer to everything by name.  That these trees are what the text of the
templates says is proved (C83): the text in the response, tokenized, is the printed tree.  What remains trusted there is
* the copy of the templates in Model/TemplateText (`python3 tools/templates.py /repo` compares it with the files);
* the reading of Jinja in Model/Jinja and Model/Render: lexing of `{% %}`, `{{ }}`, `{# #}`, `trim_blocks`,
  `lstrip_blocks`, `for`, `if`, macros, `import`, the filters and the attributes that are used;
* the tokenizer: identifiers and numbers, strings, comments, lines of the preprocessor and single characters (so `a<b` and
  `a < b` are the same, as they are in C++11);
* that a C++ compiler reads a printed tree (`CClass.print`) as the interpreter of C67 does.

### Simplifications in the model
* `string_view`/`to_string`: `indent_level` is a natural number; `%f` is a parameter of the printer; `%ld` is
  taken to fit `int64_t`; enums are printed `%d` of their 32 bits; `snprintf` of 2^31 or more characters is
  undefined.
* A `DATA_TYPE x` in `deserialize_packed` is not initialised in C++; no value of it is used before it is written,
  the model uses the initial value.  Enum members of oneofs are not constructed by placement new (Field.py:126); the
  combinators have their initial value there, which is overwritten before it can be read.  `Gen.render false` reads
  this strictly: using such a member is undefined (C67, C69); `Gen.render true` has the missing construction.
* References from `mutable_x()`, `get(i)` are used at once; keeping them is modelled on its own (`Model/Kept`, C82, which
  shows that using those that are alive reaches no other states); references to single characters of strings are not kept
  there.  The reachable states are those reached with
  arguments from other objects; calls with a part of the object itself as argument (self-assignment, `a.add(a.get(i))`,
  `x.set_b(x.get_a())`) are modelled on their own (`Model/Alias`, C65, C66).
* `float` and `double` are IEEE binary32 and binary64; conversions round to nearest, ties to even, and comparisons use no
  wider format (`FLT_EVAL_METHOD` 0) (C55).
* The two classes `FieldString` and `FieldBytes` are one in the model, except in `to_string`.
* Generator: names are lists of characters; Python dicts and sets are lists (full names are distinct); `toposort`
  is a Python package outside /repo, modelled after its documentation; recursive calls of `sort_nested` commute.
  A response (C80) holds of each header what the other claims are about; its text is that of C83.  `file_to_generate` is
  not read by the code either.  Numbers and names of the values of enums are a parameter of the text (`V`).
* Model/Canon.lean is a reference buffer used in proofs, not part of the code.

### Not modelled
* C++ object layout, alignment, destructors (all fields are trivially destructible up to virtual tables), move
  semantics beyond "move = copy" (the templates' move constructor performs the same member-wise set).
* protoc; Jinja beyond what the templates use; the grammar of C++ (C83 goes from the text to tokens, not from tokens to
  trees: the tree is printed instead).
* Names found through arguments (ADL), using directives and macros in the lookup of C72.
* In the instances of C77: a template argument found among the parameters of an enclosing class template.
* `Compiles` (C68) is about names only.  A recursive optional field or oneof member generates C++ that does not compile
  for another reason (`has_x` is missing); the model leaves the field out.
* Concurrency (the library has none).

## 5. Layout

`Model/` the code; `Spec/` the specification; `Proof/` lemmas; `Props/` one theorem group per property, with the
full statement as `Cnn_Statement` where only a part is true, `Cnn_…_partial` for that part and `Cnn_…false` for
the refutation, and concrete examples meeting the hypotheses.

`seeded/LOG.jsonl` records wrong programs tried in a scratch copy: the edit, the claim it breaks, the lemmas and
theorems whose proofs failed, the property theorems resting on those, and what was tightened.
