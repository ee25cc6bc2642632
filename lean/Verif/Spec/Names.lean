import Verif.Spec.Descriptor

/-!
# Names in a declaration

Rules for the names of fields, oneofs and types under which the generated class compiles (C68).
-/

namespace EP.Gen

/-- The characters of a name in the usual style. -/
def nameChars : List Char := "abcdefghijklmnopqrstuvwxyz0123456789_".toList

/-- What the templates put before a name; a name that begins with one of these may be that of a function of
another field. -/
def namePrefixes : List Str :=
  ["get_", "has_", "clear_", "set_", "mutable_", "add_", "init_", "deserialize_", "to_string_", "which_"].map String.toList

/-- Names the templates use themselves; of a oneof called `check_type` the function to decode it would hide
`deserialize_check_type`. -/
def nameReserved : List Str :=
  ["serialize", "deserialize", "clear", "to_string", "field_number_to_name", "presence", "not_set", "check_type"].map String.toList

/-- The member functions a message inherits from `Field` and `MessageInterface` and does not override:
/repo/src/Fields.h:81, 97-104, MessageInterface.h:51-77. -/
def nameInherited : List Str :=
  ["serialize_with_id", "deserialize_check_type", "serialized_size", "skip_unknown_field", "skip_varint",
   "skip_fixed32", "skip_fixed64", "skip_length_delimited"].map String.toList

/-- The words of C++20 with a meaning of their own. -/
def keywords : List Str :=
  ["alignas", "alignof", "and", "and_eq", "asm", "auto", "bitand", "bitor", "bool", "break", "case", "catch", "char",
   "char8_t", "char16_t", "char32_t", "class", "compl", "concept", "const", "consteval", "constexpr", "constinit",
   "const_cast", "continue", "co_await", "co_return", "co_yield", "decltype", "default", "delete", "do", "double",
   "dynamic_cast", "else", "enum", "explicit", "export", "extern", "false", "float", "for", "friend", "goto", "if",
   "inline", "int", "long", "mutable", "namespace", "new", "noexcept", "not", "not_eq", "nullptr", "operator", "or",
   "or_eq", "private", "protected", "public", "register", "reinterpret_cast", "requires", "return", "short", "signed",
   "sizeof", "static", "static_assert", "static_cast", "struct", "switch", "template", "this", "thread_local", "throw",
   "true", "try", "typedef", "typeid", "typename", "union", "unsigned", "using", "virtual", "void", "volatile",
   "wchar_t", "while", "xor", "xor_eq"].map String.toList

/-- A name of a field or a oneof that is safe to use. -/
structure PlainName (x : Str) : Prop where
  nonempty : x ≠ []
  chars : ∀ c ∈ x, c ∈ nameChars
  last : x.getLast? ≠ some '_'
  noPrefix : ∀ p ∈ namePrefixes, ¬ p <+: x
  reserved : x ∉ nameReserved
  inherited : x ∉ nameInherited
  keyword : x ∉ keywords

/-- A name of a type that is safe to use: with a capital. -/
structure TypeName (t : Str) : Prop where
  capital : ∃ c ∈ t, c ∉ nameChars
  suffix : ¬ "_NAME".toList <:+ t
  fieldNumber : t ≠ "FieldNumber".toList

/-- Safe names all over a message: its own, those of nested types, of the fields and of the oneofs. -/
structure PlainNames (name : Str) (nested : List Str) (fields : List FieldDesc) (oneofs : List Str) : Prop where
  types : ∀ t ∈ name :: nested, TypeName t
  typesDistinct : (name :: nested).Nodup
  plain : ∀ x ∈ fields.map (·.name) ++ oneofs, PlainName x
  distinct : (fields.map (·.name) ++ oneofs).Nodup

end EP.Gen
