import Verif.Model.Jinja

/-!
# The templates, parsed

What `Jinja.parse` makes of the files in `TemplateText`, in parts.
-/

namespace EP.Gen.Jinja.Parsed

open Template

set_option maxRecDepth 10000

def header_1 : Nodes :=
  .text (chars! "/*\n *  This file is generated with Embedded Proto, PLEASE DO NOT EDIT!\n *  source: ") <|
  .expr (.attr (.attr (.var .proto_file) .descriptor) .name) <|
  .text (chars! "\n */\n\n// This file is generated. Please do not edit!\n#ifndef ") <|
  .expr (.ask (.var .proto_file) .get_header_guard) <|
  .text (chars! "_H\n#define ") <|
  .expr (.ask (.var .proto_file) .get_header_guard) <|
  .text (chars! "_H\n\n#include <cstdint>\n") <|
  .ite (.attr (.var .proto_file) .msg_definitions)
  (.text (chars! "#include <MessageInterface.h>\n#include <WireFormatter.h>\n#include <Fields.h>\n#include <MessageSizeCalculator.h>\n#include <ReadBufferSection.h>\n#include <RepeatedFieldFixedSize.h>\n#include <FieldStringBytes.h>\n#include <Errors.h>\n#include <Defines.h>\n#include <limits>\n\n") <|
  .nil)
  (.nil) <|
  .nil

def header_2_yes_1 : Nodes :=
  .text (chars! "// Include external proto definitions\n") <|
  .nil

def header_2_yes_2_body : Nodes :=
  .text (chars! "#include \"") <|
  .expr (.var .dependency) <|
  .text (chars! "\"\n") <|
  .nil

def header_2_yes_2 : Nodes := .loop .dependency (.ask (.var .proto_file) .get_dependencies) header_2_yes_2_body .nil

def header_2_yes_3 : Nodes :=
  .text (chars! "\n") <|
  .nil

def header_2_yes : Nodes :=
  header_2_yes_1 ++ (header_2_yes_2 ++ (header_2_yes_3))

def header_2_no : Nodes :=
  .nil

def header_2 : Nodes := .ite (.isDefined (.ask (.var .proto_file) .get_dependencies)) header_2_yes header_2_no .nil

def header_3_body : Nodes :=
  .text (chars! "namespace ") <|
  .expr (.var .namespace) <|
  .text (chars! " {\n") <|
  .nil

def header_3 : Nodes := .loop .namespace (.ask (.var .proto_file) .get_namespaces) header_3_body .nil

def header_4 : Nodes :=
  .text (chars! "\n") <|
  .nil

def header_5_body_1 : Nodes :=
  .expr (.callWith (.attr (.var .enum) .render) (.var .environment)) <|
  .nil

def header_5_body_2 : Nodes :=
  .text (chars! "\n\n") <|
  .nil

def header_5_body : Nodes :=
  header_5_body_1 ++ (header_5_body_2)

def header_5 : Nodes := .loop .enum (.attr (.var .proto_file) .enum_definitions) header_5_body .nil

def header_6_body_1 : Nodes :=
  .expr (.callWith (.attr (.var .msg) .render) (.var .environment)) <|
  .nil

def header_6_body_2 : Nodes :=
  .text (chars! "\n\n") <|
  .nil

def header_6_body : Nodes :=
  header_6_body_1 ++ (header_6_body_2)

def header_6 : Nodes := .loop .msg (.attr (.var .proto_file) .msg_definitions) header_6_body .nil

def header_7_body : Nodes :=
  .text (chars! "} // End of namespace ") <|
  .expr (.var .namespace) <|
  .text (chars! "\n") <|
  .nil

def header_7 : Nodes := .loop .namespace (.filter (.ask (.var .proto_file) .get_namespaces) .reverse) header_7_body .nil

def header_8 : Nodes :=
  .text (chars! "#endif // ") <|
  .expr (.ask (.var .proto_file) .get_header_guard) <|
  .text (chars! "_H") <|
  .nil

def header : Nodes :=
  header_1 ++ (header_2 ++ (header_3 ++ (header_4 ++ (header_5 ++ (header_6 ++ (header_7 ++ (header_8)))))))

def typeDefMsg_1_body : Nodes :=
  .expr (.cond (.attr (.var .loop) .first) (.str (chars! "template<\n")) (.str (chars! ""))) <|
  .text (chars! "    ") <|
  .expr (.index (.var .tmpl_param) (.str (chars! "type"))) <|
  .text (chars! " ") <|
  .expr (.index (.var .tmpl_param) (.str (chars! "name"))) <|
  .expr (.cond (.not (.attr (.var .loop) .last)) (.str (chars! ", ")) (.str (chars! ""))) <|
  .expr (.cond (.attr (.var .loop) .last) (.str (chars! "\n>")) (.str (chars! ""))) <|
  .text (chars! "\n") <|
  .nil

def typeDefMsg_1 : Nodes := .loop .tmpl_param (.ask (.var .typedef) .get_templates) typeDefMsg_1_body .nil

def typeDefMsg_2 : Nodes :=
  .text (chars! "class ") <|
  .expr (.ask (.var .typedef) .get_name) <|
  .text (chars! " final: public ::EmbeddedProto::MessageInterface\n{\n  public:\n    ") <|
  .expr (.ask (.var .typedef) .get_name) <|
  .text (chars! "() = default;\n    ") <|
  .expr (.ask (.var .typedef) .get_name) <|
  .text (chars! "(const ") <|
  .expr (.ask (.var .typedef) .get_name) <|
  .text (chars! "& rhs )\n    {\n") <|
  .nil

def typeDefMsg_3_body : Nodes :=
  .ite (.and (.isDefined (.attr (.var .typedef) .optional_fields)) (.mem (.var .field) (.attr (.var .typedef) .optional_fields)))
  (.text (chars! "      if(rhs.has_") <|
  .expr (.ask (.var .field) .get_name) <|
  .text (chars! "())\n      {\n        set_") <|
  .expr (.ask (.var .field) .get_name) <|
  .text (chars! "(rhs.get_") <|
  .expr (.ask (.var .field) .get_name) <|
  .text (chars! "());\n      }\n      else\n      {\n        clear_") <|
  .expr (.ask (.var .field) .get_name) <|
  .text (chars! "();\n      }\n\n") <|
  .nil)
  (.text (chars! "      set_") <|
  .expr (.ask (.var .field) .get_name) <|
  .text (chars! "(rhs.get_") <|
  .expr (.ask (.var .field) .get_name) <|
  .text (chars! "());\n") <|
  .nil) <|
  .nil

def typeDefMsg_3 : Nodes := .loop .field (.attr (.var .typedef) .fields) typeDefMsg_3_body .nil

def typeDefMsg_4_body_1 : Nodes :=
  .text (chars! "      ") <|
  .nil

def typeDefMsg_4_body_2 : Nodes :=
  .expr (.filter (.callWith (.attr (.var .TypeOneof) .assign) (.var .oneof)) (.indent 6)) <|
  .nil

def typeDefMsg_4_body_3 : Nodes :=
  .text (chars! "\n") <|
  .nil

def typeDefMsg_4_body : Nodes :=
  typeDefMsg_4_body_1 ++ (typeDefMsg_4_body_2 ++ (typeDefMsg_4_body_3))

def typeDefMsg_4 : Nodes := .loop .oneof (.attr (.var .typedef) .oneofs) typeDefMsg_4_body .nil

def typeDefMsg_5 : Nodes :=
  .text (chars! "    }\n\n    ") <|
  .expr (.ask (.var .typedef) .get_name) <|
  .text (chars! "(const ") <|
  .expr (.ask (.var .typedef) .get_name) <|
  .text (chars! "&& rhs ) noexcept\n    {\n") <|
  .nil

def typeDefMsg_6_body : Nodes :=
  .ite (.and (.isDefined (.attr (.var .typedef) .optional_fields)) (.mem (.var .field) (.attr (.var .typedef) .optional_fields)))
  (.text (chars! "      if(rhs.has_") <|
  .expr (.ask (.var .field) .get_name) <|
  .text (chars! "())\n      {\n        set_") <|
  .expr (.ask (.var .field) .get_name) <|
  .text (chars! "(rhs.get_") <|
  .expr (.ask (.var .field) .get_name) <|
  .text (chars! "());\n      }\n      else\n      {\n        clear_") <|
  .expr (.ask (.var .field) .get_name) <|
  .text (chars! "();\n      }\n\n") <|
  .nil)
  (.text (chars! "      set_") <|
  .expr (.ask (.var .field) .get_name) <|
  .text (chars! "(rhs.get_") <|
  .expr (.ask (.var .field) .get_name) <|
  .text (chars! "());\n") <|
  .nil) <|
  .nil

def typeDefMsg_6 : Nodes := .loop .field (.attr (.var .typedef) .fields) typeDefMsg_6_body .nil

def typeDefMsg_7_body_1 : Nodes :=
  .text (chars! "      ") <|
  .nil

def typeDefMsg_7_body_2 : Nodes :=
  .expr (.filter (.callWith (.attr (.var .TypeOneof) .assign) (.var .oneof)) (.indent 6)) <|
  .nil

def typeDefMsg_7_body_3 : Nodes :=
  .text (chars! "\n") <|
  .nil

def typeDefMsg_7_body : Nodes :=
  typeDefMsg_7_body_1 ++ (typeDefMsg_7_body_2 ++ (typeDefMsg_7_body_3))

def typeDefMsg_7 : Nodes := .loop .oneof (.attr (.var .typedef) .oneofs) typeDefMsg_7_body .nil

def typeDefMsg_8 : Nodes :=
  .text (chars! "    }\n\n    ~") <|
  .expr (.ask (.var .typedef) .get_name) <|
  .text (chars! "() override = default;\n\n") <|
  .nil

def typeDefMsg_9_body_1 : Nodes :=
  .text (chars! "    ") <|
  .nil

def typeDefMsg_9_body_2 : Nodes :=
  .expr (.filter (.callWith (.attr (.var .enum) .render) (.var .environment)) (.indent 4)) <|
  .nil

def typeDefMsg_9_body_3 : Nodes :=
  .text (chars! "\n\n") <|
  .nil

def typeDefMsg_9_body : Nodes :=
  typeDefMsg_9_body_1 ++ (typeDefMsg_9_body_2 ++ (typeDefMsg_9_body_3))

def typeDefMsg_9 : Nodes := .loop .enum (.attr (.var .typedef) .nested_enum_definitions) typeDefMsg_9_body .nil

def typeDefMsg_10_body_1 : Nodes :=
  .text (chars! "    ") <|
  .nil

def typeDefMsg_10_body_2 : Nodes :=
  .expr (.filter (.callWith (.attr (.var .msg) .render) (.var .environment)) (.indent 4)) <|
  .nil

def typeDefMsg_10_body_3 : Nodes :=
  .text (chars! "\n\n") <|
  .nil

def typeDefMsg_10_body : Nodes :=
  typeDefMsg_10_body_1 ++ (typeDefMsg_10_body_2 ++ (typeDefMsg_10_body_3))

def typeDefMsg_10 : Nodes := .loop .msg (.attr (.var .typedef) .nested_msg_definitions) typeDefMsg_10_body .nil

def typeDefMsg_11 : Nodes :=
  .text (chars! "    enum class FieldNumber : uint32_t\n    {\n      NOT_SET = 0,\n") <|
  .nil

def typeDefMsg_12_body : Nodes :=
  .text (chars! "      ") <|
  .expr (.index (.var .id_set) (.nat 1)) <|
  .text (chars! " = ") <|
  .expr (.index (.var .id_set) (.nat 0)) <|
  .expr (.cond (.not (.attr (.var .loop) .last)) (.str (chars! ",")) (.str (chars! ""))) <|
  .text (chars! "\n") <|
  .nil

def typeDefMsg_12 : Nodes := .loop .id_set (.attr (.var .typedef) .field_ids) typeDefMsg_12_body .nil

def typeDefMsg_13 : Nodes :=
  .text (chars! "    };\n\n    ") <|
  .expr (.attr (.var .typedef) .name) <|
  .text (chars! "& operator=(const ") <|
  .expr (.attr (.var .typedef) .name) <|
  .text (chars! "& rhs)\n    {\n") <|
  .nil

def typeDefMsg_14_body : Nodes :=
  .ite (.and (.isDefined (.attr (.var .typedef) .optional_fields)) (.mem (.var .field) (.attr (.var .typedef) .optional_fields)))
  (.text (chars! "      if(rhs.has_") <|
  .expr (.ask (.var .field) .get_name) <|
  .text (chars! "())\n      {\n        set_") <|
  .expr (.ask (.var .field) .get_name) <|
  .text (chars! "(rhs.get_") <|
  .expr (.ask (.var .field) .get_name) <|
  .text (chars! "());\n      }\n      else\n      {\n        clear_") <|
  .expr (.ask (.var .field) .get_name) <|
  .text (chars! "();\n      }\n\n") <|
  .nil)
  (.text (chars! "      set_") <|
  .expr (.ask (.var .field) .get_name) <|
  .text (chars! "(rhs.get_") <|
  .expr (.ask (.var .field) .get_name) <|
  .text (chars! "());\n") <|
  .nil) <|
  .nil

def typeDefMsg_14 : Nodes := .loop .field (.attr (.var .typedef) .fields) typeDefMsg_14_body .nil

def typeDefMsg_15_body_1 : Nodes :=
  .text (chars! "      ") <|
  .nil

def typeDefMsg_15_body_2 : Nodes :=
  .expr (.filter (.callWith (.attr (.var .TypeOneof) .assign) (.var .oneof)) (.indent 6)) <|
  .nil

def typeDefMsg_15_body_3 : Nodes :=
  .text (chars! "\n") <|
  .nil

def typeDefMsg_15_body : Nodes :=
  typeDefMsg_15_body_1 ++ (typeDefMsg_15_body_2 ++ (typeDefMsg_15_body_3))

def typeDefMsg_15 : Nodes := .loop .oneof (.attr (.var .typedef) .oneofs) typeDefMsg_15_body .nil

def typeDefMsg_16 : Nodes :=
  .text (chars! "      return *this;\n    }\n\n    ") <|
  .expr (.attr (.var .typedef) .name) <|
  .text (chars! "& operator=(const ") <|
  .expr (.attr (.var .typedef) .name) <|
  .text (chars! "&& rhs) noexcept\n    {\n") <|
  .nil

def typeDefMsg_17_body : Nodes :=
  .ite (.and (.isDefined (.attr (.var .typedef) .optional_fields)) (.mem (.var .field) (.attr (.var .typedef) .optional_fields)))
  (.text (chars! "      if(rhs.has_") <|
  .expr (.ask (.var .field) .get_name) <|
  .text (chars! "())\n      {\n        set_") <|
  .expr (.ask (.var .field) .get_name) <|
  .text (chars! "(rhs.get_") <|
  .expr (.ask (.var .field) .get_name) <|
  .text (chars! "());\n      }\n      else\n      {\n        clear_") <|
  .expr (.ask (.var .field) .get_name) <|
  .text (chars! "();\n      }\n      \n") <|
  .nil)
  (.text (chars! "      set_") <|
  .expr (.ask (.var .field) .get_name) <|
  .text (chars! "(rhs.get_") <|
  .expr (.ask (.var .field) .get_name) <|
  .text (chars! "());\n") <|
  .nil) <|
  .nil

def typeDefMsg_17 : Nodes := .loop .field (.attr (.var .typedef) .fields) typeDefMsg_17_body .nil

def typeDefMsg_18_body_1 : Nodes :=
  .text (chars! "      ") <|
  .nil

def typeDefMsg_18_body_2 : Nodes :=
  .expr (.filter (.callWith (.attr (.var .TypeOneof) .assign) (.var .oneof)) (.indent 6)) <|
  .nil

def typeDefMsg_18_body_3 : Nodes :=
  .text (chars! "\n") <|
  .nil

def typeDefMsg_18_body : Nodes :=
  typeDefMsg_18_body_1 ++ (typeDefMsg_18_body_2 ++ (typeDefMsg_18_body_3))

def typeDefMsg_18 : Nodes := .loop .oneof (.attr (.var .typedef) .oneofs) typeDefMsg_18_body .nil

def typeDefMsg_19 : Nodes :=
  .text (chars! "      return *this;\n    }\n\n") <|
  .nil

def typeDefMsg_20_body_1 : Nodes :=
  .text (chars! "    ") <|
  .nil

def typeDefMsg_20_body_2 : Nodes :=
  .expr (.filter (.callWith (.attr (.var .field) .render_get_set) (.var .environment)) (.indent 4)) <|
  .nil

def typeDefMsg_20_body_3 : Nodes :=
  .text (chars! "\n\n") <|
  .nil

def typeDefMsg_20_body : Nodes :=
  typeDefMsg_20_body_1 ++ (typeDefMsg_20_body_2 ++ (typeDefMsg_20_body_3))

def typeDefMsg_20 : Nodes := .loop .field (.attr (.var .typedef) .fields) typeDefMsg_20_body .nil

def typeDefMsg_21_body_1 : Nodes :=
  .text (chars! "    FieldNumber get_which_") <|
  .expr (.ask (.var .oneof) .get_name) <|
  .text (chars! "() const { return ") <|
  .expr (.ask (.var .oneof) .get_which_oneof) <|
  .text (chars! "; }\n\n") <|
  .nil

def typeDefMsg_21_body_2_body_1 : Nodes :=
  .text (chars! "    ") <|
  .nil

def typeDefMsg_21_body_2_body_2 : Nodes :=
  .expr (.filter (.callWith (.attr (.var .field) .render_get_set) (.var .environment)) (.indent 4)) <|
  .nil

def typeDefMsg_21_body_2_body_3 : Nodes :=
  .text (chars! "\n\n") <|
  .nil

def typeDefMsg_21_body_2_body : Nodes :=
  typeDefMsg_21_body_2_body_1 ++ (typeDefMsg_21_body_2_body_2 ++ (typeDefMsg_21_body_2_body_3))

def typeDefMsg_21_body_2 : Nodes := .loop .field (.attr (.var .oneof) .fields) typeDefMsg_21_body_2_body .nil

def typeDefMsg_21_body : Nodes :=
  typeDefMsg_21_body_1 ++ (typeDefMsg_21_body_2)

def typeDefMsg_21 : Nodes := .loop .oneof (.attr (.var .typedef) .oneofs) typeDefMsg_21_body .nil

def typeDefMsg_22 : Nodes :=
  .text (chars! "\n    ::EmbeddedProto::Error serialize(::EmbeddedProto::WriteBufferInterface& buffer) const override\n    {\n      ::EmbeddedProto::Error return_value = ::EmbeddedProto::Error::NO_ERRORS;\n\n") <|
  .nil

def typeDefMsg_23_body_1 : Nodes :=
  .text (chars! "      ") <|
  .nil

def typeDefMsg_23_body_2 : Nodes :=
  .expr (.filter (.callWith (.attr (.var .field) .render_serialize) (.var .environment)) (.indent 6)) <|
  .nil

def typeDefMsg_23_body_3 : Nodes :=
  .text (chars! "\n\n") <|
  .nil

def typeDefMsg_23_body : Nodes :=
  typeDefMsg_23_body_1 ++ (typeDefMsg_23_body_2 ++ (typeDefMsg_23_body_3))

def typeDefMsg_23 : Nodes := .loop .field (.attr (.var .typedef) .fields) typeDefMsg_23_body .nil

def typeDefMsg_24_body_1 : Nodes :=
  .text (chars! "      switch(") <|
  .expr (.ask (.var .oneof) .get_which_oneof) <|
  .text (chars! ")\n      {\n") <|
  .nil

def typeDefMsg_24_body_2_body_1 : Nodes :=
  .text (chars! "        case FieldNumber::") <|
  .expr (.attr (.var .field) .variable_id_name) <|
  .text (chars! ":\n          ") <|
  .nil

def typeDefMsg_24_body_2_body_2 : Nodes :=
  .expr (.filter (.callWith (.attr (.var .field) .render_serialize) (.var .environment)) (.indent 10)) <|
  .nil

def typeDefMsg_24_body_2_body_3 : Nodes :=
  .text (chars! "\n          break;\n\n") <|
  .nil

def typeDefMsg_24_body_2_body : Nodes :=
  typeDefMsg_24_body_2_body_1 ++ (typeDefMsg_24_body_2_body_2 ++ (typeDefMsg_24_body_2_body_3))

def typeDefMsg_24_body_2 : Nodes := .loop .field (.ask (.var .oneof) .get_fields) typeDefMsg_24_body_2_body .nil

def typeDefMsg_24_body_3 : Nodes :=
  .text (chars! "        default:\n          break;\n      }\n\n") <|
  .nil

def typeDefMsg_24_body : Nodes :=
  typeDefMsg_24_body_1 ++ (typeDefMsg_24_body_2 ++ (typeDefMsg_24_body_3))

def typeDefMsg_24 : Nodes := .loop .oneof (.attr (.var .typedef) .oneofs) typeDefMsg_24_body .nil

def typeDefMsg_25 : Nodes :=
  .text (chars! "      return return_value;\n    };\n\n    ::EmbeddedProto::Error deserialize(::EmbeddedProto::ReadBufferInterface& buffer) override\n    {\n      ::EmbeddedProto::Error return_value = ::EmbeddedProto::Error::NO_ERRORS;\n      ::EmbeddedProto::WireFormatter::WireType wire_type = ::EmbeddedProto::WireFormatter::WireType::VARINT;\n      uint32_t id_number = 0;\n      FieldNumber id_tag = FieldNumber::NOT_SET;\n\n      ::EmbeddedProto::Error tag_value = ::EmbeddedProto::WireFormatter::DeserializeTag(buffer, wire_type, id_number);\n      while((::EmbeddedProto::Error::NO_ERRORS == return_value) && (::EmbeddedProto::Error::NO_ERRORS == tag_value))\n      {\n        id_tag = static_cast<FieldNumber>(id_number);\n        switch(id_tag)\n        {\n") <|
  .nil

def typeDefMsg_26_body_1 : Nodes :=
  .text (chars! "          case FieldNumber::") <|
  .expr (.ask (.var .field) .get_variable_id_name) <|
  .text (chars! ":\n            ") <|
  .nil

def typeDefMsg_26_body_2 : Nodes :=
  .expr (.filter (.callWith (.attr (.var .field) .render_deserialize) (.var .environment)) (.indent 12)) <|
  .nil

def typeDefMsg_26_body_3 : Nodes :=
  .text (chars! "\n            break;\n\n") <|
  .nil

def typeDefMsg_26_body : Nodes :=
  typeDefMsg_26_body_1 ++ (typeDefMsg_26_body_2 ++ (typeDefMsg_26_body_3))

def typeDefMsg_26 : Nodes := .loop .field (.attr (.var .typedef) .fields) typeDefMsg_26_body .nil

def typeDefMsg_27_body_1_body : Nodes :=
  .text (chars! "          case FieldNumber::") <|
  .expr (.ask (.var .field) .get_variable_id_name) <|
  .text (chars! ":\n") <|
  .nil

def typeDefMsg_27_body_1 : Nodes := .loop .field (.ask (.var .oneof) .get_fields) typeDefMsg_27_body_1_body .nil

def typeDefMsg_27_body_2 : Nodes :=
  .text (chars! "            return_value = deserialize_") <|
  .expr (.ask (.var .oneof) .get_name) <|
  .text (chars! "(id_tag, buffer, wire_type);\n            break;\n\n") <|
  .nil

def typeDefMsg_27_body : Nodes :=
  typeDefMsg_27_body_1 ++ (typeDefMsg_27_body_2)

def typeDefMsg_27 : Nodes := .loop .oneof (.attr (.var .typedef) .oneofs) typeDefMsg_27_body .nil

def typeDefMsg_28 : Nodes :=
  .text (chars! "          case FieldNumber::NOT_SET:\n            return_value = ::EmbeddedProto::Error::INVALID_FIELD_ID;\n            break;\n\n          default:\n            return_value = skip_unknown_field(buffer, wire_type);\n            break;\n        }\n\n        if(::EmbeddedProto::Error::NO_ERRORS == return_value)\n        {\n          // Read the next tag.\n          tag_value = ::EmbeddedProto::WireFormatter::DeserializeTag(buffer, wire_type, id_number);\n        }\n      }\n\n      // When an error was detect while reading the tag but no other errors where found, set it in the return value.\n      if((::EmbeddedProto::Error::NO_ERRORS == return_value)\n         && (::EmbeddedProto::Error::NO_ERRORS != tag_value)\n         && (::EmbeddedProto::Error::END_OF_BUFFER != tag_value)) // The end of the buffer is not an array in this case.\n      {\n        return_value = tag_value;\n      }\n\n      return return_value;\n    };\n\n    void clear() override\n    {\n") <|
  .nil

def typeDefMsg_29_body : Nodes :=
  .text (chars! "      clear_") <|
  .expr (.ask (.var .field) .get_name) <|
  .text (chars! "();\n") <|
  .nil

def typeDefMsg_29 : Nodes := .loop .field (.attr (.var .typedef) .fields) typeDefMsg_29_body .nil

def typeDefMsg_30_body : Nodes :=
  .text (chars! "      clear_") <|
  .expr (.ask (.var .oneof) .get_name) <|
  .text (chars! "();\n") <|
  .nil

def typeDefMsg_30 : Nodes := .loop .oneof (.attr (.var .typedef) .oneofs) typeDefMsg_30_body .nil

def typeDefMsg_31 : Nodes :=
  .text (chars! "\n    }\n\n    static char const* field_number_to_name(const FieldNumber fieldNumber)\n    {\n      char const* name = nullptr;\n      switch(fieldNumber)\n      {\n") <|
  .nil

def typeDefMsg_32_body : Nodes :=
  .text (chars! "        case FieldNumber::") <|
  .expr (.ask (.var .field) .get_variable_id_name) <|
  .text (chars! ":\n          name = ") <|
  .expr (.filter (.ask (.var .field) .get_name) .upper) <|
  .text (chars! "_NAME;\n          break;\n") <|
  .nil

def typeDefMsg_32 : Nodes := .loop .field (.attr (.var .typedef) .fields) typeDefMsg_32_body .nil

def typeDefMsg_33_body_1_body : Nodes :=
  .text (chars! "        case FieldNumber::") <|
  .expr (.ask (.var .field) .get_variable_id_name) <|
  .text (chars! ":\n          name = ") <|
  .expr (.filter (.ask (.var .field) .get_name) .upper) <|
  .text (chars! "_NAME;\n          break;\n") <|
  .nil

def typeDefMsg_33_body_1 : Nodes := .loop .field (.attr (.var .oneof) .fields) typeDefMsg_33_body_1_body .nil

def typeDefMsg_33_body : Nodes :=
  typeDefMsg_33_body_1

def typeDefMsg_33 : Nodes := .loop .oneof (.attr (.var .typedef) .oneofs) typeDefMsg_33_body .nil

def typeDefMsg_34 : Nodes :=
  .text (chars! "        default:\n          name = \"Invalid FieldNumber\";\n          break;\n      }\n      return name;\n    }\n\n#ifdef MSG_TO_STRING\n\n    ::EmbeddedProto::string_view to_string(::EmbeddedProto::string_view& str) const\n    {\n      return this->to_string(str, 0, nullptr, true);\n    }\n\n    ::EmbeddedProto::string_view to_string(::EmbeddedProto::string_view& str, const uint32_t indent_level, char const* name, const bool first_field) const override\n    {\n      ::EmbeddedProto::string_view left_chars = str;\n      int32_t n_chars_used = 0;\n\n      if(!first_field)\n      {\n        // Add a comma behind the previous field.\n        n_chars_used = snprintf(left_chars.data, left_chars.size, \",\\n\");\n        if(0 < n_chars_used)\n        {\n          // Update the character pointer and characters left in the array.\n          left_chars.data += n_chars_used;\n          left_chars.size -= n_chars_used;\n        }\n      }\n\n      if(nullptr != name)\n      {\n        if( 0 == indent_level)\n        {\n          n_chars_used = snprintf(left_chars.data, left_chars.size, \"\\\"%s\\\": {\\n\", name);\n        }\n        else\n        {\n          n_chars_used = snprintf(left_chars.data, left_chars.size, \"%*s\\\"%s\\\": {\\n\", indent_level, \" \", name);\n        }\n      }\n      else\n      {\n        if( 0 == indent_level)\n        {\n          n_chars_used = snprintf(left_chars.data, left_chars.size, \"{\\n\");\n        }\n        else\n        {\n          n_chars_used = snprintf(left_chars.data, left_chars.size, \"%*s{\\n\", indent_level, \" \");\n        }\n      }\n      \n      if(0 < n_chars_used)\n      {\n        left_chars.data += n_chars_used;\n        left_chars.size -= n_chars_used;\n      }\n\n") <|
  .nil

def typeDefMsg_35_body : Nodes :=
  .ite (.ne (.str (chars! "FieldErrorRecursive")) (.attr (.attr (.var .field) .descriptor) .type_name))
  (.text (chars! "      left_chars = ") <|
  .expr (.ask (.var .field) .get_variable_name) <|
  .text (chars! ".to_string(left_chars, indent_level + 2, ") <|
  .expr (.filter (.ask (.var .field) .get_name) .upper) <|
  .text (chars! "_NAME, ") <|
  .expr (.filter (.attr (.var .loop) .first) .lower) <|
  .text (chars! ");\n") <|
  .nil)
  (.nil) <|
  .nil

def typeDefMsg_35 : Nodes := .loop .field (.attr (.var .typedef) .fields) typeDefMsg_35_body .nil

def typeDefMsg_36_body : Nodes :=
  .text (chars! "      left_chars = to_string_") <|
  .expr (.ask (.var .oneof) .get_name) <|
  .text (chars! "(left_chars, indent_level + 2, ") <|
  .expr (.filter (.and (.eq (.filter (.attr (.var .typedef) .fields) .length) (.nat 0)) (.attr (.var .loop) .first)) .lower) <|
  .text (chars! ");\n") <|
  .nil

def typeDefMsg_36 : Nodes := .loop .oneof (.attr (.var .typedef) .oneofs) typeDefMsg_36_body .nil

def typeDefMsg_37 : Nodes :=
  .text (chars! "  \n      if( 0 == indent_level) \n      {\n        n_chars_used = snprintf(left_chars.data, left_chars.size, \"\\n}\");\n      }\n      else \n      {\n        n_chars_used = snprintf(left_chars.data, left_chars.size, \"\\n%*s}\", indent_level, \" \");\n      }\n\n      if(0 < n_chars_used)\n      {\n        left_chars.data += n_chars_used;\n        left_chars.size -= n_chars_used;\n      }\n\n      return left_chars;\n    }\n\n#endif // End of MSG_TO_STRING\n\n  private:\n\n") <|
  .nil

def typeDefMsg_38_yes_1 : Nodes :=
  .text (chars! "      // Define constants for tracking the presence of fields.\n      // Use a struct to scope the variables from user fields as namespaces are not allowed within classes.\n      struct presence\n      {\n        // An enumeration with all the fields for which presence has to be tracked.\n        enum class fields : uint32_t\n        {\n") <|
  .nil

def typeDefMsg_38_yes_2_body : Nodes :=
  .text (chars! "          ") <|
  .expr (.ask (.ask (.var .field) .get_name) .upper) <|
  .expr (.cond (.not (.attr (.var .loop) .last)) (.str (chars! ",")) (.str (chars! ""))) <|
  .text (chars! "\n") <|
  .nil

def typeDefMsg_38_yes_2 : Nodes := .loop .field (.attr (.var .typedef) .optional_fields) typeDefMsg_38_yes_2_body .nil

def typeDefMsg_38_yes_3 : Nodes :=
  .text (chars! "        };\n\n        // The number of fields for which presence has to be tracked.\n        static constexpr uint32_t N_FIELDS = ") <|
  .expr (.filter (.attr (.var .typedef) .optional_fields) .length) <|
  .text (chars! ";\n\n        // Which type are we using to track presence.\n        using TYPE = uint32_t;\n\n        // How many bits are there in the presence type.\n        static constexpr uint32_t N_BITS = std::numeric_limits<TYPE>::digits;\n\n        // How many variables of TYPE do we need to bit mask all presence fields.\n        static constexpr uint32_t SIZE = (N_FIELDS / N_BITS) + ((N_FIELDS % N_BITS) > 0 ? 1 : 0);\n\n        // Obtain the index of a given field in the presence array.\n        static constexpr uint32_t index(const fields& field) { return static_cast<uint32_t>(field) / N_BITS; }\n\n        // Obtain the bit mask for the given field assuming we are at the correct index in the presence array.\n        static constexpr TYPE mask(const fields& field)\n        {\n          return static_cast<uint32_t>(0x01) << (static_cast<uint32_t>(field) % N_BITS);\n        }\n      };\n\n      // Create an array in which the presence flags are stored.\n      typename presence::TYPE presence_[presence::SIZE] = {0};\n") <|
  .nil

def typeDefMsg_38_yes : Nodes :=
  typeDefMsg_38_yes_1 ++ (typeDefMsg_38_yes_2 ++ (typeDefMsg_38_yes_3))

def typeDefMsg_38_no : Nodes :=
  .nil

def typeDefMsg_38 : Nodes := .ite (.and (.isDefined (.attr (.var .typedef) .optional_fields)) (.gt (.filter (.attr (.var .typedef) .optional_fields) .length) (.nat 0))) typeDefMsg_38_yes typeDefMsg_38_no .nil

def typeDefMsg_39 : Nodes :=
  .text (chars! "\n") <|
  .nil

def typeDefMsg_40_body : Nodes :=
  .ite (.ask (.var .field) .get_default_value)
  (.text (chars! "      ") <|
  .expr (.ask (.var .field) .get_type) <|
  .text (chars! " ") <|
  .expr (.ask (.var .field) .get_variable_name) <|
  .text (chars! " = ") <|
  .expr (.ask (.var .field) .get_default_value) <|
  .text (chars! ";\n") <|
  .nil)
  (.text (chars! "      ") <|
  .expr (.ask (.var .field) .get_type) <|
  .text (chars! " ") <|
  .expr (.ask (.var .field) .get_variable_name) <|
  .text (chars! ";\n") <|
  .nil) <|
  .nil

def typeDefMsg_40 : Nodes := .loop .field (.attr (.var .typedef) .fields) typeDefMsg_40_body .nil

def typeDefMsg_41 : Nodes :=
  .text (chars! "\n") <|
  .nil

def typeDefMsg_42_body_1 : Nodes :=
  .text (chars! "      FieldNumber ") <|
  .expr (.ask (.var .oneof) .get_which_oneof) <|
  .text (chars! " = FieldNumber::NOT_SET;\n      union ") <|
  .expr (.ask (.var .oneof) .get_name) <|
  .text (chars! "\n      {\n        ") <|
  .expr (.ask (.var .oneof) .get_name) <|
  .text (chars! "() {}\n        ~") <|
  .expr (.ask (.var .oneof) .get_name) <|
  .text (chars! "() {}\n") <|
  .nil

def typeDefMsg_42_body_2_body : Nodes :=
  .text (chars! "        ") <|
  .expr (.ask (.var .field) .get_type) <|
  .text (chars! " ") <|
  .expr (.attr (.var .field) .variable_name) <|
  .text (chars! ";\n") <|
  .nil

def typeDefMsg_42_body_2 : Nodes := .loop .field (.attr (.var .oneof) .fields) typeDefMsg_42_body_2_body .nil

def typeDefMsg_42_body_3 : Nodes :=
  .text (chars! "      };\n      ") <|
  .expr (.ask (.var .oneof) .get_name) <|
  .text (chars! " ") <|
  .expr (.ask (.var .oneof) .get_variable_name) <|
  .text (chars! ";\n\n      ") <|
  .nil

def typeDefMsg_42_body_4 : Nodes :=
  .expr (.filter (.callWith (.attr (.var .TypeOneof) .init) (.var .oneof)) (.indent 6)) <|
  .nil

def typeDefMsg_42_body_5 : Nodes :=
  .text (chars! "\n      ") <|
  .nil

def typeDefMsg_42_body_6 : Nodes :=
  .expr (.filter (.callWith (.attr (.var .TypeOneof) .clear) (.var .oneof)) (.indent 6)) <|
  .nil

def typeDefMsg_42_body_7 : Nodes :=
  .text (chars! "\n      ") <|
  .nil

def typeDefMsg_42_body_8 : Nodes :=
  .expr (.filter (.callWith2 (.attr (.var .TypeOneof) .deserialize) (.var .oneof) (.var .environment)) (.indent 6)) <|
  .nil

def typeDefMsg_42_body_9 : Nodes :=
  .text (chars! "\n#ifdef MSG_TO_STRING \n      ") <|
  .nil

def typeDefMsg_42_body_10 : Nodes :=
  .expr (.filter (.callWith (.attr (.var .TypeOneof) .to_string) (.var .oneof)) (.indent 6)) <|
  .nil

def typeDefMsg_42_body_11 : Nodes :=
  .text (chars! "\n#endif // End of MSG_TO_STRING\n") <|
  .nil

def typeDefMsg_42_body : Nodes :=
  typeDefMsg_42_body_1 ++ (typeDefMsg_42_body_2 ++ (typeDefMsg_42_body_3 ++ (typeDefMsg_42_body_4 ++ (typeDefMsg_42_body_5 ++ (typeDefMsg_42_body_6 ++ (typeDefMsg_42_body_7 ++ (typeDefMsg_42_body_8 ++ (typeDefMsg_42_body_9 ++ (typeDefMsg_42_body_10 ++ (typeDefMsg_42_body_11))))))))))

def typeDefMsg_42 : Nodes := .loop .oneof (.attr (.var .typedef) .oneofs) typeDefMsg_42_body .nil

def typeDefMsg_43 : Nodes :=
  .text (chars! "};") <|
  .nil

def typeDefMsg : Nodes :=
  typeDefMsg_1 ++ (typeDefMsg_2 ++ (typeDefMsg_3 ++ (typeDefMsg_4 ++ (typeDefMsg_5 ++ (typeDefMsg_6 ++ (typeDefMsg_7 ++ (typeDefMsg_8 ++ (typeDefMsg_9 ++ (typeDefMsg_10 ++ (typeDefMsg_11 ++ (typeDefMsg_12 ++ (typeDefMsg_13 ++ (typeDefMsg_14 ++ (typeDefMsg_15 ++ (typeDefMsg_16 ++ (typeDefMsg_17 ++ (typeDefMsg_18 ++ (typeDefMsg_19 ++ (typeDefMsg_20 ++ (typeDefMsg_21 ++ (typeDefMsg_22 ++ (typeDefMsg_23 ++ (typeDefMsg_24 ++ (typeDefMsg_25 ++ (typeDefMsg_26 ++ (typeDefMsg_27 ++ (typeDefMsg_28 ++ (typeDefMsg_29 ++ (typeDefMsg_30 ++ (typeDefMsg_31 ++ (typeDefMsg_32 ++ (typeDefMsg_33 ++ (typeDefMsg_34 ++ (typeDefMsg_35 ++ (typeDefMsg_36 ++ (typeDefMsg_37 ++ (typeDefMsg_38 ++ (typeDefMsg_39 ++ (typeDefMsg_40 ++ (typeDefMsg_41 ++ (typeDefMsg_42 ++ (typeDefMsg_43))))))))))))))))))))))))))))))))))))))))))

def typeOneof_1_body_1 : Nodes :=
  .text (chars! "if(rhs.get_which_") <|
  .expr (.ask (.var ._oneof) .get_name) <|
  .text (chars! "() != ") <|
  .expr (.ask (.var ._oneof) .get_which_oneof) <|
  .text (chars! ")\n{\n  // First delete the old object in the oneof.\n  clear_") <|
  .expr (.ask (.var ._oneof) .get_name) <|
  .text (chars! "();\n}\n\nswitch(rhs.get_which_") <|
  .expr (.ask (.var ._oneof) .get_name) <|
  .text (chars! "())\n{\n") <|
  .nil

def typeOneof_1_body_2_body : Nodes :=
  .text (chars! "  case FieldNumber::") <|
  .expr (.ask (.var .field) .get_variable_id_name) <|
  .text (chars! ":\n    set_") <|
  .expr (.ask (.var .field) .get_name) <|
  .text (chars! "(rhs.get_") <|
  .expr (.attr (.var .field) .name) <|
  .text (chars! "());\n    break;\n\n") <|
  .nil

def typeOneof_1_body_2 : Nodes := .loop .field (.ask (.var ._oneof) .get_fields) typeOneof_1_body_2_body .nil

def typeOneof_1_body_3 : Nodes :=
  .text (chars! "  default:\n    break;\n}\n") <|
  .nil

def typeOneof_1_body : Nodes :=
  typeOneof_1_body_1 ++ (typeOneof_1_body_2 ++ (typeOneof_1_body_3))

def typeOneof_1 : Nodes := .defn .assign typeOneof_1_body .nil

def typeOneof_2_body_1 : Nodes :=
  .text (chars! "void init_") <|
  .expr (.ask (.var ._oneof) .get_name) <|
  .text (chars! "(const FieldNumber field_id)\n{\n  if(FieldNumber::NOT_SET != ") <|
  .expr (.ask (.var ._oneof) .get_which_oneof) <|
  .text (chars! ")\n  {\n    // First delete the old object in the oneof.\n    clear_") <|
  .expr (.ask (.var ._oneof) .get_name) <|
  .text (chars! "();\n  }\n\n") <|
  .nil

def typeOneof_2_body_2_yes_1 : Nodes :=
  .text (chars! "  // C++11 unions only support nontrivial members when you explicitly call the placement new statement.\n  switch(field_id)\n  {\n") <|
  .nil

def typeOneof_2_body_2_yes_2_body : Nodes :=
  .ite (.ask (.var .field) .oneof_allocation_required)
  (.text (chars! "    case FieldNumber::") <|
  .expr (.ask (.var .field) .get_variable_id_name) <|
  .text (chars! ":\n      new(&") <|
  .expr (.ask (.var .field) .get_variable_name) <|
  .text (chars! ") ") <|
  .expr (.ask (.var .field) .get_type) <|
  .text (chars! ";\n      break;\n\n") <|
  .nil)
  (.nil) <|
  .nil

def typeOneof_2_body_2_yes_2 : Nodes := .loop .field (.ask (.var ._oneof) .get_fields) typeOneof_2_body_2_yes_2_body .nil

def typeOneof_2_body_2_yes_3 : Nodes :=
  .text (chars! "    default:\n      break;\n   }\n\n") <|
  .nil

def typeOneof_2_body_2_yes : Nodes :=
  typeOneof_2_body_2_yes_1 ++ (typeOneof_2_body_2_yes_2 ++ (typeOneof_2_body_2_yes_3))

def typeOneof_2_body_2_no : Nodes :=
  .nil

def typeOneof_2_body_2 : Nodes := .ite (.ask (.var ._oneof) .oneof_allocation_required) typeOneof_2_body_2_yes typeOneof_2_body_2_no .nil

def typeOneof_2_body_3 : Nodes :=
  .text (chars! "   ") <|
  .expr (.ask (.var ._oneof) .get_which_oneof) <|
  .text (chars! " = field_id;\n}\n") <|
  .nil

def typeOneof_2_body : Nodes :=
  typeOneof_2_body_1 ++ (typeOneof_2_body_2 ++ (typeOneof_2_body_3))

def typeOneof_2 : Nodes := .defn .init typeOneof_2_body .nil

def typeOneof_3_body_1 : Nodes :=
  .text (chars! "void clear_") <|
  .expr (.ask (.var ._oneof) .get_name) <|
  .text (chars! "()\n{\n  switch(") <|
  .expr (.ask (.var ._oneof) .get_which_oneof) <|
  .text (chars! ")\n  {\n") <|
  .nil

def typeOneof_3_body_2_body : Nodes :=
  .text (chars! "    case FieldNumber::") <|
  .expr (.ask (.var .field) .get_variable_id_name) <|
  .text (chars! ":\n") <|
  .ite (.ask (.var .field) .oneof_allocation_required)
  (.text (chars! "      ::EmbeddedProto::destroy_at(&") <|
  .expr (.ask (.var .field) .get_variable_name) <|
  .text (chars! ");\n") <|
  .nil)
  (.ite (.attr (.var .field) .of_type_enum)
  (.text (chars! "\t    ") <|
  .expr (.ask (.var .field) .get_variable_name) <|
  .text (chars! " = ") <|
  .expr (.ask (.var .field) .get_default_value) <|
  .text (chars! ";\n") <|
  .nil)
  (.text (chars! "      ") <|
  .expr (.ask (.var .field) .get_variable_name) <|
  .text (chars! ".set(0);\n") <|
  .nil) <|
  .nil) <|
  .text (chars! "      break;\n") <|
  .nil

def typeOneof_3_body_2 : Nodes := .loop .field (.ask (.var ._oneof) .get_fields) typeOneof_3_body_2_body .nil

def typeOneof_3_body_3 : Nodes :=
  .text (chars! "    default:\n      break;\n  }\n  ") <|
  .expr (.ask (.var ._oneof) .get_which_oneof) <|
  .text (chars! " = FieldNumber::NOT_SET;\n}\n") <|
  .nil

def typeOneof_3_body : Nodes :=
  typeOneof_3_body_1 ++ (typeOneof_3_body_2 ++ (typeOneof_3_body_3))

def typeOneof_3 : Nodes := .defn .clear typeOneof_3_body .nil

def typeOneof_4_body_1 : Nodes :=
  .text (chars! "::EmbeddedProto::Error deserialize_") <|
  .expr (.ask (.var ._oneof) .get_name) <|
  .text (chars! "(const FieldNumber field_id, \n                              ::EmbeddedProto::ReadBufferInterface& buffer,\n                              const ::EmbeddedProto::WireFormatter::WireType wire_type)\n{\n  ::EmbeddedProto::Error return_value = ::EmbeddedProto::Error::NO_ERRORS;\n  \n  if(field_id != ") <|
  .expr (.ask (.var ._oneof) .get_which_oneof) <|
  .text (chars! ")\n  {\n    init_") <|
  .expr (.ask (.var ._oneof) .get_name) <|
  .text (chars! "(field_id);\n  }\n\n  switch(") <|
  .expr (.ask (.var ._oneof) .get_which_oneof) <|
  .text (chars! ")\n  {\n") <|
  .nil

def typeOneof_4_body_2_body_1 : Nodes :=
  .text (chars! "    case FieldNumber::") <|
  .expr (.ask (.var .field) .get_variable_id_name) <|
  .text (chars! ":\n      ") <|
  .nil

def typeOneof_4_body_2_body_2 : Nodes :=
  .expr (.filter (.callWith (.attr (.var .field) .render_deserialize) (.var ._environment)) (.indent 6)) <|
  .nil

def typeOneof_4_body_2_body_3 : Nodes :=
  .text (chars! "\n      break;\n") <|
  .nil

def typeOneof_4_body_2_body : Nodes :=
  typeOneof_4_body_2_body_1 ++ (typeOneof_4_body_2_body_2 ++ (typeOneof_4_body_2_body_3))

def typeOneof_4_body_2 : Nodes := .loop .field (.ask (.var ._oneof) .get_fields) typeOneof_4_body_2_body .nil

def typeOneof_4_body_3 : Nodes :=
  .text (chars! "    default:\n      break;\n  }\n\n  if(::EmbeddedProto::Error::NO_ERRORS != return_value)\n  {\n    clear_") <|
  .expr (.ask (.var ._oneof) .get_name) <|
  .text (chars! "();\n  }\n  return return_value;\n}\n") <|
  .nil

def typeOneof_4_body : Nodes :=
  typeOneof_4_body_1 ++ (typeOneof_4_body_2 ++ (typeOneof_4_body_3))

def typeOneof_4 : Nodes := .defn .deserialize typeOneof_4_body .nil

def typeOneof_5_body_1 : Nodes :=
  .text (chars! "::EmbeddedProto::string_view to_string_") <|
  .expr (.ask (.var ._oneof) .get_name) <|
  .text (chars! "(::EmbeddedProto::string_view& str, const uint32_t indent_level, const bool first_field) const\n{\n  ::EmbeddedProto::string_view left_chars = str;\n\n  switch(") <|
  .expr (.ask (.var ._oneof) .get_which_oneof) <|
  .text (chars! ")\n  {\n") <|
  .nil

def typeOneof_5_body_2_body : Nodes :=
  .text (chars! "    case FieldNumber::") <|
  .expr (.ask (.var .field) .get_variable_id_name) <|
  .text (chars! ":\n      left_chars = ") <|
  .expr (.ask (.var .field) .get_variable_name) <|
  .text (chars! ".to_string(left_chars, indent_level, ") <|
  .expr (.filter (.ask (.var .field) .get_name) .upper) <|
  .text (chars! "_NAME, first_field);\n      break;\n") <|
  .nil

def typeOneof_5_body_2 : Nodes := .loop .field (.ask (.var ._oneof) .get_fields) typeOneof_5_body_2_body .nil

def typeOneof_5_body_3 : Nodes :=
  .text (chars! "    default:\n      break;\n  }\n\n  return left_chars;\n}\n") <|
  .nil

def typeOneof_5_body : Nodes :=
  typeOneof_5_body_1 ++ (typeOneof_5_body_2 ++ (typeOneof_5_body_3))

def typeOneof_5 : Nodes := .defn .to_string typeOneof_5_body .nil

def typeOneof : Nodes :=
  typeOneof_1 ++ (typeOneof_2 ++ (typeOneof_3 ++ (typeOneof_4 ++ (typeOneof_5))))

def typeDefEnum_1 : Nodes :=
  .text (chars! "enum class ") <|
  .expr (.attr (.var .typedef) .name) <|
  .text (chars! " : uint32_t\n{\n") <|
  .nil

def typeDefEnum_2_body : Nodes :=
  .text (chars! "  ") <|
  .expr (.attr (.var .value) .name) <|
  .text (chars! " = ") <|
  .expr (.attr (.var .value) .number) <|
  .expr (.cond (.not (.attr (.var .loop) .last)) (.str (chars! ",")) (.str (chars! ""))) <|
  .text (chars! "\n") <|
  .nil

def typeDefEnum_2 : Nodes := .loop .value (.ask (.var .typedef) .values) typeDefEnum_2_body .nil

def typeDefEnum_3 : Nodes :=
  .text (chars! "};") <|
  .nil

def typeDefEnum : Nodes :=
  typeDefEnum_1 ++ (typeDefEnum_2 ++ (typeDefEnum_3))

def fieldBasicGetSet : Nodes :=
  .text (chars! "static constexpr char const* ") <|
  .expr (.filter (.ask (.var .field) .get_name) .upper) <|
  .text (chars! "_NAME = \"") <|
  .expr (.ask (.var .field) .get_name) <|
  .text (chars! "\";\n") <|
  .ite (.not (.isNone (.attr (.var .field) .oneof)))
  (.text (chars! "inline bool has_") <|
  .expr (.ask (.var .field) .get_name) <|
  .text (chars! "() const\n{\n  return FieldNumber::") <|
  .expr (.ask (.var .field) .get_variable_id_name) <|
  .text (chars! " == ") <|
  .expr (.ask (.var .field) .get_which_oneof) <|
  .text (chars! ";\n}\ninline void clear_") <|
  .expr (.ask (.var .field) .get_name) <|
  .text (chars! "()\n{\n  if(FieldNumber::") <|
  .expr (.ask (.var .field) .get_variable_id_name) <|
  .text (chars! " == ") <|
  .expr (.ask (.var .field) .get_which_oneof) <|
  .text (chars! ")\n  {\n    ") <|
  .expr (.ask (.var .field) .get_which_oneof) <|
  .text (chars! " = FieldNumber::NOT_SET;\n    ::EmbeddedProto::destroy_at(&") <|
  .expr (.ask (.var .field) .get_variable_name) <|
  .text (chars! ");\n  }\n}\ninline void set_") <|
  .expr (.ask (.var .field) .get_name) <|
  .text (chars! "(const ") <|
  .expr (.ask (.var .field) .get_cstdint_type) <|
  .text (chars! "& value)\n{\n  if(FieldNumber::") <|
  .expr (.ask (.var .field) .get_variable_id_name) <|
  .text (chars! " != ") <|
  .expr (.ask (.var .field) .get_which_oneof) <|
  .text (chars! ")\n  {\n    init_") <|
  .expr (.ask (.var .field) .get_oneof_name) <|
  .text (chars! "(FieldNumber::") <|
  .expr (.ask (.var .field) .get_variable_id_name) <|
  .text (chars! ");\n  }\n  ") <|
  .expr (.ask (.var .field) .get_variable_name) <|
  .text (chars! " = value;\n}\ninline void set_") <|
  .expr (.ask (.var .field) .get_name) <|
  .text (chars! "(const ") <|
  .expr (.ask (.var .field) .get_cstdint_type) <|
  .text (chars! "&& value)\n{\n  if(FieldNumber::") <|
  .expr (.ask (.var .field) .get_variable_id_name) <|
  .text (chars! " != ") <|
  .expr (.ask (.var .field) .get_which_oneof) <|
  .text (chars! ")\n  {\n    init_") <|
  .expr (.ask (.var .field) .get_oneof_name) <|
  .text (chars! "(FieldNumber::") <|
  .expr (.ask (.var .field) .get_variable_id_name) <|
  .text (chars! ");\n  }\n  ") <|
  .expr (.ask (.var .field) .get_variable_name) <|
  .text (chars! " = value;\n}\n") <|
  .nil)
  (.ite (.attr (.var .field) .optional)
  (.text (chars! "inline bool has_") <|
  .expr (.ask (.var .field) .get_name) <|
  .text (chars! "() const\n{\n  return 0 != (presence::mask(presence::fields::") <|
  .expr (.ask (.ask (.var .field) .get_name) .upper) <|
  .text (chars! ") & presence_[presence::index(presence::fields::") <|
  .expr (.ask (.ask (.var .field) .get_name) .upper) <|
  .text (chars! ")]);\n}\ninline void clear_") <|
  .expr (.ask (.var .field) .get_name) <|
  .text (chars! "()\n{\n  presence_[presence::index(presence::fields::") <|
  .expr (.ask (.ask (.var .field) .get_name) .upper) <|
  .text (chars! ")] &= ~(presence::mask(presence::fields::") <|
  .expr (.ask (.ask (.var .field) .get_name) .upper) <|
  .text (chars! "));\n  ") <|
  .expr (.ask (.var .field) .get_variable_name) <|
  .text (chars! ".clear();\n}\ninline void set_") <|
  .expr (.ask (.var .field) .get_name) <|
  .text (chars! "(const ") <|
  .expr (.ask (.var .field) .get_cstdint_type) <|
  .text (chars! "& value)\n{\n  presence_[presence::index(presence::fields::") <|
  .expr (.ask (.ask (.var .field) .get_name) .upper) <|
  .text (chars! ")] |= presence::mask(presence::fields::") <|
  .expr (.ask (.ask (.var .field) .get_name) .upper) <|
  .text (chars! ");\n  ") <|
  .expr (.ask (.var .field) .get_variable_name) <|
  .text (chars! " = value;\n}\ninline void set_") <|
  .expr (.ask (.var .field) .get_name) <|
  .text (chars! "(const ") <|
  .expr (.ask (.var .field) .get_cstdint_type) <|
  .text (chars! "&& value)\n{\n  presence_[presence::index(presence::fields::") <|
  .expr (.ask (.ask (.var .field) .get_name) .upper) <|
  .text (chars! ")] |= presence::mask(presence::fields::") <|
  .expr (.ask (.ask (.var .field) .get_name) .upper) <|
  .text (chars! ");\n  ") <|
  .expr (.ask (.var .field) .get_variable_name) <|
  .text (chars! " = value;\n}\ninline ") <|
  .expr (.ask (.var .field) .get_cstdint_type) <|
  .text (chars! "& mutable_") <|
  .expr (.ask (.var .field) .get_name) <|
  .text (chars! "()\n{\n  presence_[presence::index(presence::fields::") <|
  .expr (.ask (.ask (.var .field) .get_name) .upper) <|
  .text (chars! ")] |= presence::mask(presence::fields::") <|
  .expr (.ask (.ask (.var .field) .get_name) .upper) <|
  .text (chars! ");\n  return ") <|
  .expr (.ask (.var .field) .get_variable_name) <|
  .text (chars! ".get();\n}\n") <|
  .nil)
  (.text (chars! "inline void clear_") <|
  .expr (.ask (.var .field) .get_name) <|
  .text (chars! "() { ") <|
  .expr (.ask (.var .field) .get_variable_name) <|
  .text (chars! ".clear(); }\ninline void set_") <|
  .expr (.ask (.var .field) .get_name) <|
  .text (chars! "(const ") <|
  .expr (.ask (.var .field) .get_cstdint_type) <|
  .text (chars! "& value) { ") <|
  .expr (.ask (.var .field) .get_variable_name) <|
  .text (chars! " = value; }\ninline void set_") <|
  .expr (.ask (.var .field) .get_name) <|
  .text (chars! "(const ") <|
  .expr (.ask (.var .field) .get_cstdint_type) <|
  .text (chars! "&& value) { ") <|
  .expr (.ask (.var .field) .get_variable_name) <|
  .text (chars! " = value; }\ninline ") <|
  .expr (.ask (.var .field) .get_cstdint_type) <|
  .text (chars! "& mutable_") <|
  .expr (.ask (.var .field) .get_name) <|
  .text (chars! "() { return ") <|
  .expr (.ask (.var .field) .get_variable_name) <|
  .text (chars! ".get(); }\n") <|
  .nil) <|
  .nil) <|
  .text (chars! "inline const ") <|
  .expr (.ask (.var .field) .get_cstdint_type) <|
  .text (chars! "& get_") <|
  .expr (.ask (.var .field) .get_name) <|
  .text (chars! "() const { return ") <|
  .expr (.ask (.var .field) .get_variable_name) <|
  .text (chars! ".get(); }\ninline ") <|
  .expr (.ask (.var .field) .get_cstdint_type) <|
  .text (chars! " ") <|
  .expr (.ask (.var .field) .get_name) <|
  .text (chars! "() const { return ") <|
  .expr (.ask (.var .field) .get_variable_name) <|
  .text (chars! ".get(); }") <|
  .nil

def fieldBasicSerialize : Nodes :=
  .ite (.or (.attr (.var .field) .optional) (.not (.isNone (.attr (.var .field) .oneof))))
  (.text (chars! "if(has_") <|
  .expr (.ask (.var .field) .get_name) <|
  .text (chars! "() && (::EmbeddedProto::Error::NO_ERRORS == return_value))\n") <|
  .nil)
  (.text (chars! "if((") <|
  .expr (.ask (.var .field) .get_default_value) <|
  .text (chars! " != ") <|
  .expr (.ask (.var .field) .get_variable_name) <|
  .text (chars! ".get()) && (::EmbeddedProto::Error::NO_ERRORS == return_value))\n") <|
  .nil) <|
  .text (chars! "{\n  return_value = ") <|
  .expr (.ask (.var .field) .get_variable_name) <|
  .text (chars! ".serialize_with_id(static_cast<uint32_t>(FieldNumber::") <|
  .expr (.ask (.var .field) .get_variable_id_name) <|
  .text (chars! "), buffer, ") <|
  .expr (.cond (.or (.attr (.var .field) .optional) (.not (.isNone (.attr (.var .field) .oneof)))) (.str (chars! "true")) (.str (chars! "false"))) <|
  .text (chars! ");\n}") <|
  .nil

def fieldBasicDeserialize : Nodes :=
  .ite (.attr (.var .field) .optional)
  (.text (chars! "presence_[presence::index(presence::fields::") <|
  .expr (.ask (.ask (.var .field) .get_name) .upper) <|
  .text (chars! ")] |= presence::mask(presence::fields::") <|
  .expr (.ask (.ask (.var .field) .get_name) .upper) <|
  .text (chars! ");\n") <|
  .nil)
  (.nil) <|
  .text (chars! "return_value = ") <|
  .expr (.ask (.var .field) .get_variable_name) <|
  .text (chars! ".deserialize_check_type(buffer, wire_type);") <|
  .nil

def fieldEnumGetSet : Nodes :=
  .text (chars! "static constexpr char const* ") <|
  .expr (.filter (.ask (.var .field) .get_name) .upper) <|
  .text (chars! "_NAME = \"") <|
  .expr (.ask (.var .field) .get_name) <|
  .text (chars! "\";\n") <|
  .ite (.not (.isNone (.attr (.var .field) .oneof)))
  (.text (chars! "inline bool has_") <|
  .expr (.ask (.var .field) .get_name) <|
  .text (chars! "() const\n{\n  return FieldNumber::") <|
  .expr (.ask (.var .field) .get_variable_id_name) <|
  .text (chars! " == ") <|
  .expr (.ask (.var .field) .get_which_oneof) <|
  .text (chars! ";\n}\ninline void clear_") <|
  .expr (.ask (.var .field) .get_name) <|
  .text (chars! "()\n{\n  if(FieldNumber::") <|
  .expr (.ask (.var .field) .get_variable_id_name) <|
  .text (chars! " == ") <|
  .expr (.ask (.var .field) .get_which_oneof) <|
  .text (chars! ")\n  {\n    ") <|
  .expr (.ask (.var .field) .get_which_oneof) <|
  .text (chars! " = FieldNumber::NOT_SET;\n    ") <|
  .expr (.ask (.var .field) .get_variable_name) <|
  .text (chars! ".clear();\n  }\n}\ninline void set_") <|
  .expr (.ask (.var .field) .get_name) <|
  .text (chars! "(const ") <|
  .expr (.ask (.var .field) .get_type_as_defined) <|
  .text (chars! "& value)\n{\n  if(FieldNumber::") <|
  .expr (.ask (.var .field) .get_variable_id_name) <|
  .text (chars! " != ") <|
  .expr (.ask (.var .field) .get_which_oneof) <|
  .text (chars! ")\n  {\n    init_") <|
  .expr (.ask (.var .field) .get_oneof_name) <|
  .text (chars! "(FieldNumber::") <|
  .expr (.ask (.var .field) .get_variable_id_name) <|
  .text (chars! ");\n  }\n  ") <|
  .expr (.ask (.var .field) .get_variable_name) <|
  .text (chars! " = value;\n}\ninline void set_") <|
  .expr (.ask (.var .field) .get_name) <|
  .text (chars! "(const ") <|
  .expr (.ask (.var .field) .get_type_as_defined) <|
  .text (chars! "&& value)\n{\n  if(FieldNumber::") <|
  .expr (.ask (.var .field) .get_variable_id_name) <|
  .text (chars! " != ") <|
  .expr (.ask (.var .field) .get_which_oneof) <|
  .text (chars! ")\n  {\n    init_") <|
  .expr (.ask (.var .field) .get_oneof_name) <|
  .text (chars! "(FieldNumber::") <|
  .expr (.ask (.var .field) .get_variable_id_name) <|
  .text (chars! ");\n  }\n  ") <|
  .expr (.ask (.var .field) .get_variable_name) <|
  .text (chars! " = value;\n}\n") <|
  .nil)
  (.ite (.attr (.var .field) .optional)
  (.text (chars! "inline bool has_") <|
  .expr (.ask (.var .field) .get_name) <|
  .text (chars! "() const\n{\n  return 0 != (presence::mask(presence::fields::") <|
  .expr (.ask (.ask (.var .field) .get_name) .upper) <|
  .text (chars! ") & presence_[presence::index(presence::fields::") <|
  .expr (.ask (.ask (.var .field) .get_name) .upper) <|
  .text (chars! ")]);\n}\ninline void clear_") <|
  .expr (.ask (.var .field) .get_name) <|
  .text (chars! "()\n{\n  presence_[presence::index(presence::fields::") <|
  .expr (.ask (.ask (.var .field) .get_name) .upper) <|
  .text (chars! ")] &= ~(presence::mask(presence::fields::") <|
  .expr (.ask (.ask (.var .field) .get_name) .upper) <|
  .text (chars! "));\n  ") <|
  .expr (.ask (.var .field) .get_variable_name) <|
  .text (chars! ".clear();\n}\ninline void set_") <|
  .expr (.ask (.var .field) .get_name) <|
  .text (chars! "(const ") <|
  .expr (.ask (.var .field) .get_type_as_defined) <|
  .text (chars! "& value)\n{\n  presence_[presence::index(presence::fields::") <|
  .expr (.ask (.ask (.var .field) .get_name) .upper) <|
  .text (chars! ")] |= presence::mask(presence::fields::") <|
  .expr (.ask (.ask (.var .field) .get_name) .upper) <|
  .text (chars! ");\n  ") <|
  .expr (.ask (.var .field) .get_variable_name) <|
  .text (chars! " = value;\n}\ninline void set_") <|
  .expr (.ask (.var .field) .get_name) <|
  .text (chars! "(const ") <|
  .expr (.ask (.var .field) .get_type_as_defined) <|
  .text (chars! "&& value)\n{\n  presence_[presence::index(presence::fields::") <|
  .expr (.ask (.ask (.var .field) .get_name) .upper) <|
  .text (chars! ")] |= presence::mask(presence::fields::") <|
  .expr (.ask (.ask (.var .field) .get_name) .upper) <|
  .text (chars! ");\n  ") <|
  .expr (.ask (.var .field) .get_variable_name) <|
  .text (chars! " = value;\n}\n") <|
  .nil)
  (.text (chars! "inline void clear_") <|
  .expr (.ask (.var .field) .get_name) <|
  .text (chars! "() { ") <|
  .expr (.ask (.var .field) .get_variable_name) <|
  .text (chars! ".clear(); }\ninline void set_") <|
  .expr (.ask (.var .field) .get_name) <|
  .text (chars! "(const ") <|
  .expr (.ask (.var .field) .get_type_as_defined) <|
  .text (chars! "& value) { ") <|
  .expr (.ask (.var .field) .get_variable_name) <|
  .text (chars! " = value; }\ninline void set_") <|
  .expr (.ask (.var .field) .get_name) <|
  .text (chars! "(const ") <|
  .expr (.ask (.var .field) .get_type_as_defined) <|
  .text (chars! "&& value) { ") <|
  .expr (.ask (.var .field) .get_variable_name) <|
  .text (chars! " = value; }\n") <|
  .nil) <|
  .nil) <|
  .text (chars! "inline const ") <|
  .expr (.ask (.var .field) .get_type_as_defined) <|
  .text (chars! "& get_") <|
  .expr (.ask (.var .field) .get_name) <|
  .text (chars! "() const { return ") <|
  .expr (.ask (.var .field) .get_variable_name) <|
  .text (chars! ".get(); }\ninline ") <|
  .expr (.ask (.var .field) .get_type_as_defined) <|
  .text (chars! " ") <|
  .expr (.ask (.var .field) .get_name) <|
  .text (chars! "() const { return ") <|
  .expr (.ask (.var .field) .get_variable_name) <|
  .text (chars! ".get(); }") <|
  .nil

def fieldEnumSerialize : Nodes :=
  .ite (.or (.attr (.var .field) .optional) (.not (.isNone (.attr (.var .field) .oneof))))
  (.text (chars! "if(has_") <|
  .expr (.ask (.var .field) .get_name) <|
  .text (chars! "() && (::EmbeddedProto::Error::NO_ERRORS == return_value))\n") <|
  .nil)
  (.text (chars! "if((") <|
  .expr (.ask (.var .field) .get_default_value) <|
  .text (chars! " != ") <|
  .expr (.ask (.var .field) .get_variable_name) <|
  .text (chars! ".get()) && (::EmbeddedProto::Error::NO_ERRORS == return_value))\n") <|
  .nil) <|
  .text (chars! "{\n  return_value = ") <|
  .expr (.ask (.var .field) .get_variable_name) <|
  .text (chars! ".serialize_with_id(static_cast<uint32_t>(FieldNumber::") <|
  .expr (.ask (.var .field) .get_variable_id_name) <|
  .text (chars! "), buffer, ") <|
  .expr (.cond (.or (.attr (.var .field) .optional) (.not (.isNone (.attr (.var .field) .oneof)))) (.str (chars! "true")) (.str (chars! "false"))) <|
  .text (chars! ");\n}") <|
  .nil

def fieldEnumDeserialize : Nodes :=
  .ite (.attr (.var .field) .optional)
  (.text (chars! "presence_[presence::index(presence::fields::") <|
  .expr (.ask (.ask (.var .field) .get_name) .upper) <|
  .text (chars! ")] |= presence::mask(presence::fields::") <|
  .expr (.ask (.ask (.var .field) .get_name) .upper) <|
  .text (chars! ");\n") <|
  .nil)
  (.nil) <|
  .text (chars! "return_value = ") <|
  .expr (.ask (.var .field) .get_variable_name) <|
  .text (chars! ".deserialize_check_type(buffer, wire_type);") <|
  .nil

def fieldMsgGetSet : Nodes :=
  .text (chars! "static constexpr char const* ") <|
  .expr (.filter (.ask (.var .field) .get_name) .upper) <|
  .text (chars! "_NAME = \"") <|
  .expr (.ask (.var .field) .get_name) <|
  .text (chars! "\";\n") <|
  .ite (.not (.isNone (.attr (.var .field) .oneof)))
  (.text (chars! "inline bool has_") <|
  .expr (.ask (.var .field) .get_name) <|
  .text (chars! "() const\n{\n  return FieldNumber::") <|
  .expr (.ask (.var .field) .get_variable_id_name) <|
  .text (chars! " == ") <|
  .expr (.ask (.var .field) .get_which_oneof) <|
  .text (chars! ";\n}\ninline void clear_") <|
  .expr (.ask (.var .field) .get_name) <|
  .text (chars! "()\n{\n  if(FieldNumber::") <|
  .expr (.ask (.var .field) .get_variable_id_name) <|
  .text (chars! " == ") <|
  .expr (.ask (.var .field) .get_which_oneof) <|
  .text (chars! ")\n  {\n    ") <|
  .expr (.ask (.var .field) .get_which_oneof) <|
  .text (chars! " = FieldNumber::NOT_SET;\n    ") <|
  .expr (.ask (.var .field) .get_variable_name) <|
  .text (chars! ".~") <|
  .expr (.ask (.var .field) .get_short_type) <|
  .text (chars! "();\n  }\n}\ninline void set_") <|
  .expr (.ask (.var .field) .get_name) <|
  .text (chars! "(const ") <|
  .expr (.ask (.var .field) .get_type) <|
  .text (chars! "& value)\n{\n  if(FieldNumber::") <|
  .expr (.ask (.var .field) .get_variable_id_name) <|
  .text (chars! " != ") <|
  .expr (.ask (.var .field) .get_which_oneof) <|
  .text (chars! ")\n  {\n    init_") <|
  .expr (.ask (.var .field) .get_oneof_name) <|
  .text (chars! "(FieldNumber::") <|
  .expr (.ask (.var .field) .get_variable_id_name) <|
  .text (chars! ");\n  }\n  ") <|
  .expr (.ask (.var .field) .get_variable_name) <|
  .text (chars! " = value;\n}\ninline void set_") <|
  .expr (.ask (.var .field) .get_name) <|
  .text (chars! "(const ") <|
  .expr (.ask (.var .field) .get_type) <|
  .text (chars! "&& value)\n{\n  if(FieldNumber::") <|
  .expr (.ask (.var .field) .get_variable_id_name) <|
  .text (chars! " != ") <|
  .expr (.ask (.var .field) .get_which_oneof) <|
  .text (chars! ")\n  {\n    init_") <|
  .expr (.ask (.var .field) .get_oneof_name) <|
  .text (chars! "(FieldNumber::") <|
  .expr (.ask (.var .field) .get_variable_id_name) <|
  .text (chars! ");\n  }\n  ") <|
  .expr (.ask (.var .field) .get_variable_name) <|
  .text (chars! " = value;\n}\ninline ") <|
  .expr (.ask (.var .field) .get_type) <|
  .text (chars! "& mutable_") <|
  .expr (.ask (.var .field) .get_name) <|
  .text (chars! "()\n{\n  if(FieldNumber::") <|
  .expr (.ask (.var .field) .get_variable_id_name) <|
  .text (chars! " != ") <|
  .expr (.ask (.var .field) .get_which_oneof) <|
  .text (chars! ")\n  {\n    init_") <|
  .expr (.ask (.var .field) .get_oneof_name) <|
  .text (chars! "(FieldNumber::") <|
  .expr (.ask (.var .field) .get_variable_id_name) <|
  .text (chars! ");\n  }\n  return ") <|
  .expr (.ask (.var .field) .get_variable_name) <|
  .text (chars! ";\n}\n") <|
  .nil)
  (.ite (.attr (.var .field) .optional)
  (.text (chars! "inline bool has_") <|
  .expr (.ask (.var .field) .get_name) <|
  .text (chars! "() const\n{\n  return 0 != (presence::mask(presence::fields::") <|
  .expr (.ask (.ask (.var .field) .get_name) .upper) <|
  .text (chars! ") & presence_[presence::index(presence::fields::") <|
  .expr (.ask (.ask (.var .field) .get_name) .upper) <|
  .text (chars! ")]);\n}\ninline void clear_") <|
  .expr (.ask (.var .field) .get_name) <|
  .text (chars! "()\n{\n  presence_[presence::index(presence::fields::") <|
  .expr (.ask (.ask (.var .field) .get_name) .upper) <|
  .text (chars! ")] &= ~(presence::mask(presence::fields::") <|
  .expr (.ask (.ask (.var .field) .get_name) .upper) <|
  .text (chars! "));\n  ") <|
  .expr (.ask (.var .field) .get_variable_name) <|
  .text (chars! ".clear();\n}\ninline void set_") <|
  .expr (.ask (.var .field) .get_name) <|
  .text (chars! "(const ") <|
  .expr (.ask (.var .field) .get_type) <|
  .text (chars! "& value)\n{\n  presence_[presence::index(presence::fields::") <|
  .expr (.ask (.ask (.var .field) .get_name) .upper) <|
  .text (chars! ")] |= presence::mask(presence::fields::") <|
  .expr (.ask (.ask (.var .field) .get_name) .upper) <|
  .text (chars! ");\n  ") <|
  .expr (.ask (.var .field) .get_variable_name) <|
  .text (chars! " = value;\n}\ninline void set_") <|
  .expr (.ask (.var .field) .get_name) <|
  .text (chars! "(const ") <|
  .expr (.ask (.var .field) .get_type) <|
  .text (chars! "&& value)\n{\n  presence_[presence::index(presence::fields::") <|
  .expr (.ask (.ask (.var .field) .get_name) .upper) <|
  .text (chars! ")] |= presence::mask(presence::fields::") <|
  .expr (.ask (.ask (.var .field) .get_name) .upper) <|
  .text (chars! ");\n  ") <|
  .expr (.ask (.var .field) .get_variable_name) <|
  .text (chars! " = value;\n}\ninline ") <|
  .expr (.ask (.var .field) .get_type) <|
  .text (chars! "& mutable_") <|
  .expr (.ask (.var .field) .get_name) <|
  .text (chars! "()\n{\n  presence_[presence::index(presence::fields::") <|
  .expr (.ask (.ask (.var .field) .get_name) .upper) <|
  .text (chars! ")] |= presence::mask(presence::fields::") <|
  .expr (.ask (.ask (.var .field) .get_name) .upper) <|
  .text (chars! ");\n  return ") <|
  .expr (.ask (.var .field) .get_variable_name) <|
  .text (chars! ";\n}\n") <|
  .nil)
  (.text (chars! "inline void clear_") <|
  .expr (.ask (.var .field) .get_name) <|
  .text (chars! "() { ") <|
  .expr (.ask (.var .field) .get_variable_name) <|
  .text (chars! ".clear(); }\ninline void set_") <|
  .expr (.ask (.var .field) .get_name) <|
  .text (chars! "(const ") <|
  .expr (.ask (.var .field) .get_type) <|
  .text (chars! "& value) { ") <|
  .expr (.ask (.var .field) .get_variable_name) <|
  .text (chars! " = value; }\ninline void set_") <|
  .expr (.ask (.var .field) .get_name) <|
  .text (chars! "(const ") <|
  .expr (.ask (.var .field) .get_type) <|
  .text (chars! "&& value) { ") <|
  .expr (.ask (.var .field) .get_variable_name) <|
  .text (chars! " = value; }\ninline ") <|
  .expr (.ask (.var .field) .get_type) <|
  .text (chars! "& mutable_") <|
  .expr (.ask (.var .field) .get_name) <|
  .text (chars! "() { return ") <|
  .expr (.ask (.var .field) .get_variable_name) <|
  .text (chars! "; }\n") <|
  .nil) <|
  .nil) <|
  .text (chars! "inline const ") <|
  .expr (.ask (.var .field) .get_type) <|
  .text (chars! "& get_") <|
  .expr (.ask (.var .field) .get_name) <|
  .text (chars! "() const { return ") <|
  .expr (.ask (.var .field) .get_variable_name) <|
  .text (chars! "; }\ninline const ") <|
  .expr (.ask (.var .field) .get_type) <|
  .text (chars! "& ") <|
  .expr (.ask (.var .field) .get_name) <|
  .text (chars! "() const { return ") <|
  .expr (.ask (.var .field) .get_variable_name) <|
  .text (chars! "; }") <|
  .nil

def fieldMsgSerialize : Nodes :=
  .ite (.or (.attr (.var .field) .optional) (.not (.isNone (.attr (.var .field) .oneof))))
  (.text (chars! "if(has_") <|
  .expr (.ask (.var .field) .get_name) <|
  .text (chars! "() && (::EmbeddedProto::Error::NO_ERRORS == return_value))\n") <|
  .nil)
  (.text (chars! "if(::EmbeddedProto::Error::NO_ERRORS == return_value)\n") <|
  .nil) <|
  .text (chars! "{\n  return_value = ") <|
  .expr (.ask (.var .field) .get_variable_name) <|
  .text (chars! ".serialize_with_id(static_cast<uint32_t>(FieldNumber::") <|
  .expr (.ask (.var .field) .get_variable_id_name) <|
  .text (chars! "), buffer, ") <|
  .expr (.cond (.or (.attr (.var .field) .optional) (.not (.isNone (.attr (.var .field) .oneof)))) (.str (chars! "true")) (.str (chars! "false"))) <|
  .text (chars! ");\n}") <|
  .nil

def fieldMsgDeserialize : Nodes :=
  .ite (.attr (.var .field) .optional)
  (.text (chars! "presence_[presence::index(presence::fields::") <|
  .expr (.ask (.ask (.var .field) .get_name) .upper) <|
  .text (chars! ")] |= presence::mask(presence::fields::") <|
  .expr (.ask (.ask (.var .field) .get_name) .upper) <|
  .text (chars! ");\n") <|
  .nil)
  (.nil) <|
  .text (chars! "return_value = ") <|
  .expr (.ask (.var .field) .get_variable_name) <|
  .text (chars! ".deserialize_check_type(buffer, wire_type);") <|
  .nil

def fieldStringGetSet : Nodes :=
  .text (chars! "static constexpr char const* ") <|
  .expr (.filter (.ask (.var .field) .get_name) .upper) <|
  .text (chars! "_NAME = \"") <|
  .expr (.ask (.var .field) .get_name) <|
  .text (chars! "\";\n") <|
  .ite (.not (.isNone (.attr (.var .field) .oneof)))
  (.text (chars! "inline bool has_") <|
  .expr (.ask (.var .field) .get_name) <|
  .text (chars! "() const\n{\n  return FieldNumber::") <|
  .expr (.ask (.var .field) .get_variable_id_name) <|
  .text (chars! " == ") <|
  .expr (.ask (.var .field) .get_which_oneof) <|
  .text (chars! ";\n}\ninline void clear_") <|
  .expr (.ask (.var .field) .get_name) <|
  .text (chars! "()\n{\n  if(FieldNumber::") <|
  .expr (.ask (.var .field) .get_variable_id_name) <|
  .text (chars! " == ") <|
  .expr (.ask (.var .field) .get_which_oneof) <|
  .text (chars! ")\n  {\n    ") <|
  .expr (.ask (.var .field) .get_which_oneof) <|
  .text (chars! " = FieldNumber::NOT_SET;\n    ") <|
  .expr (.ask (.var .field) .get_variable_name) <|
  .text (chars! ".~") <|
  .expr (.ask (.var .field) .get_short_type) <|
  .text (chars! "();\n  }\n}\ninline ") <|
  .expr (.ask (.var .field) .get_type) <|
  .text (chars! "& mutable_") <|
  .expr (.ask (.var .field) .get_name) <|
  .text (chars! "()\n{\n  if(FieldNumber::") <|
  .expr (.ask (.var .field) .get_variable_id_name) <|
  .text (chars! " != ") <|
  .expr (.ask (.var .field) .get_which_oneof) <|
  .text (chars! ")\n  {\n    init_") <|
  .expr (.ask (.var .field) .get_oneof_name) <|
  .text (chars! "(FieldNumber::") <|
  .expr (.ask (.var .field) .get_variable_id_name) <|
  .text (chars! ");\n  }\n  return ") <|
  .expr (.ask (.var .field) .get_variable_name) <|
  .text (chars! ";\n}\ninline void set_") <|
  .expr (.ask (.var .field) .get_name) <|
  .text (chars! "(const ") <|
  .expr (.ask (.var .field) .get_type) <|
  .text (chars! "& rhs)\n{\n  if(FieldNumber::") <|
  .expr (.ask (.var .field) .get_variable_id_name) <|
  .text (chars! " != ") <|
  .expr (.ask (.var .field) .get_which_oneof) <|
  .text (chars! ")\n  {\n    init_") <|
  .expr (.ask (.var .field) .get_oneof_name) <|
  .text (chars! "(FieldNumber::") <|
  .expr (.ask (.var .field) .get_variable_id_name) <|
  .text (chars! ");\n  }\n  ") <|
  .expr (.ask (.var .field) .get_variable_name) <|
  .text (chars! ".set(rhs);\n}\n") <|
  .nil)
  (.ite (.attr (.var .field) .optional)
  (.text (chars! "inline bool has_") <|
  .expr (.ask (.var .field) .get_name) <|
  .text (chars! "() const\n{\n  return 0 != (presence::mask(presence::fields::") <|
  .expr (.ask (.ask (.var .field) .get_name) .upper) <|
  .text (chars! ") & presence_[presence::index(presence::fields::") <|
  .expr (.ask (.ask (.var .field) .get_name) .upper) <|
  .text (chars! ")]);\n}\ninline void clear_") <|
  .expr (.ask (.var .field) .get_name) <|
  .text (chars! "()\n{\n  presence_[presence::index(presence::fields::") <|
  .expr (.ask (.ask (.var .field) .get_name) .upper) <|
  .text (chars! ")] &= ~(presence::mask(presence::fields::") <|
  .expr (.ask (.ask (.var .field) .get_name) .upper) <|
  .text (chars! "));\n  ") <|
  .expr (.ask (.var .field) .get_variable_name) <|
  .text (chars! ".clear();\n}\ninline ") <|
  .expr (.ask (.var .field) .get_type) <|
  .text (chars! "& mutable_") <|
  .expr (.ask (.var .field) .get_name) <|
  .text (chars! "()\n{\n  presence_[presence::index(presence::fields::") <|
  .expr (.ask (.ask (.var .field) .get_name) .upper) <|
  .text (chars! ")] |= presence::mask(presence::fields::") <|
  .expr (.ask (.ask (.var .field) .get_name) .upper) <|
  .text (chars! ");\n  return ") <|
  .expr (.ask (.var .field) .get_variable_name) <|
  .text (chars! ";\n}\ninline void set_") <|
  .expr (.ask (.var .field) .get_name) <|
  .text (chars! "(const ") <|
  .expr (.ask (.var .field) .get_type) <|
  .text (chars! "& rhs)\n{\n  presence_[presence::index(presence::fields::") <|
  .expr (.ask (.ask (.var .field) .get_name) .upper) <|
  .text (chars! ")] |= presence::mask(presence::fields::") <|
  .expr (.ask (.ask (.var .field) .get_name) .upper) <|
  .text (chars! ");\n  ") <|
  .expr (.ask (.var .field) .get_variable_name) <|
  .text (chars! ".set(rhs);\n}\n") <|
  .nil)
  (.text (chars! "inline void clear_") <|
  .expr (.ask (.var .field) .get_name) <|
  .text (chars! "() { ") <|
  .expr (.ask (.var .field) .get_variable_name) <|
  .text (chars! ".clear(); }\ninline ") <|
  .expr (.ask (.var .field) .get_type) <|
  .text (chars! "& mutable_") <|
  .expr (.ask (.var .field) .get_name) <|
  .text (chars! "() { return ") <|
  .expr (.ask (.var .field) .get_variable_name) <|
  .text (chars! "; }\ninline void set_") <|
  .expr (.ask (.var .field) .get_name) <|
  .text (chars! "(const ") <|
  .expr (.ask (.var .field) .get_type) <|
  .text (chars! "& rhs) { ") <|
  .expr (.ask (.var .field) .get_variable_name) <|
  .text (chars! ".set(rhs); }\n") <|
  .nil) <|
  .nil) <|
  .text (chars! "inline const ") <|
  .expr (.ask (.var .field) .get_type) <|
  .text (chars! "& get_") <|
  .expr (.ask (.var .field) .get_name) <|
  .text (chars! "() const { return ") <|
  .expr (.ask (.var .field) .get_variable_name) <|
  .text (chars! "; }\ninline const char* ") <|
  .expr (.ask (.var .field) .get_name) <|
  .text (chars! "() const { return ") <|
  .expr (.ask (.var .field) .get_variable_name) <|
  .text (chars! ".get_const(); }") <|
  .nil

def fieldBytesGetSet : Nodes :=
  .text (chars! "static constexpr char const* ") <|
  .expr (.filter (.ask (.var .field) .get_name) .upper) <|
  .text (chars! "_NAME = \"") <|
  .expr (.ask (.var .field) .get_name) <|
  .text (chars! "\";\n") <|
  .ite (.not (.isNone (.attr (.var .field) .oneof)))
  (.text (chars! "inline bool has_") <|
  .expr (.ask (.var .field) .get_name) <|
  .text (chars! "() const\n{\n  return FieldNumber::") <|
  .expr (.ask (.var .field) .get_variable_id_name) <|
  .text (chars! " == ") <|
  .expr (.ask (.var .field) .get_which_oneof) <|
  .text (chars! ";\n}\ninline void clear_") <|
  .expr (.ask (.var .field) .get_name) <|
  .text (chars! "()\n{\n  if(FieldNumber::") <|
  .expr (.ask (.var .field) .get_variable_id_name) <|
  .text (chars! " == ") <|
  .expr (.ask (.var .field) .get_which_oneof) <|
  .text (chars! ")\n  {\n    ") <|
  .expr (.ask (.var .field) .get_which_oneof) <|
  .text (chars! " = FieldNumber::NOT_SET;\n    ") <|
  .expr (.ask (.var .field) .get_variable_name) <|
  .text (chars! ".~") <|
  .expr (.ask (.var .field) .get_short_type) <|
  .text (chars! "();\n  }\n}\ninline ") <|
  .expr (.ask (.var .field) .get_type) <|
  .text (chars! "& mutable_") <|
  .expr (.ask (.var .field) .get_name) <|
  .text (chars! "()\n{\n  if(FieldNumber::") <|
  .expr (.ask (.var .field) .get_variable_id_name) <|
  .text (chars! " != ") <|
  .expr (.ask (.var .field) .get_which_oneof) <|
  .text (chars! ")\n  {\n    init_") <|
  .expr (.ask (.var .field) .get_oneof_name) <|
  .text (chars! "(FieldNumber::") <|
  .expr (.ask (.var .field) .get_variable_id_name) <|
  .text (chars! ");\n  }\n  return ") <|
  .expr (.ask (.var .field) .get_variable_name) <|
  .text (chars! ";\n}\ninline void set_") <|
  .expr (.ask (.var .field) .get_name) <|
  .text (chars! "(const ") <|
  .expr (.ask (.var .field) .get_type) <|
  .text (chars! "& rhs)\n{\n  if(FieldNumber::") <|
  .expr (.ask (.var .field) .get_variable_id_name) <|
  .text (chars! " != ") <|
  .expr (.ask (.var .field) .get_which_oneof) <|
  .text (chars! ")\n  {\n    init_") <|
  .expr (.ask (.var .field) .get_oneof_name) <|
  .text (chars! "(FieldNumber::") <|
  .expr (.ask (.var .field) .get_variable_id_name) <|
  .text (chars! ");\n  }\n  ") <|
  .expr (.ask (.var .field) .get_variable_name) <|
  .text (chars! ".set(rhs);\n}\n") <|
  .nil)
  (.ite (.attr (.var .field) .optional)
  (.text (chars! "inline bool has_") <|
  .expr (.ask (.var .field) .get_name) <|
  .text (chars! "() const\n{\n  return 0 != (presence::mask(presence::fields::") <|
  .expr (.ask (.ask (.var .field) .get_name) .upper) <|
  .text (chars! ") & presence_[presence::index(presence::fields::") <|
  .expr (.ask (.ask (.var .field) .get_name) .upper) <|
  .text (chars! ")]);\n}\ninline void clear_") <|
  .expr (.ask (.var .field) .get_name) <|
  .text (chars! "()\n{\n  presence_[presence::index(presence::fields::") <|
  .expr (.ask (.ask (.var .field) .get_name) .upper) <|
  .text (chars! ")] &= ~(presence::mask(presence::fields::") <|
  .expr (.ask (.ask (.var .field) .get_name) .upper) <|
  .text (chars! "));\n  ") <|
  .expr (.ask (.var .field) .get_variable_name) <|
  .text (chars! ".clear();\n}\ninline ") <|
  .expr (.ask (.var .field) .get_type) <|
  .text (chars! "& mutable_") <|
  .expr (.ask (.var .field) .get_name) <|
  .text (chars! "()\n{\n  presence_[presence::index(presence::fields::") <|
  .expr (.ask (.ask (.var .field) .get_name) .upper) <|
  .text (chars! ")] |= presence::mask(presence::fields::") <|
  .expr (.ask (.ask (.var .field) .get_name) .upper) <|
  .text (chars! ");\n  return ") <|
  .expr (.ask (.var .field) .get_variable_name) <|
  .text (chars! ";\n}\ninline void set_") <|
  .expr (.ask (.var .field) .get_name) <|
  .text (chars! "(const ") <|
  .expr (.ask (.var .field) .get_type) <|
  .text (chars! "& rhs)\n{\n  presence_[presence::index(presence::fields::") <|
  .expr (.ask (.ask (.var .field) .get_name) .upper) <|
  .text (chars! ")] |= presence::mask(presence::fields::") <|
  .expr (.ask (.ask (.var .field) .get_name) .upper) <|
  .text (chars! ");\n  ") <|
  .expr (.ask (.var .field) .get_variable_name) <|
  .text (chars! ".set(rhs);\n}\n") <|
  .nil)
  (.text (chars! "inline void clear_") <|
  .expr (.ask (.var .field) .get_name) <|
  .text (chars! "() { ") <|
  .expr (.ask (.var .field) .get_variable_name) <|
  .text (chars! ".clear(); }\ninline ") <|
  .expr (.ask (.var .field) .get_type) <|
  .text (chars! "& mutable_") <|
  .expr (.ask (.var .field) .get_name) <|
  .text (chars! "() { return ") <|
  .expr (.ask (.var .field) .get_variable_name) <|
  .text (chars! "; }\ninline void set_") <|
  .expr (.ask (.var .field) .get_name) <|
  .text (chars! "(const ") <|
  .expr (.ask (.var .field) .get_type) <|
  .text (chars! "& rhs) { ") <|
  .expr (.ask (.var .field) .get_variable_name) <|
  .text (chars! ".set(rhs); }\n") <|
  .nil) <|
  .nil) <|
  .text (chars! "inline const ") <|
  .expr (.ask (.var .field) .get_type) <|
  .text (chars! "& get_") <|
  .expr (.ask (.var .field) .get_name) <|
  .text (chars! "() const { return ") <|
  .expr (.ask (.var .field) .get_variable_name) <|
  .text (chars! "; }\ninline const uint8_t* ") <|
  .expr (.ask (.var .field) .get_name) <|
  .text (chars! "() const { return ") <|
  .expr (.ask (.var .field) .get_variable_name) <|
  .text (chars! ".get_const(); }") <|
  .nil

def fieldStringBytesSerialize : Nodes :=
  .ite (.or (.attr (.var .field) .optional) (.not (.isNone (.attr (.var .field) .oneof))))
  (.text (chars! "if(has_") <|
  .expr (.ask (.var .field) .get_name) <|
  .text (chars! "() && (::EmbeddedProto::Error::NO_ERRORS == return_value))\n") <|
  .nil)
  (.text (chars! "if(::EmbeddedProto::Error::NO_ERRORS == return_value)\n") <|
  .nil) <|
  .text (chars! "{\n  return_value = ") <|
  .expr (.ask (.var .field) .get_variable_name) <|
  .text (chars! ".serialize_with_id(static_cast<uint32_t>(FieldNumber::") <|
  .expr (.ask (.var .field) .get_variable_id_name) <|
  .text (chars! "), buffer, ") <|
  .expr (.cond (.or (.attr (.var .field) .optional) (.not (.isNone (.attr (.var .field) .oneof)))) (.str (chars! "true")) (.str (chars! "false"))) <|
  .text (chars! ");\n}") <|
  .nil

def fieldRepeatedGetSet : Nodes :=
  .text (chars! "static constexpr char const* ") <|
  .expr (.filter (.ask (.var .field) .get_name) .upper) <|
  .text (chars! "_NAME = \"") <|
  .expr (.ask (.var .field) .get_name) <|
  .text (chars! "\";\n") <|
  .ite (.not (.isNone (.attr (.var .field) .oneof)))
  (.text (chars! "inline bool has_") <|
  .expr (.ask (.var .field) .get_name) <|
  .text (chars! "() const\n{\n  return FieldNumber::") <|
  .expr (.ask (.var .field) .get_variable_id_name) <|
  .text (chars! " == ") <|
  .expr (.ask (.var .field) .get_which_oneof) <|
  .text (chars! ";\n}\ninline void clear_") <|
  .expr (.ask (.var .field) .get_name) <|
  .text (chars! "()\n{\n  if(FieldNumber::") <|
  .expr (.ask (.var .field) .get_variable_id_name) <|
  .text (chars! " == ") <|
  .expr (.ask (.var .field) .get_which_oneof) <|
  .text (chars! ")\n  {\n    ") <|
  .expr (.attr (.var .field) .get_which_oneof) <|
  .text (chars! " = FieldNumber::NOT_SET;\n    ") <|
  .expr (.ask (.var .field) .get_variable_name) <|
  .text (chars! ".~") <|
  .expr (.ask (.var .field) .get_short_type) <|
  .text (chars! "();\n  }\n}\ninline void set_") <|
  .expr (.ask (.var .field) .get_name) <|
  .text (chars! "(uint32_t index, const ") <|
  .expr (.ask (.var .field) .get_type) <|
  .text (chars! "& value)\n{\n  if(FieldNumber::") <|
  .expr (.ask (.var .field) .get_variable_id_name) <|
  .text (chars! " != ") <|
  .expr (.ask (.var .field) .get_which_oneof) <|
  .text (chars! ")\n  {\n    init_") <|
  .expr (.ask (.var .field) .get_oneof_name) <|
  .text (chars! "(FieldNumber::") <|
  .expr (.ask (.var .field) .get_variable_id_name) <|
  .text (chars! ");\n  }\n  ") <|
  .expr (.ask (.var .field) .get_variable_name) <|
  .text (chars! ".set(index, value);\n}\ninline void set_") <|
  .expr (.ask (.var .field) .get_name) <|
  .text (chars! "(uint32_t index, const ") <|
  .expr (.ask (.var .field) .get_type) <|
  .text (chars! "&& value)\n{\n  if(FieldNumber::") <|
  .expr (.ask (.var .field) .get_variable_id_name) <|
  .text (chars! " != ") <|
  .expr (.ask (.var .field) .get_which_oneof) <|
  .text (chars! ")\n  {\n    init_") <|
  .expr (.ask (.var .field) .get_oneof_name) <|
  .text (chars! "(FieldNumber::") <|
  .expr (.ask (.var .field) .get_variable_id_name) <|
  .text (chars! ");\n  }\n  ") <|
  .expr (.ask (.var .field) .get_variable_name) <|
  .text (chars! ".set(index, value);\n}\ninline void set_") <|
  .expr (.ask (.var .field) .get_name) <|
  .text (chars! "(const ") <|
  .expr (.attr (.var .field) .repeated_type) <|
  .text (chars! "& values)\n{\n  if(FieldNumber::") <|
  .expr (.ask (.var .field) .get_variable_id_name) <|
  .text (chars! " != ") <|
  .expr (.ask (.var .field) .get_which_oneof) <|
  .text (chars! ")\n  {\n    init_") <|
  .expr (.ask (.var .field) .get_oneof_name) <|
  .text (chars! "(FieldNumber::") <|
  .expr (.ask (.var .field) .get_variable_id_name) <|
  .text (chars! ");\n  }\n  ") <|
  .expr (.ask (.var .field) .get_variable_name) <|
  .text (chars! " = values;\n}\ninline void add_") <|
  .expr (.ask (.var .field) .get_name) <|
  .text (chars! "(const ") <|
  .expr (.ask (.var .field) .get_type) <|
  .text (chars! "& value)\n{\n  if(FieldNumber::") <|
  .expr (.ask (.var .field) .get_variable_id_name) <|
  .text (chars! " != ") <|
  .expr (.ask (.var .field) .get_which_oneof) <|
  .text (chars! ")\n  {\n    init_") <|
  .expr (.ask (.var .field) .get_oneof_name) <|
  .text (chars! "(FieldNumber::") <|
  .expr (.ask (.var .field) .get_variable_id_name) <|
  .text (chars! ");\n  }\n  ") <|
  .expr (.ask (.var .field) .get_variable_name) <|
  .text (chars! ".add(value);\n}\ninline ") <|
  .expr (.attr (.var .field) .repeated_type) <|
  .text (chars! "& mutable_") <|
  .expr (.ask (.var .field) .get_name) <|
  .text (chars! "()\n{\n  if(FieldNumber::") <|
  .expr (.ask (.var .field) .get_variable_id_name) <|
  .text (chars! " != ") <|
  .expr (.ask (.var .field) .get_which_oneof) <|
  .text (chars! ")\n  {\n    init_") <|
  .expr (.ask (.var .field) .get_oneof_name) <|
  .text (chars! "(FieldNumber::") <|
  .expr (.ask (.var .field) .get_variable_id_name) <|
  .text (chars! ");\n  }\n  return ") <|
  .expr (.ask (.var .field) .get_variable_name) <|
  .text (chars! ";\n}\n") <|
  .nil)
  (.text (chars! "inline const ") <|
  .expr (.ask (.var .field) .get_base_type) <|
  .text (chars! "& ") <|
  .expr (.ask (.var .field) .get_name) <|
  .text (chars! "(uint32_t index) const { return ") <|
  .expr (.ask (.var .field) .get_variable_name) <|
  .text (chars! "[index]; }\ninline void clear_") <|
  .expr (.ask (.var .field) .get_name) <|
  .text (chars! "() { ") <|
  .expr (.ask (.var .field) .get_variable_name) <|
  .text (chars! ".clear(); }\ninline void set_") <|
  .expr (.ask (.var .field) .get_name) <|
  .text (chars! "(uint32_t index, const ") <|
  .expr (.ask (.var .field) .get_base_type) <|
  .text (chars! "& value) { ") <|
  .expr (.ask (.var .field) .get_variable_name) <|
  .text (chars! ".set(index, value); }\ninline void set_") <|
  .expr (.ask (.var .field) .get_name) <|
  .text (chars! "(uint32_t index, const ") <|
  .expr (.ask (.var .field) .get_base_type) <|
  .text (chars! "&& value) { ") <|
  .expr (.ask (.var .field) .get_variable_name) <|
  .text (chars! ".set(index, value); }\ninline void set_") <|
  .expr (.ask (.var .field) .get_name) <|
  .text (chars! "(const ") <|
  .expr (.ask (.var .field) .get_type) <|
  .text (chars! "& values) { ") <|
  .expr (.ask (.var .field) .get_variable_name) <|
  .text (chars! " = values; }\ninline void add_") <|
  .expr (.ask (.var .field) .get_name) <|
  .text (chars! "(const ") <|
  .expr (.ask (.var .field) .get_base_type) <|
  .text (chars! "& value) { ") <|
  .expr (.ask (.var .field) .get_variable_name) <|
  .text (chars! ".add(value); }\ninline ") <|
  .expr (.ask (.var .field) .get_type) <|
  .text (chars! "& mutable_") <|
  .expr (.ask (.var .field) .get_name) <|
  .text (chars! "() { return ") <|
  .expr (.ask (.var .field) .get_variable_name) <|
  .text (chars! "; }\ninline ") <|
  .expr (.ask (.var .field) .get_base_type) <|
  .text (chars! "& mutable_") <|
  .expr (.ask (.var .field) .get_name) <|
  .text (chars! "(uint32_t index) { return ") <|
  .expr (.ask (.var .field) .get_variable_name) <|
  .text (chars! "[index]; }\n") <|
  .nil) <|
  .text (chars! "inline const ") <|
  .expr (.ask (.var .field) .get_type) <|
  .text (chars! "& get_") <|
  .expr (.ask (.var .field) .get_name) <|
  .text (chars! "() const { return ") <|
  .expr (.ask (.var .field) .get_variable_name) <|
  .text (chars! "; }\ninline const ") <|
  .expr (.ask (.var .field) .get_type) <|
  .text (chars! "& ") <|
  .expr (.ask (.var .field) .get_name) <|
  .text (chars! "() const { return ") <|
  .expr (.ask (.var .field) .get_variable_name) <|
  .text (chars! "; }") <|
  .nil

def fieldRepeatedSerialize : Nodes :=
  .text (chars! "if(::EmbeddedProto::Error::NO_ERRORS == return_value)\n{\n  return_value = ") <|
  .expr (.ask (.var .field) .get_variable_name) <|
  .text (chars! ".serialize_with_id(static_cast<uint32_t>(FieldNumber::") <|
  .expr (.ask (.var .field) .get_variable_id_name) <|
  .text (chars! "), buffer, ") <|
  .expr (.cond (.or (.attr (.var .field) .optional) (.not (.isNone (.attr (.var .field) .oneof)))) (.str (chars! "true")) (.str (chars! "false"))) <|
  .text (chars! ");\n}") <|
  .nil

def fieldErrorRecursiveGetSet : Nodes :=
  .text (chars! "#warning \"You have a recursive inclusion with the field: '") <|
  .expr (.ask (.var .field) .get_name) <|
  .text (chars! "'. Embedded Proto is unable to determine the template parameters in this case. We could only generate this message by leaving it out.\"\nstatic constexpr char const* ") <|
  .expr (.filter (.ask (.var .field) .get_name) .upper) <|
  .text (chars! "_NAME = \"") <|
  .expr (.ask (.var .field) .get_name) <|
  .text (chars! "\";\ninline void clear_") <|
  .expr (.ask (.var .field) .get_name) <|
  .text (chars! "() { }\ninline void set_") <|
  .expr (.ask (.var .field) .get_name) <|
  .text (chars! "(const uint8_t& value) { }\ninline void set_") <|
  .expr (.ask (.var .field) .get_name) <|
  .text (chars! "(const uint8_t&& value) { }\ninline const uint8_t get_") <|
  .expr (.ask (.var .field) .get_name) <|
  .text (chars! "() const { return 0; }\ninline uint8_t ") <|
  .expr (.ask (.var .field) .get_name) <|
  .text (chars! "() const { return 0; }") <|
  .nil

set_option maxRecDepth 100000

theorem parse_header : parse Template.header = some header := by decide +kernel

theorem parse_typeDefMsg : parse Template.typeDefMsg = some typeDefMsg := by decide +kernel

theorem parse_typeOneof : parse Template.typeOneof = some typeOneof := by decide +kernel

theorem parse_typeDefEnum : parse Template.typeDefEnum = some typeDefEnum := by decide +kernel

theorem parse_fieldBasicGetSet : parse Template.fieldBasicGetSet = some fieldBasicGetSet := by decide +kernel

theorem parse_fieldBasicSerialize : parse Template.fieldBasicSerialize = some fieldBasicSerialize := by decide +kernel

theorem parse_fieldBasicDeserialize : parse Template.fieldBasicDeserialize = some fieldBasicDeserialize := by decide +kernel

theorem parse_fieldEnumGetSet : parse Template.fieldEnumGetSet = some fieldEnumGetSet := by decide +kernel

theorem parse_fieldEnumSerialize : parse Template.fieldEnumSerialize = some fieldEnumSerialize := by decide +kernel

theorem parse_fieldEnumDeserialize : parse Template.fieldEnumDeserialize = some fieldEnumDeserialize := by decide +kernel

theorem parse_fieldMsgGetSet : parse Template.fieldMsgGetSet = some fieldMsgGetSet := by decide +kernel

theorem parse_fieldMsgSerialize : parse Template.fieldMsgSerialize = some fieldMsgSerialize := by decide +kernel

theorem parse_fieldMsgDeserialize : parse Template.fieldMsgDeserialize = some fieldMsgDeserialize := by decide +kernel

theorem parse_fieldStringGetSet : parse Template.fieldStringGetSet = some fieldStringGetSet := by decide +kernel

theorem parse_fieldBytesGetSet : parse Template.fieldBytesGetSet = some fieldBytesGetSet := by decide +kernel

theorem parse_fieldStringBytesSerialize : parse Template.fieldStringBytesSerialize = some fieldStringBytesSerialize := by decide +kernel

theorem parse_fieldRepeatedGetSet : parse Template.fieldRepeatedGetSet = some fieldRepeatedGetSet := by decide +kernel

theorem parse_fieldRepeatedSerialize : parse Template.fieldRepeatedSerialize = some fieldRepeatedSerialize := by decide +kernel

theorem parse_fieldErrorRecursiveGetSet : parse Template.fieldErrorRecursiveGetSet = some fieldErrorRecursiveGetSet := by decide +kernel

end EP.Gen.Jinja.Parsed
