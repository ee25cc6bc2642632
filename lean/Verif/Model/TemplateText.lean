/-!
# The templates of the generator

Verbatim copies of the files in /repo/generator/EmbeddedProto/templates, written by tools/templates.py, which also
compares them.  A file is the list of its lines.
-/

namespace EP.Gen.Template

/-- The characters of a string literal, as a list the kernel need not compute. -/
macro "chars!" s:str : term => do
  let cs : Array Lean.Term := (s.getString.toList.map fun c => (⟨Lean.Syntax.mkCharLit c⟩ : Lean.Term)).toArray
  `(([$cs,*] : List Char))

def header1 : List (List Char) := [
  chars! r"{#",
  chars! r"  Copyright (C) 2020-2024 Embedded AMS B.V. - All Rights Reserved",
  chars! r"",
  chars! r"  This file is part of Embedded Proto.",
  chars! r"",
  chars! r"  Embedded Proto is open source software: you can redistribute it and/or",
  chars! r"  modify it under the terms of the GNU General Public License as published",
  chars! r"  by the Free Software Foundation, version 3 of the license.",
  chars! r"",
  chars! r"  Embedded Proto  is distributed in the hope that it will be useful,",
  chars! r"  but WITHOUT ANY WARRANTY; without even the implied warranty of",
  chars! r"  MERCHANTABILITY or FITNESS FOR A PARTICULAR PURPOSE. See the",
  chars! r"  GNU General Public License for more details.",
  chars! r"",
  chars! r"  You should have received a copy of the GNU General Public License",
  chars! r"  along with Embedded Proto. If not, see <https://www.gnu.org/licenses/>.",
  chars! r"",
  chars! r"  For commercial and closed source application please visit:",
  chars! r"  <https://EmbeddedProto.com/license/>.",
  chars! r""]

def header2 : List (List Char) := [
  chars! r"  Embedded AMS B.V.",
  chars! r"  Info:",
  chars! r"    info at EmbeddedProto dot com",
  chars! r"",
  chars! r"  Postal address:",
  chars! r"    Atoomweg 2",
  chars! r"    1627 LE, Hoorn",
  chars! r"    the Netherlands",
  chars! r"#}",
  chars! r"/*",
  chars! r" *  This file is generated with Embedded Proto, PLEASE DO NOT EDIT!",
  chars! r" *  source: {{proto_file.descriptor.name}}",
  chars! r" */",
  chars! r"",
  chars! r"// This file is generated. Please do not edit!",
  chars! r"#ifndef {{proto_file.get_header_guard()}}_H",
  chars! r"#define {{proto_file.get_header_guard()}}_H",
  chars! r"",
  chars! r"#include <cstdint>",
  chars! r"{% if proto_file.msg_definitions %}"]

def header3 : List (List Char) := [
  chars! r"#include <MessageInterface.h>",
  chars! r"#include <WireFormatter.h>",
  chars! r"#include <Fields.h>",
  chars! r"#include <MessageSizeCalculator.h>",
  chars! r"#include <ReadBufferSection.h>",
  chars! r"#include <RepeatedFieldFixedSize.h>",
  chars! r"#include <FieldStringBytes.h>",
  chars! r"#include <Errors.h>",
  chars! r"#include <Defines.h>",
  chars! r"#include <limits>",
  chars! r"",
  chars! r"{% endif %}",
  chars! r"{% if proto_file.get_dependencies() is defined %}",
  chars! r"// Include external proto definitions",
  chars! r"{% for dependency in proto_file.get_dependencies() %}",
  chars! r#"#include "{{dependency}}""#,
  chars! r"{% endfor %}",
  chars! r"",
  chars! r"{% endif %}",
  chars! r"{% for namespace in proto_file.get_namespaces() %}"]

def header4 : List (List Char) := [
  chars! r"namespace {{ namespace }} {",
  chars! r"{% endfor %}",
  chars! r"",
  chars! r"{% for enum in proto_file.enum_definitions %}",
  chars! r"{{ enum.render(environment) }}",
  chars! r"",
  chars! r"{% endfor %}",
  chars! r"{% for msg in proto_file.msg_definitions %}",
  chars! r"{{ msg.render(environment) }}",
  chars! r"",
  chars! r"{% endfor %}",
  chars! r"{% for namespace in proto_file.get_namespaces()|reverse %}",
  chars! r"} // End of namespace {{ namespace }}",
  chars! r"{% endfor %}",
  chars! r"#endif // {{proto_file.get_header_guard()}}_H",
  chars! r""]

/-- generator/EmbeddedProto/templates/Header.h -/
def header : List (List Char) :=
  header1 ++ header2 ++ header3 ++ header4

def typeDefMsg1 : List (List Char) := [
  chars! r"{#",
  chars! r"Copyright (C) 2020-2024 Embedded AMS B.V. - All Rights Reserved",
  chars! r"",
  chars! r"This file is part of Embedded Proto.",
  chars! r"",
  chars! r"Embedded Proto is open source software: you can redistribute it and/or",
  chars! r"modify it under the terms of the GNU General Public License as published",
  chars! r"by the Free Software Foundation, version 3 of the license.",
  chars! r"",
  chars! r"Embedded Proto  is distributed in the hope that it will be useful,",
  chars! r"but WITHOUT ANY WARRANTY; without even the implied warranty of",
  chars! r"MERCHANTABILITY or FITNESS FOR A PARTICULAR PURPOSE. See the",
  chars! r"GNU General Public License for more details.",
  chars! r"",
  chars! r"You should have received a copy of the GNU General Public License",
  chars! r"along with Embedded Proto. If not, see <https://www.gnu.org/licenses/>.",
  chars! r"",
  chars! r"For commercial and closed source application please visit:",
  chars! r"<https://EmbeddedProto.com/license/>.",
  chars! r""]

def typeDefMsg2 : List (List Char) := [
  chars! r"Embedded AMS B.V.",
  chars! r"Info:",
  chars! r"  info at EmbeddedProto dot com",
  chars! r"",
  chars! r"Postal address:",
  chars! r"  Atoomweg 2",
  chars! r"  1627 LE, Hoorn",
  chars! r"  the Netherlands",
  chars! r"#}",
  chars! r"{% import 'TypeOneof.h' as TypeOneof %}",
  chars! r"{% for tmpl_param in typedef.get_templates() %}",
  chars! r#"{{"template<\n" if loop.first}}    {{tmpl_param['type']}} {{tmpl_param['name']}}{{", " if not loop.last}}{{"\n>" if loop.last}}"#,
  chars! r"{% endfor %}",
  chars! r"class {{ typedef.get_name() }} final: public ::EmbeddedProto::MessageInterface",
  chars! r"{",
  chars! r"  public:",
  chars! r"    {{ typedef.get_name() }}() = default;",
  chars! r"    {{ typedef.get_name() }}(const {{typedef.get_name()}}& rhs )",
  chars! r"    {",
  chars! r"      {% for field in typedef.fields %}"]

def typeDefMsg3 : List (List Char) := [
  chars! r"      {% if typedef.optional_fields is defined and field in typedef.optional_fields %}",
  chars! r"      if(rhs.has_{{field.get_name()}}())",
  chars! r"      {",
  chars! r"        set_{{ field.get_name() }}(rhs.get_{{ field.get_name() }}());",
  chars! r"      }",
  chars! r"      else",
  chars! r"      {",
  chars! r"        clear_{{ field.get_name() }}();",
  chars! r"      }",
  chars! r"",
  chars! r"      {% else %}",
  chars! r"      set_{{ field.get_name() }}(rhs.get_{{ field.get_name() }}());",
  chars! r"      {% endif %}",
  chars! r"      {% endfor %}",
  chars! r"      {% for oneof in typedef.oneofs %}",
  chars! r"      {{ TypeOneof.assign(oneof)|indent(6) }}",
  chars! r"      {% endfor %}",
  chars! r"    }",
  chars! r"",
  chars! r"    {{ typedef.get_name() }}(const {{typedef.get_name()}}&& rhs ) noexcept"]

def typeDefMsg4 : List (List Char) := [
  chars! r"    {",
  chars! r"      {% for field in typedef.fields %}",
  chars! r"      {% if typedef.optional_fields is defined and field in typedef.optional_fields %}",
  chars! r"      if(rhs.has_{{field.get_name()}}())",
  chars! r"      {",
  chars! r"        set_{{ field.get_name() }}(rhs.get_{{ field.get_name() }}());",
  chars! r"      }",
  chars! r"      else",
  chars! r"      {",
  chars! r"        clear_{{ field.get_name() }}();",
  chars! r"      }",
  chars! r"",
  chars! r"      {% else %}",
  chars! r"      set_{{ field.get_name() }}(rhs.get_{{ field.get_name() }}());",
  chars! r"      {% endif %}",
  chars! r"      {% endfor %}",
  chars! r"      {% for oneof in typedef.oneofs %}",
  chars! r"      {{ TypeOneof.assign(oneof)|indent(6) }}",
  chars! r"      {% endfor %}",
  chars! r"    }"]

def typeDefMsg5 : List (List Char) := [
  chars! r"",
  chars! r"    ~{{ typedef.get_name() }}() override = default;",
  chars! r"",
  chars! r"    {% for enum in typedef.nested_enum_definitions %}",
  chars! r"    {{ enum.render(environment)|indent(4) }}",
  chars! r"",
  chars! r"    {% endfor %}",
  chars! r"    {% for msg in typedef.nested_msg_definitions %}",
  chars! r"    {{ msg.render(environment)|indent(4) }}",
  chars! r"",
  chars! r"    {% endfor %}",
  chars! r"    enum class FieldNumber : uint32_t",
  chars! r"    {",
  chars! r"      NOT_SET = 0,",
  chars! r"      {% for id_set in typedef.field_ids %}",
  chars! r#"      {{id_set[1]}} = {{id_set[0]}}{{ "," if not loop.last }}"#,
  chars! r"      {% endfor %}",
  chars! r"    };",
  chars! r"",
  chars! r"    {{ typedef.name }}& operator=(const {{ typedef.name }}& rhs)"]

def typeDefMsg6 : List (List Char) := [
  chars! r"    {",
  chars! r"      {% for field in typedef.fields %}",
  chars! r"      {% if typedef.optional_fields is defined and field in typedef.optional_fields %}",
  chars! r"      if(rhs.has_{{field.get_name()}}())",
  chars! r"      {",
  chars! r"        set_{{ field.get_name() }}(rhs.get_{{ field.get_name() }}());",
  chars! r"      }",
  chars! r"      else",
  chars! r"      {",
  chars! r"        clear_{{ field.get_name() }}();",
  chars! r"      }",
  chars! r"",
  chars! r"      {% else %}",
  chars! r"      set_{{ field.get_name() }}(rhs.get_{{ field.get_name() }}());",
  chars! r"      {% endif %}",
  chars! r"      {% endfor %}",
  chars! r"      {% for oneof in typedef.oneofs %}",
  chars! r"      {{ TypeOneof.assign(oneof)|indent(6) }}",
  chars! r"      {% endfor %}",
  chars! r"      return *this;"]

def typeDefMsg7 : List (List Char) := [
  chars! r"    }",
  chars! r"",
  chars! r"    {{ typedef.name }}& operator=(const {{ typedef.name }}&& rhs) noexcept",
  chars! r"    {",
  chars! r"      {% for field in typedef.fields %}",
  chars! r"      {% if typedef.optional_fields is defined and field in typedef.optional_fields %}",
  chars! r"      if(rhs.has_{{field.get_name()}}())",
  chars! r"      {",
  chars! r"        set_{{ field.get_name() }}(rhs.get_{{ field.get_name() }}());",
  chars! r"      }",
  chars! r"      else",
  chars! r"      {",
  chars! r"        clear_{{ field.get_name() }}();",
  chars! r"      }",
  chars! r"      ",
  chars! r"      {% else %}",
  chars! r"      set_{{ field.get_name() }}(rhs.get_{{ field.get_name() }}());",
  chars! r"      {% endif %}",
  chars! r"      {% endfor %}",
  chars! r"      {% for oneof in typedef.oneofs %}"]

def typeDefMsg8 : List (List Char) := [
  chars! r"      {{ TypeOneof.assign(oneof)|indent(6) }}",
  chars! r"      {% endfor %}",
  chars! r"      return *this;",
  chars! r"    }",
  chars! r"",
  chars! r"    {% for field in typedef.fields %}",
  chars! r"    {{ field.render_get_set(environment)|indent(4) }}",
  chars! r"",
  chars! r"    {% endfor %}",
  chars! r"    {% for oneof in typedef.oneofs %}",
  chars! r"    FieldNumber get_which_{{oneof.get_name()}}() const { return {{oneof.get_which_oneof()}}; }",
  chars! r"",
  chars! r"    {% for field in oneof.fields %}",
  chars! r"    {{ field.render_get_set(environment)|indent(4) }}",
  chars! r"",
  chars! r"    {% endfor %}",
  chars! r"    {% endfor %}",
  chars! r"",
  chars! r"    ::EmbeddedProto::Error serialize(::EmbeddedProto::WriteBufferInterface& buffer) const override",
  chars! r"    {"]

def typeDefMsg9 : List (List Char) := [
  chars! r"      ::EmbeddedProto::Error return_value = ::EmbeddedProto::Error::NO_ERRORS;",
  chars! r"",
  chars! r"      {% for field in typedef.fields %}",
  chars! r"      {{ field.render_serialize(environment)|indent(6) }}",
  chars! r"",
  chars! r"      {% endfor %}",
  chars! r"      {% for oneof in typedef.oneofs %}",
  chars! r"      switch({{oneof.get_which_oneof()}})",
  chars! r"      {",
  chars! r"        {% for field in oneof.get_fields() %}",
  chars! r"        case FieldNumber::{{field.variable_id_name}}:",
  chars! r"          {{ field.render_serialize(environment)|indent(10) }}",
  chars! r"          break;",
  chars! r"",
  chars! r"        {% endfor %}",
  chars! r"        default:",
  chars! r"          break;",
  chars! r"      }",
  chars! r"",
  chars! r"      {% endfor %}"]

def typeDefMsg10 : List (List Char) := [
  chars! r"      return return_value;",
  chars! r"    };",
  chars! r"",
  chars! r"    ::EmbeddedProto::Error deserialize(::EmbeddedProto::ReadBufferInterface& buffer) override",
  chars! r"    {",
  chars! r"      ::EmbeddedProto::Error return_value = ::EmbeddedProto::Error::NO_ERRORS;",
  chars! r"      ::EmbeddedProto::WireFormatter::WireType wire_type = ::EmbeddedProto::WireFormatter::WireType::VARINT;",
  chars! r"      uint32_t id_number = 0;",
  chars! r"      FieldNumber id_tag = FieldNumber::NOT_SET;",
  chars! r"",
  chars! r"      ::EmbeddedProto::Error tag_value = ::EmbeddedProto::WireFormatter::DeserializeTag(buffer, wire_type, id_number);",
  chars! r"      while((::EmbeddedProto::Error::NO_ERRORS == return_value) && (::EmbeddedProto::Error::NO_ERRORS == tag_value))",
  chars! r"      {",
  chars! r"        id_tag = static_cast<FieldNumber>(id_number);",
  chars! r"        switch(id_tag)",
  chars! r"        {",
  chars! r"          {% for field in typedef.fields %}",
  chars! r"          case FieldNumber::{{field.get_variable_id_name()}}:",
  chars! r"            {{ field.render_deserialize(environment)|indent(12) }}",
  chars! r"            break;"]

def typeDefMsg11 : List (List Char) := [
  chars! r"",
  chars! r"          {% endfor %}",
  chars! r"          {% for oneof in typedef.oneofs %}",
  chars! r"          {% for field in oneof.get_fields() %}",
  chars! r"          case FieldNumber::{{field.get_variable_id_name()}}:",
  chars! r"          {% endfor %}",
  chars! r"            return_value = deserialize_{{oneof.get_name()}}(id_tag, buffer, wire_type);",
  chars! r"            break;",
  chars! r"",
  chars! r"          {% endfor %}",
  chars! r"          case FieldNumber::NOT_SET:",
  chars! r"            return_value = ::EmbeddedProto::Error::INVALID_FIELD_ID;",
  chars! r"            break;",
  chars! r"",
  chars! r"          default:",
  chars! r"            return_value = skip_unknown_field(buffer, wire_type);",
  chars! r"            break;",
  chars! r"        }",
  chars! r"",
  chars! r"        if(::EmbeddedProto::Error::NO_ERRORS == return_value)"]

def typeDefMsg12 : List (List Char) := [
  chars! r"        {",
  chars! r"          // Read the next tag.",
  chars! r"          tag_value = ::EmbeddedProto::WireFormatter::DeserializeTag(buffer, wire_type, id_number);",
  chars! r"        }",
  chars! r"      }",
  chars! r"",
  chars! r"      // When an error was detect while reading the tag but no other errors where found, set it in the return value.",
  chars! r"      if((::EmbeddedProto::Error::NO_ERRORS == return_value)",
  chars! r"         && (::EmbeddedProto::Error::NO_ERRORS != tag_value)",
  chars! r"         && (::EmbeddedProto::Error::END_OF_BUFFER != tag_value)) // The end of the buffer is not an array in this case.",
  chars! r"      {",
  chars! r"        return_value = tag_value;",
  chars! r"      }",
  chars! r"",
  chars! r"      return return_value;",
  chars! r"    };",
  chars! r"",
  chars! r"    void clear() override",
  chars! r"    {",
  chars! r"      {% for field in typedef.fields %}"]

def typeDefMsg13 : List (List Char) := [
  chars! r"      clear_{{field.get_name()}}();",
  chars! r"      {% endfor %}",
  chars! r"      {% for oneof in typedef.oneofs %}",
  chars! r"      clear_{{oneof.get_name()}}();",
  chars! r"      {% endfor %}",
  chars! r"",
  chars! r"    }",
  chars! r"",
  chars! r"    static char const* field_number_to_name(const FieldNumber fieldNumber)",
  chars! r"    {",
  chars! r"      char const* name = nullptr;",
  chars! r"      switch(fieldNumber)",
  chars! r"      {",
  chars! r"        {% for field in typedef.fields %}",
  chars! r"        case FieldNumber::{{field.get_variable_id_name()}}:",
  chars! r"          name = {{field.get_name()|upper}}_NAME;",
  chars! r"          break;",
  chars! r"        {% endfor %}",
  chars! r"        {% for oneof in typedef.oneofs %}",
  chars! r"        {% for field in oneof.fields %}"]

def typeDefMsg14 : List (List Char) := [
  chars! r"        case FieldNumber::{{field.get_variable_id_name()}}:",
  chars! r"          name = {{field.get_name()|upper}}_NAME;",
  chars! r"          break;",
  chars! r"        {% endfor %}",
  chars! r"        {% endfor %}",
  chars! r"        default:",
  chars! r#"          name = "Invalid FieldNumber";"#,
  chars! r"          break;",
  chars! r"      }",
  chars! r"      return name;",
  chars! r"    }",
  chars! r"",
  chars! r"#ifdef MSG_TO_STRING",
  chars! r"",
  chars! r"    ::EmbeddedProto::string_view to_string(::EmbeddedProto::string_view& str) const",
  chars! r"    {",
  chars! r"      return this->to_string(str, 0, nullptr, true);",
  chars! r"    }",
  chars! r"",
  chars! r"    ::EmbeddedProto::string_view to_string(::EmbeddedProto::string_view& str, const uint32_t indent_level, char const* name, const bool first_field) const override"]

def typeDefMsg15 : List (List Char) := [
  chars! r"    {",
  chars! r"      ::EmbeddedProto::string_view left_chars = str;",
  chars! r"      int32_t n_chars_used = 0;",
  chars! r"",
  chars! r"      if(!first_field)",
  chars! r"      {",
  chars! r"        // Add a comma behind the previous field.",
  chars! r#"        n_chars_used = snprintf(left_chars.data, left_chars.size, ",\n");"#,
  chars! r"        if(0 < n_chars_used)",
  chars! r"        {",
  chars! r"          // Update the character pointer and characters left in the array.",
  chars! r"          left_chars.data += n_chars_used;",
  chars! r"          left_chars.size -= n_chars_used;",
  chars! r"        }",
  chars! r"      }",
  chars! r"",
  chars! r"      if(nullptr != name)",
  chars! r"      {",
  chars! r"        if( 0 == indent_level)",
  chars! r"        {"]

def typeDefMsg16 : List (List Char) := [
  chars! r#"          n_chars_used = snprintf(left_chars.data, left_chars.size, "\"%s\": {\n", name);"#,
  chars! r"        }",
  chars! r"        else",
  chars! r"        {",
  chars! r#"          n_chars_used = snprintf(left_chars.data, left_chars.size, "%*s\"%s\": {\n", indent_level, " ", name);"#,
  chars! r"        }",
  chars! r"      }",
  chars! r"      else",
  chars! r"      {",
  chars! r"        if( 0 == indent_level)",
  chars! r"        {",
  chars! r#"          n_chars_used = snprintf(left_chars.data, left_chars.size, "{\n");"#,
  chars! r"        }",
  chars! r"        else",
  chars! r"        {",
  chars! r#"          n_chars_used = snprintf(left_chars.data, left_chars.size, "%*s{\n", indent_level, " ");"#,
  chars! r"        }",
  chars! r"      }",
  chars! r"      ",
  chars! r"      if(0 < n_chars_used)"]

def typeDefMsg17 : List (List Char) := [
  chars! r"      {",
  chars! r"        left_chars.data += n_chars_used;",
  chars! r"        left_chars.size -= n_chars_used;",
  chars! r"      }",
  chars! r"",
  chars! r"      {% for field in typedef.fields %}",
  chars! r#"      {%if "FieldErrorRecursive" != field.descriptor.type_name %}{# Test if this is an FieldErrorRecursive #}"#,
  chars! r"      left_chars = {{field.get_variable_name()}}.to_string(left_chars, indent_level + 2, {{field.get_name()|upper}}_NAME, {{ loop.first|lower }});",
  chars! r"      {% endif %}",
  chars! r"      {% endfor %}",
  chars! r"      {% for oneof in typedef.oneofs %}",
  chars! r"      left_chars = to_string_{{oneof.get_name()}}(left_chars, indent_level + 2, {{((typedef.fields|length == 0) and loop.first)|lower }});",
  chars! r"      {% endfor %}  ",
  chars! r"      if( 0 == indent_level) ",
  chars! r"      {",
  chars! r#"        n_chars_used = snprintf(left_chars.data, left_chars.size, "\n}");"#,
  chars! r"      }",
  chars! r"      else ",
  chars! r"      {",
  chars! r#"        n_chars_used = snprintf(left_chars.data, left_chars.size, "\n%*s}", indent_level, " ");"#]

def typeDefMsg18 : List (List Char) := [
  chars! r"      }",
  chars! r"",
  chars! r"      if(0 < n_chars_used)",
  chars! r"      {",
  chars! r"        left_chars.data += n_chars_used;",
  chars! r"        left_chars.size -= n_chars_used;",
  chars! r"      }",
  chars! r"",
  chars! r"      return left_chars;",
  chars! r"    }",
  chars! r"",
  chars! r"#endif // End of MSG_TO_STRING",
  chars! r"",
  chars! r"  private:",
  chars! r"",
  chars! r"      {% if typedef.optional_fields is defined and typedef.optional_fields|length > 0 %}",
  chars! r"      // Define constants for tracking the presence of fields.",
  chars! r"      // Use a struct to scope the variables from user fields as namespaces are not allowed within classes.",
  chars! r"      struct presence",
  chars! r"      {"]

def typeDefMsg19 : List (List Char) := [
  chars! r"        // An enumeration with all the fields for which presence has to be tracked.",
  chars! r"        enum class fields : uint32_t",
  chars! r"        {",
  chars! r"          {% for field in typedef.optional_fields %}",
  chars! r#"          {{field.get_name().upper()}}{{ "," if not loop.last }}"#,
  chars! r"          {% endfor %}",
  chars! r"        };",
  chars! r"",
  chars! r"        // The number of fields for which presence has to be tracked.",
  chars! r"        static constexpr uint32_t N_FIELDS = {{typedef.optional_fields|length}};",
  chars! r"",
  chars! r"        // Which type are we using to track presence.",
  chars! r"        using TYPE = uint32_t;",
  chars! r"",
  chars! r"        // How many bits are there in the presence type.",
  chars! r"        static constexpr uint32_t N_BITS = std::numeric_limits<TYPE>::digits;",
  chars! r"",
  chars! r"        // How many variables of TYPE do we need to bit mask all presence fields.",
  chars! r"        static constexpr uint32_t SIZE = (N_FIELDS / N_BITS) + ((N_FIELDS % N_BITS) > 0 ? 1 : 0);",
  chars! r""]

def typeDefMsg20 : List (List Char) := [
  chars! r"        // Obtain the index of a given field in the presence array.",
  chars! r"        static constexpr uint32_t index(const fields& field) { return static_cast<uint32_t>(field) / N_BITS; }",
  chars! r"",
  chars! r"        // Obtain the bit mask for the given field assuming we are at the correct index in the presence array.",
  chars! r"        static constexpr TYPE mask(const fields& field)",
  chars! r"        {",
  chars! r"          return static_cast<uint32_t>(0x01) << (static_cast<uint32_t>(field) % N_BITS);",
  chars! r"        }",
  chars! r"      };",
  chars! r"",
  chars! r"      // Create an array in which the presence flags are stored.",
  chars! r"      typename presence::TYPE presence_[presence::SIZE] = {0};",
  chars! r"      {% endif %}",
  chars! r"",
  chars! r"      {% for field in typedef.fields %}",
  chars! r"      {% if field.get_default_value() %}",
  chars! r"      {{field.get_type()}} {{field.get_variable_name()}} = {{field.get_default_value()}};",
  chars! r"      {% else %}",
  chars! r"      {{field.get_type()}} {{field.get_variable_name()}};",
  chars! r"      {% endif %}"]

def typeDefMsg21 : List (List Char) := [
  chars! r"      {% endfor %}",
  chars! r"",
  chars! r"      {% for oneof in typedef.oneofs %}",
  chars! r"      FieldNumber {{oneof.get_which_oneof()}} = FieldNumber::NOT_SET;",
  chars! r"      union {{oneof.get_name()}}",
  chars! r"      {",
  chars! r"        {{oneof.get_name()}}() {}",
  chars! r"        ~{{oneof.get_name()}}() {}",
  chars! r"        {% for field in oneof.fields %}",
  chars! r"        {# Here we use the field name variable instead of the get_ function as the get function will add the oneof",
  chars! r"           name. This is the only place where this is required. #}",
  chars! r"        {{field.get_type()}} {{field.variable_name}};",
  chars! r"        {% endfor %}",
  chars! r"      };",
  chars! r"      {{oneof.get_name()}} {{oneof.get_variable_name()}};",
  chars! r"",
  chars! r"      {{ TypeOneof.init(oneof)|indent(6) }}",
  chars! r"      {{ TypeOneof.clear(oneof)|indent(6) }}",
  chars! r"      {{ TypeOneof.deserialize(oneof, environment)|indent(6) }}",
  chars! r"#ifdef MSG_TO_STRING "]

def typeDefMsg22 : List (List Char) := [
  chars! r"      {{ TypeOneof.to_string(oneof)|indent(6) }}",
  chars! r"#endif // End of MSG_TO_STRING",
  chars! r"      {% endfor %}",
  chars! r"};",
  chars! r""]

/-- generator/EmbeddedProto/templates/TypeDefMsg.h -/
def typeDefMsg : List (List Char) :=
  typeDefMsg1 ++ typeDefMsg2 ++ typeDefMsg3 ++ typeDefMsg4 ++ typeDefMsg5 ++ typeDefMsg6 ++ typeDefMsg7 ++ typeDefMsg8 ++ typeDefMsg9 ++ typeDefMsg10 ++ typeDefMsg11 ++ typeDefMsg12 ++ typeDefMsg13 ++ typeDefMsg14 ++ typeDefMsg15 ++ typeDefMsg16 ++ typeDefMsg17 ++ typeDefMsg18 ++ typeDefMsg19 ++ typeDefMsg20 ++ typeDefMsg21 ++ typeDefMsg22

def typeOneof1 : List (List Char) := [
  chars! r"{#",
  chars! r"Copyright (C) 2020-2024 Embedded AMS B.V. - All Rights Reserved",
  chars! r"",
  chars! r"This file is part of Embedded Proto.",
  chars! r"",
  chars! r"Embedded Proto is open source software: you can redistribute it and/or",
  chars! r"modify it under the terms of the GNU General Public License as published",
  chars! r"by the Free Software Foundation, version 3 of the license.",
  chars! r"",
  chars! r"Embedded Proto  is distributed in the hope that it will be useful,",
  chars! r"but WITHOUT ANY WARRANTY; without even the implied warranty of",
  chars! r"MERCHANTABILITY or FITNESS FOR A PARTICULAR PURPOSE. See the",
  chars! r"GNU General Public License for more details.",
  chars! r"",
  chars! r"You should have received a copy of the GNU General Public License",
  chars! r"along with Embedded Proto. If not, see <https://www.gnu.org/licenses/>.",
  chars! r"",
  chars! r"For commercial and closed source application please visit:",
  chars! r"<https://EmbeddedProto.com/license/>.",
  chars! r""]

def typeOneof2 : List (List Char) := [
  chars! r"Embedded AMS B.V.",
  chars! r"Info:",
  chars! r"  info at EmbeddedProto dot com",
  chars! r"",
  chars! r"Postal address:",
  chars! r"  Atoomweg 2",
  chars! r"  1627 LE, Hoorn",
  chars! r"  the Netherlands",
  chars! r"#}",
  chars! r"{% macro assign(_oneof) %}",
  chars! r"if(rhs.get_which_{{_oneof.get_name()}}() != {{_oneof.get_which_oneof()}})",
  chars! r"{",
  chars! r"  // First delete the old object in the oneof.",
  chars! r"  clear_{{_oneof.get_name()}}();",
  chars! r"}",
  chars! r"",
  chars! r"switch(rhs.get_which_{{_oneof.get_name()}}())",
  chars! r"{",
  chars! r"  {% for field in _oneof.get_fields() %}",
  chars! r"  case FieldNumber::{{field.get_variable_id_name()}}:"]

def typeOneof3 : List (List Char) := [
  chars! r"    set_{{field.get_name()}}(rhs.get_{{field.name}}());",
  chars! r"    break;",
  chars! r"",
  chars! r"  {% endfor %}",
  chars! r"  default:",
  chars! r"    break;",
  chars! r"}",
  chars! r"{% endmacro %}",
  chars! r"{# #}",
  chars! r"{# ------------------------------------------------------------------------------------------------------------------ #}",
  chars! r"{# #}",
  chars! r"{% macro init(_oneof) %}",
  chars! r"void init_{{_oneof.get_name()}}(const FieldNumber field_id)",
  chars! r"{",
  chars! r"  if(FieldNumber::NOT_SET != {{_oneof.get_which_oneof()}})",
  chars! r"  {",
  chars! r"    // First delete the old object in the oneof.",
  chars! r"    clear_{{_oneof.get_name()}}();",
  chars! r"  }",
  chars! r""]

def typeOneof4 : List (List Char) := [
  chars! r"  {% if _oneof.oneof_allocation_required() %}",
  chars! r"  // C++11 unions only support nontrivial members when you explicitly call the placement new statement.",
  chars! r"  switch(field_id)",
  chars! r"  {",
  chars! r"    {% for field in _oneof.get_fields() %}",
  chars! r"    {% if field.oneof_allocation_required() %}",
  chars! r"    case FieldNumber::{{field.get_variable_id_name()}}:",
  chars! r"      new(&{{field.get_variable_name()}}) {{field.get_type()}};",
  chars! r"      break;",
  chars! r"",
  chars! r"    {% endif %}",
  chars! r"    {% endfor %}",
  chars! r"    default:",
  chars! r"      break;",
  chars! r"   }",
  chars! r"",
  chars! r"   {% endif %}",
  chars! r"   {{_oneof.get_which_oneof()}} = field_id;",
  chars! r"}",
  chars! r"{% endmacro %}"]

def typeOneof5 : List (List Char) := [
  chars! r"{# #}",
  chars! r"{# ------------------------------------------------------------------------------------------------------------------ #}",
  chars! r"{# #}",
  chars! r"{% macro clear(_oneof) %}",
  chars! r"void clear_{{_oneof.get_name()}}()",
  chars! r"{",
  chars! r"  switch({{_oneof.get_which_oneof()}})",
  chars! r"  {",
  chars! r"    {% for field in _oneof.get_fields() %}",
  chars! r"    case FieldNumber::{{field.get_variable_id_name()}}:",
  chars! r"      {% if field.oneof_allocation_required() %}",
  chars! r"      ::EmbeddedProto::destroy_at(&{{field.get_variable_name()}});",
  chars! r"	    {% elif field.of_type_enum %}",
  chars! r"	    {{field.get_variable_name()}} = {{field.get_default_value()}};",
  chars! r"      {% else %}",
  chars! r"      {{field.get_variable_name()}}.set(0);",
  chars! r"      {% endif %}",
  chars! r"      break;",
  chars! r"    {% endfor %}",
  chars! r"    default:"]

def typeOneof6 : List (List Char) := [
  chars! r"      break;",
  chars! r"  }",
  chars! r"  {{_oneof.get_which_oneof()}} = FieldNumber::NOT_SET;",
  chars! r"}",
  chars! r"{% endmacro %}",
  chars! r"{# #}",
  chars! r"{# ------------------------------------------------------------------------------------------------------------------ #}",
  chars! r"{# #}",
  chars! r"{% macro deserialize(_oneof, _environment) %}",
  chars! r"::EmbeddedProto::Error deserialize_{{_oneof.get_name()}}(const FieldNumber field_id, ",
  chars! r"                              ::EmbeddedProto::ReadBufferInterface& buffer,",
  chars! r"                              const ::EmbeddedProto::WireFormatter::WireType wire_type)",
  chars! r"{",
  chars! r"  ::EmbeddedProto::Error return_value = ::EmbeddedProto::Error::NO_ERRORS;",
  chars! r"  ",
  chars! r"  if(field_id != {{_oneof.get_which_oneof()}})",
  chars! r"  {",
  chars! r"    init_{{_oneof.get_name()}}(field_id);",
  chars! r"  }",
  chars! r""]

def typeOneof7 : List (List Char) := [
  chars! r"  switch({{_oneof.get_which_oneof()}})",
  chars! r"  {",
  chars! r"    {% for field in _oneof.get_fields() %}",
  chars! r"    case FieldNumber::{{field.get_variable_id_name()}}:",
  chars! r"      {{ field.render_deserialize(_environment)|indent(6) }}",
  chars! r"      break;",
  chars! r"    {% endfor %}",
  chars! r"    default:",
  chars! r"      break;",
  chars! r"  }",
  chars! r"",
  chars! r"  if(::EmbeddedProto::Error::NO_ERRORS != return_value)",
  chars! r"  {",
  chars! r"    clear_{{_oneof.get_name()}}();",
  chars! r"  }",
  chars! r"  return return_value;",
  chars! r"}",
  chars! r"{% endmacro %}",
  chars! r"{# #}",
  chars! r"{# ------------------------------------------------------------------------------------------------------------------ #}"]

def typeOneof8 : List (List Char) := [
  chars! r"{# #}",
  chars! r"{% macro to_string(_oneof) %}",
  chars! r"::EmbeddedProto::string_view to_string_{{_oneof.get_name()}}(::EmbeddedProto::string_view& str, const uint32_t indent_level, const bool first_field) const",
  chars! r"{",
  chars! r"  ::EmbeddedProto::string_view left_chars = str;",
  chars! r"",
  chars! r"  switch({{_oneof.get_which_oneof()}})",
  chars! r"  {",
  chars! r"    {% for field in _oneof.get_fields() %}",
  chars! r"    case FieldNumber::{{field.get_variable_id_name()}}:",
  chars! r"      left_chars = {{field.get_variable_name()}}.to_string(left_chars, indent_level, {{field.get_name()|upper}}_NAME, first_field);",
  chars! r"      break;",
  chars! r"    {% endfor %}",
  chars! r"    default:",
  chars! r"      break;",
  chars! r"  }",
  chars! r"",
  chars! r"  return left_chars;",
  chars! r"}",
  chars! r"{% endmacro %}"]

/-- generator/EmbeddedProto/templates/TypeOneof.h -/
def typeOneof : List (List Char) :=
  typeOneof1 ++ typeOneof2 ++ typeOneof3 ++ typeOneof4 ++ typeOneof5 ++ typeOneof6 ++ typeOneof7 ++ typeOneof8

def typeDefEnum1 : List (List Char) := [
  chars! r"{#",
  chars! r"Copyright (C) 2020-2024 Embedded AMS B.V. - All Rights Reserved",
  chars! r"",
  chars! r"This file is part of Embedded Proto.",
  chars! r"",
  chars! r"Embedded Proto is open source software: you can redistribute it and/or",
  chars! r"modify it under the terms of the GNU General Public License as published",
  chars! r"by the Free Software Foundation, version 3 of the license.",
  chars! r"",
  chars! r"Embedded Proto  is distributed in the hope that it will be useful,",
  chars! r"but WITHOUT ANY WARRANTY; without even the implied warranty of",
  chars! r"MERCHANTABILITY or FITNESS FOR A PARTICULAR PURPOSE. See the",
  chars! r"GNU General Public License for more details.",
  chars! r"",
  chars! r"You should have received a copy of the GNU General Public License",
  chars! r"along with Embedded Proto. If not, see <https://www.gnu.org/licenses/>.",
  chars! r"",
  chars! r"For commercial and closed source application please visit:",
  chars! r"<https://EmbeddedProto.com/license/>.",
  chars! r""]

def typeDefEnum2 : List (List Char) := [
  chars! r"Embedded AMS B.V.",
  chars! r"Info:",
  chars! r"  info at EmbeddedProto dot com",
  chars! r"",
  chars! r"Postal address:",
  chars! r"  Atoomweg 2",
  chars! r"  1627 LE, Hoorn",
  chars! r"  the Netherlands",
  chars! r"#}",
  chars! r"enum class {{ typedef.name }} : uint32_t",
  chars! r"{",
  chars! r"  {% for value in typedef.values() %}",
  chars! r#"  {{ value.name }} = {{ value.number }}{{ "," if not loop.last }}"#,
  chars! r"  {% endfor %}",
  chars! r"};",
  chars! r""]

/-- generator/EmbeddedProto/templates/TypeDefEnum.h -/
def typeDefEnum : List (List Char) :=
  typeDefEnum1 ++ typeDefEnum2

def fieldBasicGetSet1 : List (List Char) := [
  chars! r"{#",
  chars! r"Copyright (C) 2020-2024 Embedded AMS B.V. - All Rights Reserved",
  chars! r"",
  chars! r"This file is part of Embedded Proto.",
  chars! r"",
  chars! r"Embedded Proto is open source software: you can redistribute it and/or",
  chars! r"modify it under the terms of the GNU General Public License as published",
  chars! r"by the Free Software Foundation, version 3 of the license.",
  chars! r"",
  chars! r"Embedded Proto  is distributed in the hope that it will be useful,",
  chars! r"but WITHOUT ANY WARRANTY; without even the implied warranty of",
  chars! r"MERCHANTABILITY or FITNESS FOR A PARTICULAR PURPOSE. See the",
  chars! r"GNU General Public License for more details.",
  chars! r"",
  chars! r"You should have received a copy of the GNU General Public License",
  chars! r"along with Embedded Proto. If not, see <https://www.gnu.org/licenses/>.",
  chars! r"",
  chars! r"For commercial and closed source application please visit:",
  chars! r"<https://EmbeddedProto.com/license/>.",
  chars! r""]

def fieldBasicGetSet2 : List (List Char) := [
  chars! r"Embedded AMS B.V.",
  chars! r"Info:",
  chars! r"  info at EmbeddedProto dot com",
  chars! r"",
  chars! r"Postal address:",
  chars! r"  Atoomweg 2",
  chars! r"  1627 LE, Hoorn",
  chars! r"  the Netherlands",
  chars! r"#}",
  chars! r#"static constexpr char const* {{field.get_name()|upper}}_NAME = "{{field.get_name()}}";"#,
  chars! r"{% if field.oneof is not none %}",
  chars! r"inline bool has_{{field.get_name()}}() const",
  chars! r"{",
  chars! r"  return FieldNumber::{{field.get_variable_id_name()}} == {{field.get_which_oneof()}};",
  chars! r"}",
  chars! r"inline void clear_{{field.get_name()}}()",
  chars! r"{",
  chars! r"  if(FieldNumber::{{field.get_variable_id_name()}} == {{field.get_which_oneof()}})",
  chars! r"  {",
  chars! r"    {{field.get_which_oneof()}} = FieldNumber::NOT_SET;"]

def fieldBasicGetSet3 : List (List Char) := [
  chars! r"    ::EmbeddedProto::destroy_at(&{{field.get_variable_name()}});",
  chars! r"  }",
  chars! r"}",
  chars! r"inline void set_{{field.get_name()}}(const {{field.get_cstdint_type()}}& value)",
  chars! r"{",
  chars! r"  if(FieldNumber::{{field.get_variable_id_name()}} != {{field.get_which_oneof()}})",
  chars! r"  {",
  chars! r"    init_{{field.get_oneof_name()}}(FieldNumber::{{field.get_variable_id_name()}});",
  chars! r"  }",
  chars! r"  {{field.get_variable_name()}} = value;",
  chars! r"}",
  chars! r"inline void set_{{field.get_name()}}(const {{field.get_cstdint_type()}}&& value)",
  chars! r"{",
  chars! r"  if(FieldNumber::{{field.get_variable_id_name()}} != {{field.get_which_oneof()}})",
  chars! r"  {",
  chars! r"    init_{{field.get_oneof_name()}}(FieldNumber::{{field.get_variable_id_name()}});",
  chars! r"  }",
  chars! r"  {{field.get_variable_name()}} = value;",
  chars! r"}",
  chars! r"{% elif field.optional %}"]

def fieldBasicGetSet4 : List (List Char) := [
  chars! r"inline bool has_{{field.get_name()}}() const",
  chars! r"{",
  chars! r"  return 0 != (presence::mask(presence::fields::{{field.get_name().upper()}}) & presence_[presence::index(presence::fields::{{field.get_name().upper()}})]);",
  chars! r"}",
  chars! r"inline void clear_{{field.get_name()}}()",
  chars! r"{",
  chars! r"  presence_[presence::index(presence::fields::{{field.get_name().upper()}})] &= ~(presence::mask(presence::fields::{{field.get_name().upper()}}));",
  chars! r"  {{field.get_variable_name()}}.clear();",
  chars! r"}",
  chars! r"inline void set_{{field.get_name()}}(const {{field.get_cstdint_type()}}& value)",
  chars! r"{",
  chars! r"  presence_[presence::index(presence::fields::{{field.get_name().upper()}})] |= presence::mask(presence::fields::{{field.get_name().upper()}});",
  chars! r"  {{field.get_variable_name()}} = value;",
  chars! r"}",
  chars! r"inline void set_{{field.get_name()}}(const {{field.get_cstdint_type()}}&& value)",
  chars! r"{",
  chars! r"  presence_[presence::index(presence::fields::{{field.get_name().upper()}})] |= presence::mask(presence::fields::{{field.get_name().upper()}});",
  chars! r"  {{field.get_variable_name()}} = value;",
  chars! r"}",
  chars! r"inline {{field.get_cstdint_type()}}& mutable_{{field.get_name()}}()"]

def fieldBasicGetSet5 : List (List Char) := [
  chars! r"{",
  chars! r"  presence_[presence::index(presence::fields::{{field.get_name().upper()}})] |= presence::mask(presence::fields::{{field.get_name().upper()}});",
  chars! r"  return {{field.get_variable_name()}}.get();",
  chars! r"}",
  chars! r"{% else %}",
  chars! r"inline void clear_{{field.get_name()}}() { {{field.get_variable_name()}}.clear(); }",
  chars! r"inline void set_{{field.get_name()}}(const {{field.get_cstdint_type()}}& value) { {{field.get_variable_name()}} = value; }",
  chars! r"inline void set_{{field.get_name()}}(const {{field.get_cstdint_type()}}&& value) { {{field.get_variable_name()}} = value; }",
  chars! r"inline {{field.get_cstdint_type()}}& mutable_{{field.get_name()}}() { return {{field.get_variable_name()}}.get(); }",
  chars! r"{% endif %}",
  chars! r"inline const {{field.get_cstdint_type()}}& get_{{field.get_name()}}() const { return {{field.get_variable_name()}}.get(); }",
  chars! r"inline {{field.get_cstdint_type()}} {{field.get_name()}}() const { return {{field.get_variable_name()}}.get(); }"]

/-- generator/EmbeddedProto/templates/FieldBasic_GetSet.h -/
def fieldBasicGetSet : List (List Char) :=
  fieldBasicGetSet1 ++ fieldBasicGetSet2 ++ fieldBasicGetSet3 ++ fieldBasicGetSet4 ++ fieldBasicGetSet5

def fieldBasicSerialize1 : List (List Char) := [
  chars! r"{#",
  chars! r"Copyright (C) 2020-2024 Embedded AMS B.V. - All Rights Reserved",
  chars! r"",
  chars! r"This file is part of Embedded Proto.",
  chars! r"",
  chars! r"Embedded Proto is open source software: you can redistribute it and/or",
  chars! r"modify it under the terms of the GNU General Public License as published",
  chars! r"by the Free Software Foundation, version 3 of the license.",
  chars! r"",
  chars! r"Embedded Proto  is distributed in the hope that it will be useful,",
  chars! r"but WITHOUT ANY WARRANTY; without even the implied warranty of",
  chars! r"MERCHANTABILITY or FITNESS FOR A PARTICULAR PURPOSE. See the",
  chars! r"GNU General Public License for more details.",
  chars! r"",
  chars! r"You should have received a copy of the GNU General Public License",
  chars! r"along with Embedded Proto. If not, see <https://www.gnu.org/licenses/>.",
  chars! r"",
  chars! r"For commercial and closed source application please visit:",
  chars! r"<https://EmbeddedProto.com/license/>.",
  chars! r""]

def fieldBasicSerialize2 : List (List Char) := [
  chars! r"Embedded AMS B.V.",
  chars! r"Info:",
  chars! r"  info at EmbeddedProto dot com",
  chars! r"",
  chars! r"Postal address:",
  chars! r"  Atoomweg 2",
  chars! r"  1627 LE, Hoorn",
  chars! r"  the Netherlands",
  chars! r"#}",
  chars! r"{% if (field.optional or (field.oneof is not none)) %}",
  chars! r"if(has_{{field.get_name()}}() && (::EmbeddedProto::Error::NO_ERRORS == return_value))",
  chars! r"{% else %}",
  chars! r"if(({{field.get_default_value()}} != {{field.get_variable_name()}}.get()) && (::EmbeddedProto::Error::NO_ERRORS == return_value))",
  chars! r"{% endif %}",
  chars! r"{",
  chars! r#"  return_value = {{field.get_variable_name()}}.serialize_with_id(static_cast<uint32_t>(FieldNumber::{{field.get_variable_id_name()}}), buffer, {{ "true" if (field.optional or (field.oneof is not none)) else "false" }});"#,
  chars! r"}",
  chars! r""]

/-- generator/EmbeddedProto/templates/FieldBasic_Serialize.h -/
def fieldBasicSerialize : List (List Char) :=
  fieldBasicSerialize1 ++ fieldBasicSerialize2

def fieldBasicDeserialize1 : List (List Char) := [
  chars! r"{#",
  chars! r"Copyright (C) 2020-2024 Embedded AMS B.V. - All Rights Reserved",
  chars! r"",
  chars! r"This file is part of Embedded Proto.",
  chars! r"",
  chars! r"Embedded Proto is open source software: you can redistribute it and/or",
  chars! r"modify it under the terms of the GNU General Public License as published",
  chars! r"by the Free Software Foundation, version 3 of the license.",
  chars! r"",
  chars! r"Embedded Proto  is distributed in the hope that it will be useful,",
  chars! r"but WITHOUT ANY WARRANTY; without even the implied warranty of",
  chars! r"MERCHANTABILITY or FITNESS FOR A PARTICULAR PURPOSE. See the",
  chars! r"GNU General Public License for more details.",
  chars! r"",
  chars! r"You should have received a copy of the GNU General Public License",
  chars! r"along with Embedded Proto. If not, see <https://www.gnu.org/licenses/>.",
  chars! r"",
  chars! r"For commercial and closed source application please visit:",
  chars! r"<https://EmbeddedProto.com/license/>.",
  chars! r""]

def fieldBasicDeserialize2 : List (List Char) := [
  chars! r"Embedded AMS B.V.",
  chars! r"Info:",
  chars! r"  info at EmbeddedProto dot com",
  chars! r"",
  chars! r"Postal address:",
  chars! r"  Atoomweg 2",
  chars! r"  1627 LE, Hoorn",
  chars! r"  the Netherlands",
  chars! r"#}",
  chars! r"{% if field.optional %}",
  chars! r"presence_[presence::index(presence::fields::{{field.get_name().upper()}})] |= presence::mask(presence::fields::{{field.get_name().upper()}});",
  chars! r"{% endif %}",
  chars! r"return_value = {{field.get_variable_name()}}.deserialize_check_type(buffer, wire_type);"]

/-- generator/EmbeddedProto/templates/FieldBasic_Deserialize.h -/
def fieldBasicDeserialize : List (List Char) :=
  fieldBasicDeserialize1 ++ fieldBasicDeserialize2

def fieldEnumGetSet1 : List (List Char) := [
  chars! r"{#",
  chars! r"Copyright (C) 2020-2024 Embedded AMS B.V. - All Rights Reserved",
  chars! r"",
  chars! r"This file is part of Embedded Proto.",
  chars! r"",
  chars! r"Embedded Proto is open source software: you can redistribute it and/or",
  chars! r"modify it under the terms of the GNU General Public License as published",
  chars! r"by the Free Software Foundation, version 3 of the license.",
  chars! r"",
  chars! r"Embedded Proto  is distributed in the hope that it will be useful,",
  chars! r"but WITHOUT ANY WARRANTY; without even the implied warranty of",
  chars! r"MERCHANTABILITY or FITNESS FOR A PARTICULAR PURPOSE. See the",
  chars! r"GNU General Public License for more details.",
  chars! r"",
  chars! r"You should have received a copy of the GNU General Public License",
  chars! r"along with Embedded Proto. If not, see <https://www.gnu.org/licenses/>.",
  chars! r"",
  chars! r"For commercial and closed source application please visit:",
  chars! r"<https://EmbeddedProto.com/license/>.",
  chars! r""]

def fieldEnumGetSet2 : List (List Char) := [
  chars! r"Embedded AMS B.V.",
  chars! r"Info:",
  chars! r"  info at EmbeddedProto dot com",
  chars! r"",
  chars! r"Postal address:",
  chars! r"  Atoomweg 2",
  chars! r"  1627 LE, Hoorn",
  chars! r"  the Netherlands",
  chars! r"#}",
  chars! r#"static constexpr char const* {{field.get_name()|upper}}_NAME = "{{field.get_name()}}";"#,
  chars! r"{% if field.oneof is not none %}",
  chars! r"inline bool has_{{field.get_name()}}() const",
  chars! r"{",
  chars! r"  return FieldNumber::{{field.get_variable_id_name()}} == {{field.get_which_oneof()}};",
  chars! r"}",
  chars! r"inline void clear_{{field.get_name()}}()",
  chars! r"{",
  chars! r"  if(FieldNumber::{{field.get_variable_id_name()}} == {{field.get_which_oneof()}})",
  chars! r"  {",
  chars! r"    {{field.get_which_oneof()}} = FieldNumber::NOT_SET;"]

def fieldEnumGetSet3 : List (List Char) := [
  chars! r"    {{field.get_variable_name()}}.clear();",
  chars! r"  }",
  chars! r"}",
  chars! r"inline void set_{{field.get_name()}}(const {{field.get_type_as_defined()}}& value)",
  chars! r"{",
  chars! r"  if(FieldNumber::{{field.get_variable_id_name()}} != {{field.get_which_oneof()}})",
  chars! r"  {",
  chars! r"    init_{{field.get_oneof_name()}}(FieldNumber::{{field.get_variable_id_name()}});",
  chars! r"  }",
  chars! r"  {{field.get_variable_name()}} = value;",
  chars! r"}",
  chars! r"inline void set_{{field.get_name()}}(const {{field.get_type_as_defined()}}&& value)",
  chars! r"{",
  chars! r"  if(FieldNumber::{{field.get_variable_id_name()}} != {{field.get_which_oneof()}})",
  chars! r"  {",
  chars! r"    init_{{field.get_oneof_name()}}(FieldNumber::{{field.get_variable_id_name()}});",
  chars! r"  }",
  chars! r"  {{field.get_variable_name()}} = value;",
  chars! r"}",
  chars! r"{% elif field.optional %}"]

def fieldEnumGetSet4 : List (List Char) := [
  chars! r"inline bool has_{{field.get_name()}}() const",
  chars! r"{",
  chars! r"  return 0 != (presence::mask(presence::fields::{{field.get_name().upper()}}) & presence_[presence::index(presence::fields::{{field.get_name().upper()}})]);",
  chars! r"}",
  chars! r"inline void clear_{{field.get_name()}}()",
  chars! r"{",
  chars! r"  presence_[presence::index(presence::fields::{{field.get_name().upper()}})] &= ~(presence::mask(presence::fields::{{field.get_name().upper()}}));",
  chars! r"  {{field.get_variable_name()}}.clear();",
  chars! r"}",
  chars! r"inline void set_{{field.get_name()}}(const {{field.get_type_as_defined()}}& value)",
  chars! r"{",
  chars! r"  presence_[presence::index(presence::fields::{{field.get_name().upper()}})] |= presence::mask(presence::fields::{{field.get_name().upper()}});",
  chars! r"  {{field.get_variable_name()}} = value;",
  chars! r"}",
  chars! r"inline void set_{{field.get_name()}}(const {{field.get_type_as_defined()}}&& value)",
  chars! r"{",
  chars! r"  presence_[presence::index(presence::fields::{{field.get_name().upper()}})] |= presence::mask(presence::fields::{{field.get_name().upper()}});",
  chars! r"  {{field.get_variable_name()}} = value;",
  chars! r"}",
  chars! r"{% else %}"]

def fieldEnumGetSet5 : List (List Char) := [
  chars! r"inline void clear_{{field.get_name()}}() { {{field.get_variable_name()}}.clear(); }",
  chars! r"inline void set_{{field.get_name()}}(const {{field.get_type_as_defined()}}& value) { {{field.get_variable_name()}} = value; }",
  chars! r"inline void set_{{field.get_name()}}(const {{field.get_type_as_defined()}}&& value) { {{field.get_variable_name()}} = value; }",
  chars! r"{% endif %}",
  chars! r"inline const {{field.get_type_as_defined()}}& get_{{field.get_name()}}() const { return {{field.get_variable_name()}}.get(); }",
  chars! r"inline {{field.get_type_as_defined()}} {{field.get_name()}}() const { return {{field.get_variable_name()}}.get(); }"]

/-- generator/EmbeddedProto/templates/FieldEnum_GetSet.h -/
def fieldEnumGetSet : List (List Char) :=
  fieldEnumGetSet1 ++ fieldEnumGetSet2 ++ fieldEnumGetSet3 ++ fieldEnumGetSet4 ++ fieldEnumGetSet5

def fieldEnumSerialize1 : List (List Char) := [
  chars! r"{#",
  chars! r"Copyright (C) 2020-2024 Embedded AMS B.V. - All Rights Reserved",
  chars! r"",
  chars! r"This file is part of Embedded Proto.",
  chars! r"",
  chars! r"Embedded Proto is open source software: you can redistribute it and/or",
  chars! r"modify it under the terms of the GNU General Public License as published",
  chars! r"by the Free Software Foundation, version 3 of the license.",
  chars! r"",
  chars! r"Embedded Proto  is distributed in the hope that it will be useful,",
  chars! r"but WITHOUT ANY WARRANTY; without even the implied warranty of",
  chars! r"MERCHANTABILITY or FITNESS FOR A PARTICULAR PURPOSE. See the",
  chars! r"GNU General Public License for more details.",
  chars! r"",
  chars! r"You should have received a copy of the GNU General Public License",
  chars! r"along with Embedded Proto. If not, see <https://www.gnu.org/licenses/>.",
  chars! r"",
  chars! r"For commercial and closed source application please visit:",
  chars! r"<https://EmbeddedProto.com/license/>.",
  chars! r""]

def fieldEnumSerialize2 : List (List Char) := [
  chars! r"Embedded AMS B.V.",
  chars! r"Info:",
  chars! r"  info at EmbeddedProto dot com",
  chars! r"",
  chars! r"Postal address:",
  chars! r"  Atoomweg 2",
  chars! r"  1627 LE, Hoorn",
  chars! r"  the Netherlands",
  chars! r"#}",
  chars! r"{% if (field.optional or (field.oneof is not none)) %}",
  chars! r"if(has_{{field.get_name()}}() && (::EmbeddedProto::Error::NO_ERRORS == return_value))",
  chars! r"{% else %}",
  chars! r"if(({{field.get_default_value()}} != {{field.get_variable_name()}}.get()) && (::EmbeddedProto::Error::NO_ERRORS == return_value))",
  chars! r"{% endif %}",
  chars! r"{",
  chars! r#"  return_value = {{field.get_variable_name()}}.serialize_with_id(static_cast<uint32_t>(FieldNumber::{{field.get_variable_id_name()}}), buffer, {{ "true" if (field.optional or (field.oneof is not none)) else "false" }});"#,
  chars! r"}"]

/-- generator/EmbeddedProto/templates/FieldEnum_Serialize.h -/
def fieldEnumSerialize : List (List Char) :=
  fieldEnumSerialize1 ++ fieldEnumSerialize2

def fieldEnumDeserialize1 : List (List Char) := [
  chars! r"{#",
  chars! r"Copyright (C) 2020-2024 Embedded AMS B.V. - All Rights Reserved",
  chars! r"",
  chars! r"This file is part of Embedded Proto.",
  chars! r"",
  chars! r"Embedded Proto is open source software: you can redistribute it and/or",
  chars! r"modify it under the terms of the GNU General Public License as published",
  chars! r"by the Free Software Foundation, version 3 of the license.",
  chars! r"",
  chars! r"Embedded Proto  is distributed in the hope that it will be useful,",
  chars! r"but WITHOUT ANY WARRANTY; without even the implied warranty of",
  chars! r"MERCHANTABILITY or FITNESS FOR A PARTICULAR PURPOSE. See the",
  chars! r"GNU General Public License for more details.",
  chars! r"",
  chars! r"You should have received a copy of the GNU General Public License",
  chars! r"along with Embedded Proto. If not, see <https://www.gnu.org/licenses/>.",
  chars! r"",
  chars! r"For commercial and closed source application please visit:",
  chars! r"<https://EmbeddedProto.com/license/>.",
  chars! r""]

def fieldEnumDeserialize2 : List (List Char) := [
  chars! r"Embedded AMS B.V.",
  chars! r"Info:",
  chars! r"  info at EmbeddedProto dot com",
  chars! r"",
  chars! r"Postal address:",
  chars! r"  Atoomweg 2",
  chars! r"  1627 LE, Hoorn",
  chars! r"  the Netherlands",
  chars! r"#}",
  chars! r"{% if field.optional %}",
  chars! r"presence_[presence::index(presence::fields::{{field.get_name().upper()}})] |= presence::mask(presence::fields::{{field.get_name().upper()}});",
  chars! r"{% endif %}",
  chars! r"return_value = {{field.get_variable_name()}}.deserialize_check_type(buffer, wire_type);"]

/-- generator/EmbeddedProto/templates/FieldEnum_Deserialize.h -/
def fieldEnumDeserialize : List (List Char) :=
  fieldEnumDeserialize1 ++ fieldEnumDeserialize2

def fieldMsgGetSet1 : List (List Char) := [
  chars! r"{#",
  chars! r"Copyright (C) 2020-2024 Embedded AMS B.V. - All Rights Reserved",
  chars! r"",
  chars! r"This file is part of Embedded Proto.",
  chars! r"",
  chars! r"Embedded Proto is open source software: you can redistribute it and/or",
  chars! r"modify it under the terms of the GNU General Public License as published",
  chars! r"by the Free Software Foundation, version 3 of the license.",
  chars! r"",
  chars! r"Embedded Proto  is distributed in the hope that it will be useful,",
  chars! r"but WITHOUT ANY WARRANTY; without even the implied warranty of",
  chars! r"MERCHANTABILITY or FITNESS FOR A PARTICULAR PURPOSE. See the",
  chars! r"GNU General Public License for more details.",
  chars! r"",
  chars! r"You should have received a copy of the GNU General Public License",
  chars! r"along with Embedded Proto. If not, see <https://www.gnu.org/licenses/>.",
  chars! r"",
  chars! r"For commercial and closed source application please visit:",
  chars! r"<https://EmbeddedProto.com/license/>.",
  chars! r""]

def fieldMsgGetSet2 : List (List Char) := [
  chars! r"Embedded AMS B.V.",
  chars! r"Info:",
  chars! r"  info at EmbeddedProto dot com",
  chars! r"",
  chars! r"Postal address:",
  chars! r"  Atoomweg 2",
  chars! r"  1627 LE, Hoorn",
  chars! r"  the Netherlands",
  chars! r"#}",
  chars! r#"static constexpr char const* {{field.get_name()|upper}}_NAME = "{{field.get_name()}}";"#,
  chars! r"{% if field.oneof is not none %}",
  chars! r"inline bool has_{{field.get_name()}}() const",
  chars! r"{",
  chars! r"  return FieldNumber::{{field.get_variable_id_name()}} == {{field.get_which_oneof()}};",
  chars! r"}",
  chars! r"inline void clear_{{field.get_name()}}()",
  chars! r"{",
  chars! r"  if(FieldNumber::{{field.get_variable_id_name()}} == {{field.get_which_oneof()}})",
  chars! r"  {",
  chars! r"    {{field.get_which_oneof()}} = FieldNumber::NOT_SET;"]

def fieldMsgGetSet3 : List (List Char) := [
  chars! r"    {{field.get_variable_name()}}.~{{field.get_short_type()}}();",
  chars! r"  }",
  chars! r"}",
  chars! r"inline void set_{{field.get_name()}}(const {{field.get_type()}}& value)",
  chars! r"{",
  chars! r"  if(FieldNumber::{{field.get_variable_id_name()}} != {{field.get_which_oneof()}})",
  chars! r"  {",
  chars! r"    init_{{field.get_oneof_name()}}(FieldNumber::{{field.get_variable_id_name()}});",
  chars! r"  }",
  chars! r"  {{field.get_variable_name()}} = value;",
  chars! r"}",
  chars! r"inline void set_{{field.get_name()}}(const {{field.get_type()}}&& value)",
  chars! r"{",
  chars! r"  if(FieldNumber::{{field.get_variable_id_name()}} != {{field.get_which_oneof()}})",
  chars! r"  {",
  chars! r"    init_{{field.get_oneof_name()}}(FieldNumber::{{field.get_variable_id_name()}});",
  chars! r"  }",
  chars! r"  {{field.get_variable_name()}} = value;",
  chars! r"}",
  chars! r"inline {{field.get_type()}}& mutable_{{field.get_name()}}()"]

def fieldMsgGetSet4 : List (List Char) := [
  chars! r"{",
  chars! r"  if(FieldNumber::{{field.get_variable_id_name()}} != {{field.get_which_oneof()}})",
  chars! r"  {",
  chars! r"    init_{{field.get_oneof_name()}}(FieldNumber::{{field.get_variable_id_name()}});",
  chars! r"  }",
  chars! r"  return {{field.get_variable_name()}};",
  chars! r"}",
  chars! r"{% elif field.optional %}",
  chars! r"inline bool has_{{field.get_name()}}() const",
  chars! r"{",
  chars! r"  return 0 != (presence::mask(presence::fields::{{field.get_name().upper()}}) & presence_[presence::index(presence::fields::{{field.get_name().upper()}})]);",
  chars! r"}",
  chars! r"inline void clear_{{field.get_name()}}()",
  chars! r"{",
  chars! r"  presence_[presence::index(presence::fields::{{field.get_name().upper()}})] &= ~(presence::mask(presence::fields::{{field.get_name().upper()}}));",
  chars! r"  {{field.get_variable_name()}}.clear();",
  chars! r"}",
  chars! r"inline void set_{{field.get_name()}}(const {{field.get_type()}}& value)",
  chars! r"{",
  chars! r"  presence_[presence::index(presence::fields::{{field.get_name().upper()}})] |= presence::mask(presence::fields::{{field.get_name().upper()}});"]

def fieldMsgGetSet5 : List (List Char) := [
  chars! r"  {{field.get_variable_name()}} = value;",
  chars! r"}",
  chars! r"inline void set_{{field.get_name()}}(const {{field.get_type()}}&& value)",
  chars! r"{",
  chars! r"  presence_[presence::index(presence::fields::{{field.get_name().upper()}})] |= presence::mask(presence::fields::{{field.get_name().upper()}});",
  chars! r"  {{field.get_variable_name()}} = value;",
  chars! r"}",
  chars! r"inline {{field.get_type()}}& mutable_{{field.get_name()}}()",
  chars! r"{",
  chars! r"  presence_[presence::index(presence::fields::{{field.get_name().upper()}})] |= presence::mask(presence::fields::{{field.get_name().upper()}});",
  chars! r"  return {{field.get_variable_name()}};",
  chars! r"}",
  chars! r"{% else %}",
  chars! r"inline void clear_{{field.get_name()}}() { {{field.get_variable_name()}}.clear(); }",
  chars! r"inline void set_{{field.get_name()}}(const {{field.get_type()}}& value) { {{field.get_variable_name()}} = value; }",
  chars! r"inline void set_{{field.get_name()}}(const {{field.get_type()}}&& value) { {{field.get_variable_name()}} = value; }",
  chars! r"inline {{field.get_type()}}& mutable_{{field.get_name()}}() { return {{field.get_variable_name()}}; }",
  chars! r"{% endif %}",
  chars! r"inline const {{field.get_type()}}& get_{{field.get_name()}}() const { return {{field.get_variable_name()}}; }",
  chars! r"inline const {{field.get_type()}}& {{field.get_name()}}() const { return {{field.get_variable_name()}}; }"]

def fieldMsgGetSet6 : List (List Char) := [
  chars! r""]

/-- generator/EmbeddedProto/templates/FieldMsg_GetSet.h -/
def fieldMsgGetSet : List (List Char) :=
  fieldMsgGetSet1 ++ fieldMsgGetSet2 ++ fieldMsgGetSet3 ++ fieldMsgGetSet4 ++ fieldMsgGetSet5 ++ fieldMsgGetSet6

def fieldMsgSerialize1 : List (List Char) := [
  chars! r"{#",
  chars! r"Copyright (C) 2020-2024 Embedded AMS B.V. - All Rights Reserved",
  chars! r"",
  chars! r"This file is part of Embedded Proto.",
  chars! r"",
  chars! r"Embedded Proto is open source software: you can redistribute it and/or",
  chars! r"modify it under the terms of the GNU General Public License as published",
  chars! r"by the Free Software Foundation, version 3 of the license.",
  chars! r"",
  chars! r"Embedded Proto  is distributed in the hope that it will be useful,",
  chars! r"but WITHOUT ANY WARRANTY; without even the implied warranty of",
  chars! r"MERCHANTABILITY or FITNESS FOR A PARTICULAR PURPOSE. See the",
  chars! r"GNU General Public License for more details.",
  chars! r"",
  chars! r"You should have received a copy of the GNU General Public License",
  chars! r"along with Embedded Proto. If not, see <https://www.gnu.org/licenses/>.",
  chars! r"",
  chars! r"For commercial and closed source application please visit:",
  chars! r"<https://EmbeddedProto.com/license/>.",
  chars! r""]

def fieldMsgSerialize2 : List (List Char) := [
  chars! r"Embedded AMS B.V.",
  chars! r"Info:",
  chars! r"  info at EmbeddedProto dot com",
  chars! r"",
  chars! r"Postal address:",
  chars! r"  Atoomweg 2",
  chars! r"  1627 LE, Hoorn",
  chars! r"  the Netherlands",
  chars! r"#}",
  chars! r"{% if (field.optional or (field.oneof is not none)) %}",
  chars! r"if(has_{{field.get_name()}}() && (::EmbeddedProto::Error::NO_ERRORS == return_value))",
  chars! r"{% else %}",
  chars! r"if(::EmbeddedProto::Error::NO_ERRORS == return_value)",
  chars! r"{% endif %}",
  chars! r"{",
  chars! r#"  return_value = {{field.get_variable_name()}}.serialize_with_id(static_cast<uint32_t>(FieldNumber::{{field.get_variable_id_name()}}), buffer, {{ "true" if (field.optional or (field.oneof is not none)) else "false" }});"#,
  chars! r"}"]

/-- generator/EmbeddedProto/templates/FieldMsg_Serialize.h -/
def fieldMsgSerialize : List (List Char) :=
  fieldMsgSerialize1 ++ fieldMsgSerialize2

def fieldMsgDeserialize1 : List (List Char) := [
  chars! r"{#",
  chars! r"Copyright (C) 2020-2024 Embedded AMS B.V. - All Rights Reserved",
  chars! r"",
  chars! r"This file is part of Embedded Proto.",
  chars! r"",
  chars! r"Embedded Proto is open source software: you can redistribute it and/or",
  chars! r"modify it under the terms of the GNU General Public License as published",
  chars! r"by the Free Software Foundation, version 3 of the license.",
  chars! r"",
  chars! r"Embedded Proto  is distributed in the hope that it will be useful,",
  chars! r"but WITHOUT ANY WARRANTY; without even the implied warranty of",
  chars! r"MERCHANTABILITY or FITNESS FOR A PARTICULAR PURPOSE. See the",
  chars! r"GNU General Public License for more details.",
  chars! r"",
  chars! r"You should have received a copy of the GNU General Public License",
  chars! r"along with Embedded Proto. If not, see <https://www.gnu.org/licenses/>.",
  chars! r"",
  chars! r"For commercial and closed source application please visit:",
  chars! r"<https://EmbeddedProto.com/license/>.",
  chars! r""]

def fieldMsgDeserialize2 : List (List Char) := [
  chars! r"Embedded AMS B.V.",
  chars! r"Info:",
  chars! r"  info at EmbeddedProto dot com",
  chars! r"",
  chars! r"Postal address:",
  chars! r"  Atoomweg 2",
  chars! r"  1627 LE, Hoorn",
  chars! r"  the Netherlands",
  chars! r"#}",
  chars! r"{% if field.optional %}",
  chars! r"presence_[presence::index(presence::fields::{{field.get_name().upper()}})] |= presence::mask(presence::fields::{{field.get_name().upper()}});",
  chars! r"{% endif %}",
  chars! r"return_value = {{field.get_variable_name()}}.deserialize_check_type(buffer, wire_type);"]

/-- generator/EmbeddedProto/templates/FieldMsg_Deserialize.h -/
def fieldMsgDeserialize : List (List Char) :=
  fieldMsgDeserialize1 ++ fieldMsgDeserialize2

def fieldStringGetSet1 : List (List Char) := [
  chars! r"{#",
  chars! r"Copyright (C) 2020-2024 Embedded AMS B.V. - All Rights Reserved",
  chars! r"",
  chars! r"This file is part of Embedded Proto.",
  chars! r"",
  chars! r"Embedded Proto is open source software: you can redistribute it and/or",
  chars! r"modify it under the terms of the GNU General Public License as published",
  chars! r"by the Free Software Foundation, version 3 of the license.",
  chars! r"",
  chars! r"Embedded Proto  is distributed in the hope that it will be useful,",
  chars! r"but WITHOUT ANY WARRANTY; without even the implied warranty of",
  chars! r"MERCHANTABILITY or FITNESS FOR A PARTICULAR PURPOSE. See the",
  chars! r"GNU General Public License for more details.",
  chars! r"",
  chars! r"You should have received a copy of the GNU General Public License",
  chars! r"along with Embedded Proto. If not, see <https://www.gnu.org/licenses/>.",
  chars! r"",
  chars! r"For commercial and closed source application please visit:",
  chars! r"<https://EmbeddedProto.com/license/>.",
  chars! r""]

def fieldStringGetSet2 : List (List Char) := [
  chars! r"Embedded AMS B.V.",
  chars! r"Info:",
  chars! r"  info at EmbeddedProto dot com",
  chars! r"",
  chars! r"Postal address:",
  chars! r"  Atoomweg 2",
  chars! r"  1627 LE, Hoorn",
  chars! r"  the Netherlands",
  chars! r"#}",
  chars! r#"static constexpr char const* {{field.get_name()|upper}}_NAME = "{{field.get_name()}}";"#,
  chars! r"{% if field.oneof is not none %}",
  chars! r"inline bool has_{{field.get_name()}}() const",
  chars! r"{",
  chars! r"  return FieldNumber::{{field.get_variable_id_name()}} == {{field.get_which_oneof()}};",
  chars! r"}",
  chars! r"inline void clear_{{field.get_name()}}()",
  chars! r"{",
  chars! r"  if(FieldNumber::{{field.get_variable_id_name()}} == {{field.get_which_oneof()}})",
  chars! r"  {",
  chars! r"    {{field.get_which_oneof()}} = FieldNumber::NOT_SET;"]

def fieldStringGetSet3 : List (List Char) := [
  chars! r"    {{field.get_variable_name()}}.~{{field.get_short_type()}}();",
  chars! r"  }",
  chars! r"}",
  chars! r"inline {{field.get_type()}}& mutable_{{field.get_name()}}()",
  chars! r"{",
  chars! r"  if(FieldNumber::{{field.get_variable_id_name()}} != {{field.get_which_oneof()}})",
  chars! r"  {",
  chars! r"    init_{{field.get_oneof_name()}}(FieldNumber::{{field.get_variable_id_name()}});",
  chars! r"  }",
  chars! r"  return {{field.get_variable_name()}};",
  chars! r"}",
  chars! r"inline void set_{{field.get_name()}}(const {{field.get_type()}}& rhs)",
  chars! r"{",
  chars! r"  if(FieldNumber::{{field.get_variable_id_name()}} != {{field.get_which_oneof()}})",
  chars! r"  {",
  chars! r"    init_{{field.get_oneof_name()}}(FieldNumber::{{field.get_variable_id_name()}});",
  chars! r"  }",
  chars! r"  {{field.get_variable_name()}}.set(rhs);",
  chars! r"}",
  chars! r"{% elif field.optional %}"]

def fieldStringGetSet4 : List (List Char) := [
  chars! r"inline bool has_{{field.get_name()}}() const",
  chars! r"{",
  chars! r"  return 0 != (presence::mask(presence::fields::{{field.get_name().upper()}}) & presence_[presence::index(presence::fields::{{field.get_name().upper()}})]);",
  chars! r"}",
  chars! r"inline void clear_{{field.get_name()}}()",
  chars! r"{",
  chars! r"  presence_[presence::index(presence::fields::{{field.get_name().upper()}})] &= ~(presence::mask(presence::fields::{{field.get_name().upper()}}));",
  chars! r"  {{field.get_variable_name()}}.clear();",
  chars! r"}",
  chars! r"inline {{field.get_type()}}& mutable_{{field.get_name()}}()",
  chars! r"{",
  chars! r"  presence_[presence::index(presence::fields::{{field.get_name().upper()}})] |= presence::mask(presence::fields::{{field.get_name().upper()}});",
  chars! r"  return {{field.get_variable_name()}};",
  chars! r"}",
  chars! r"inline void set_{{field.get_name()}}(const {{field.get_type()}}& rhs)",
  chars! r"{",
  chars! r"  presence_[presence::index(presence::fields::{{field.get_name().upper()}})] |= presence::mask(presence::fields::{{field.get_name().upper()}});",
  chars! r"  {{field.get_variable_name()}}.set(rhs);",
  chars! r"}",
  chars! r"{% else %}"]

def fieldStringGetSet5 : List (List Char) := [
  chars! r"inline void clear_{{field.get_name()}}() { {{field.get_variable_name()}}.clear(); }",
  chars! r"inline {{field.get_type()}}& mutable_{{field.get_name()}}() { return {{field.get_variable_name()}}; }",
  chars! r"inline void set_{{field.get_name()}}(const {{field.get_type()}}& rhs) { {{field.get_variable_name()}}.set(rhs); }",
  chars! r"{% endif %}",
  chars! r"inline const {{field.get_type()}}& get_{{field.get_name()}}() const { return {{field.get_variable_name()}}; }",
  chars! r"inline const char* {{field.get_name()}}() const { return {{field.get_variable_name()}}.get_const(); }"]

/-- generator/EmbeddedProto/templates/FieldString_GetSet.h -/
def fieldStringGetSet : List (List Char) :=
  fieldStringGetSet1 ++ fieldStringGetSet2 ++ fieldStringGetSet3 ++ fieldStringGetSet4 ++ fieldStringGetSet5

def fieldBytesGetSet1 : List (List Char) := [
  chars! r"{#",
  chars! r"Copyright (C) 2020-2024 Embedded AMS B.V. - All Rights Reserved",
  chars! r"",
  chars! r"This file is part of Embedded Proto.",
  chars! r"",
  chars! r"Embedded Proto is open source software: you can redistribute it and/or",
  chars! r"modify it under the terms of the GNU General Public License as published",
  chars! r"by the Free Software Foundation, version 3 of the license.",
  chars! r"",
  chars! r"Embedded Proto  is distributed in the hope that it will be useful,",
  chars! r"but WITHOUT ANY WARRANTY; without even the implied warranty of",
  chars! r"MERCHANTABILITY or FITNESS FOR A PARTICULAR PURPOSE. See the",
  chars! r"GNU General Public License for more details.",
  chars! r"",
  chars! r"You should have received a copy of the GNU General Public License",
  chars! r"along with Embedded Proto. If not, see <https://www.gnu.org/licenses/>.",
  chars! r"",
  chars! r"For commercial and closed source application please visit:",
  chars! r"<https://EmbeddedProto.com/license/>.",
  chars! r""]

def fieldBytesGetSet2 : List (List Char) := [
  chars! r"Embedded AMS B.V.",
  chars! r"Info:",
  chars! r"  info at EmbeddedProto dot com",
  chars! r"",
  chars! r"Postal address:",
  chars! r"  Atoomweg 2",
  chars! r"  1627 LE, Hoorn",
  chars! r"  the Netherlands",
  chars! r"#}",
  chars! r#"static constexpr char const* {{field.get_name()|upper}}_NAME = "{{field.get_name()}}";"#,
  chars! r"{% if field.oneof is not none %}",
  chars! r"inline bool has_{{field.get_name()}}() const",
  chars! r"{",
  chars! r"  return FieldNumber::{{field.get_variable_id_name()}} == {{field.get_which_oneof()}};",
  chars! r"}",
  chars! r"inline void clear_{{field.get_name()}}()",
  chars! r"{",
  chars! r"  if(FieldNumber::{{field.get_variable_id_name()}} == {{field.get_which_oneof()}})",
  chars! r"  {",
  chars! r"    {{field.get_which_oneof()}} = FieldNumber::NOT_SET;"]

def fieldBytesGetSet3 : List (List Char) := [
  chars! r"    {{field.get_variable_name()}}.~{{field.get_short_type()}}();",
  chars! r"  }",
  chars! r"}",
  chars! r"inline {{field.get_type()}}& mutable_{{field.get_name()}}()",
  chars! r"{",
  chars! r"  if(FieldNumber::{{field.get_variable_id_name()}} != {{field.get_which_oneof()}})",
  chars! r"  {",
  chars! r"    init_{{field.get_oneof_name()}}(FieldNumber::{{field.get_variable_id_name()}});",
  chars! r"  }",
  chars! r"  return {{field.get_variable_name()}};",
  chars! r"}",
  chars! r"inline void set_{{field.get_name()}}(const {{field.get_type()}}& rhs)",
  chars! r"{",
  chars! r"  if(FieldNumber::{{field.get_variable_id_name()}} != {{field.get_which_oneof()}})",
  chars! r"  {",
  chars! r"    init_{{field.get_oneof_name()}}(FieldNumber::{{field.get_variable_id_name()}});",
  chars! r"  }",
  chars! r"  {{field.get_variable_name()}}.set(rhs);",
  chars! r"}",
  chars! r"{% elif field.optional %}"]

def fieldBytesGetSet4 : List (List Char) := [
  chars! r"inline bool has_{{field.get_name()}}() const",
  chars! r"{",
  chars! r"  return 0 != (presence::mask(presence::fields::{{field.get_name().upper()}}) & presence_[presence::index(presence::fields::{{field.get_name().upper()}})]);",
  chars! r"}",
  chars! r"inline void clear_{{field.get_name()}}()",
  chars! r"{",
  chars! r"  presence_[presence::index(presence::fields::{{field.get_name().upper()}})] &= ~(presence::mask(presence::fields::{{field.get_name().upper()}}));",
  chars! r"  {{field.get_variable_name()}}.clear();",
  chars! r"}",
  chars! r"inline {{field.get_type()}}& mutable_{{field.get_name()}}()",
  chars! r"{",
  chars! r"  presence_[presence::index(presence::fields::{{field.get_name().upper()}})] |= presence::mask(presence::fields::{{field.get_name().upper()}});",
  chars! r"  return {{field.get_variable_name()}};",
  chars! r"}",
  chars! r"inline void set_{{field.get_name()}}(const {{field.get_type()}}& rhs)",
  chars! r"{",
  chars! r"  presence_[presence::index(presence::fields::{{field.get_name().upper()}})] |= presence::mask(presence::fields::{{field.get_name().upper()}});",
  chars! r"  {{field.get_variable_name()}}.set(rhs);",
  chars! r"}",
  chars! r"{% else %}"]

def fieldBytesGetSet5 : List (List Char) := [
  chars! r"inline void clear_{{field.get_name()}}() { {{field.get_variable_name()}}.clear(); }",
  chars! r"inline {{field.get_type()}}& mutable_{{field.get_name()}}() { return {{field.get_variable_name()}}; }",
  chars! r"inline void set_{{field.get_name()}}(const {{field.get_type()}}& rhs) { {{field.get_variable_name()}}.set(rhs); }",
  chars! r"{% endif %}",
  chars! r"inline const {{field.get_type()}}& get_{{field.get_name()}}() const { return {{field.get_variable_name()}}; }",
  chars! r"inline const uint8_t* {{field.get_name()}}() const { return {{field.get_variable_name()}}.get_const(); }"]

/-- generator/EmbeddedProto/templates/FieldBytes_GetSet.h -/
def fieldBytesGetSet : List (List Char) :=
  fieldBytesGetSet1 ++ fieldBytesGetSet2 ++ fieldBytesGetSet3 ++ fieldBytesGetSet4 ++ fieldBytesGetSet5

def fieldStringBytesSerialize1 : List (List Char) := [
  chars! r"{#",
  chars! r"Copyright (C) 2020-2024 Embedded AMS B.V. - All Rights Reserved",
  chars! r"",
  chars! r"This file is part of Embedded Proto.",
  chars! r"",
  chars! r"Embedded Proto is open source software: you can redistribute it and/or",
  chars! r"modify it under the terms of the GNU General Public License as published",
  chars! r"by the Free Software Foundation, version 3 of the license.",
  chars! r"",
  chars! r"Embedded Proto  is distributed in the hope that it will be useful,",
  chars! r"but WITHOUT ANY WARRANTY; without even the implied warranty of",
  chars! r"MERCHANTABILITY or FITNESS FOR A PARTICULAR PURPOSE. See the",
  chars! r"GNU General Public License for more details.",
  chars! r"",
  chars! r"You should have received a copy of the GNU General Public License",
  chars! r"along with Embedded Proto. If not, see <https://www.gnu.org/licenses/>.",
  chars! r"",
  chars! r"For commercial and closed source application please visit:",
  chars! r"<https://EmbeddedProto.com/license/>.",
  chars! r""]

def fieldStringBytesSerialize2 : List (List Char) := [
  chars! r"Embedded AMS B.V.",
  chars! r"Info:",
  chars! r"  info at EmbeddedProto dot com",
  chars! r"",
  chars! r"Postal address:",
  chars! r"  Atoomweg 2",
  chars! r"  1627 LE, Hoorn",
  chars! r"  the Netherlands",
  chars! r"#}",
  chars! r"{% if (field.optional or (field.oneof is not none)) %}",
  chars! r"if(has_{{field.get_name()}}() && (::EmbeddedProto::Error::NO_ERRORS == return_value))",
  chars! r"{% else %}",
  chars! r"if(::EmbeddedProto::Error::NO_ERRORS == return_value)",
  chars! r"{% endif %}",
  chars! r"{",
  chars! r#"  return_value = {{field.get_variable_name()}}.serialize_with_id(static_cast<uint32_t>(FieldNumber::{{field.get_variable_id_name()}}), buffer, {{ "true" if (field.optional or (field.oneof is not none))  else "false" }});"#,
  chars! r"}"]

/-- generator/EmbeddedProto/templates/FieldStringBytes_Serialize.h -/
def fieldStringBytesSerialize : List (List Char) :=
  fieldStringBytesSerialize1 ++ fieldStringBytesSerialize2

def fieldRepeatedGetSet1 : List (List Char) := [
  chars! r"{#",
  chars! r"Copyright (C) 2020-2024 Embedded AMS B.V. - All Rights Reserved",
  chars! r"",
  chars! r"This file is part of Embedded Proto.",
  chars! r"",
  chars! r"Embedded Proto is open source software: you can redistribute it and/or",
  chars! r"modify it under the terms of the GNU General Public License as published",
  chars! r"by the Free Software Foundation, version 3 of the license.",
  chars! r"",
  chars! r"Embedded Proto  is distributed in the hope that it will be useful,",
  chars! r"but WITHOUT ANY WARRANTY; without even the implied warranty of",
  chars! r"MERCHANTABILITY or FITNESS FOR A PARTICULAR PURPOSE. See the",
  chars! r"GNU General Public License for more details.",
  chars! r"",
  chars! r"You should have received a copy of the GNU General Public License",
  chars! r"along with Embedded Proto. If not, see <https://www.gnu.org/licenses/>.",
  chars! r"",
  chars! r"For commercial and closed source application please visit:",
  chars! r"<https://EmbeddedProto.com/license/>.",
  chars! r""]

def fieldRepeatedGetSet2 : List (List Char) := [
  chars! r"Embedded AMS B.V.",
  chars! r"Info:",
  chars! r"  info at EmbeddedProto dot com",
  chars! r"",
  chars! r"Postal address:",
  chars! r"  Atoomweg 2",
  chars! r"  1627 LE, Hoorn",
  chars! r"  the Netherlands",
  chars! r"#}",
  chars! r#"static constexpr char const* {{field.get_name()|upper}}_NAME = "{{field.get_name()}}";"#,
  chars! r"{% if field.oneof is not none %}",
  chars! r"inline bool has_{{field.get_name()}}() const",
  chars! r"{",
  chars! r"  return FieldNumber::{{field.get_variable_id_name()}} == {{field.get_which_oneof()}};",
  chars! r"}",
  chars! r"inline void clear_{{field.get_name()}}()",
  chars! r"{",
  chars! r"  if(FieldNumber::{{field.get_variable_id_name()}} == {{field.get_which_oneof()}})",
  chars! r"  {",
  chars! r"    {{field.get_which_oneof}} = FieldNumber::NOT_SET;"]

def fieldRepeatedGetSet3 : List (List Char) := [
  chars! r"    {{field.get_variable_name()}}.~{{field.get_short_type()}}();",
  chars! r"  }",
  chars! r"}",
  chars! r"inline void set_{{field.get_name()}}(uint32_t index, const {{field.get_type()}}& value)",
  chars! r"{",
  chars! r"  if(FieldNumber::{{field.get_variable_id_name()}} != {{field.get_which_oneof()}})",
  chars! r"  {",
  chars! r"    init_{{field.get_oneof_name()}}(FieldNumber::{{field.get_variable_id_name()}});",
  chars! r"  }",
  chars! r"  {{field.get_variable_name()}}.set(index, value);",
  chars! r"}",
  chars! r"inline void set_{{field.get_name()}}(uint32_t index, const {{field.get_type()}}&& value)",
  chars! r"{",
  chars! r"  if(FieldNumber::{{field.get_variable_id_name()}} != {{field.get_which_oneof()}})",
  chars! r"  {",
  chars! r"    init_{{field.get_oneof_name()}}(FieldNumber::{{field.get_variable_id_name()}});",
  chars! r"  }",
  chars! r"  {{field.get_variable_name()}}.set(index, value);",
  chars! r"}",
  chars! r"inline void set_{{field.get_name()}}(const {{field.repeated_type}}& values)"]

def fieldRepeatedGetSet4 : List (List Char) := [
  chars! r"{",
  chars! r"  if(FieldNumber::{{field.get_variable_id_name()}} != {{field.get_which_oneof()}})",
  chars! r"  {",
  chars! r"    init_{{field.get_oneof_name()}}(FieldNumber::{{field.get_variable_id_name()}});",
  chars! r"  }",
  chars! r"  {{field.get_variable_name()}} = values;",
  chars! r"}",
  chars! r"inline void add_{{field.get_name()}}(const {{field.get_type()}}& value)",
  chars! r"{",
  chars! r"  if(FieldNumber::{{field.get_variable_id_name()}} != {{field.get_which_oneof()}})",
  chars! r"  {",
  chars! r"    init_{{field.get_oneof_name()}}(FieldNumber::{{field.get_variable_id_name()}});",
  chars! r"  }",
  chars! r"  {{field.get_variable_name()}}.add(value);",
  chars! r"}",
  chars! r"inline {{field.repeated_type}}& mutable_{{field.get_name()}}()",
  chars! r"{",
  chars! r"  if(FieldNumber::{{field.get_variable_id_name()}} != {{field.get_which_oneof()}})",
  chars! r"  {",
  chars! r"    init_{{field.get_oneof_name()}}(FieldNumber::{{field.get_variable_id_name()}});"]

def fieldRepeatedGetSet5 : List (List Char) := [
  chars! r"  }",
  chars! r"  return {{field.get_variable_name()}};",
  chars! r"}",
  chars! r"{% else %}",
  chars! r"inline const {{field.get_base_type()}}& {{field.get_name()}}(uint32_t index) const { return {{field.get_variable_name()}}[index]; }",
  chars! r"inline void clear_{{field.get_name()}}() { {{field.get_variable_name()}}.clear(); }",
  chars! r"inline void set_{{field.get_name()}}(uint32_t index, const {{field.get_base_type()}}& value) { {{field.get_variable_name()}}.set(index, value); }",
  chars! r"inline void set_{{field.get_name()}}(uint32_t index, const {{field.get_base_type()}}&& value) { {{field.get_variable_name()}}.set(index, value); }",
  chars! r"inline void set_{{field.get_name()}}(const {{field.get_type()}}& values) { {{field.get_variable_name()}} = values; }",
  chars! r"inline void add_{{field.get_name()}}(const {{field.get_base_type()}}& value) { {{field.get_variable_name()}}.add(value); }",
  chars! r"inline {{field.get_type()}}& mutable_{{field.get_name()}}() { return {{field.get_variable_name()}}; }",
  chars! r"inline {{field.get_base_type()}}& mutable_{{field.get_name()}}(uint32_t index) { return {{field.get_variable_name()}}[index]; }",
  chars! r"{% endif %}",
  chars! r"inline const {{field.get_type()}}& get_{{field.get_name()}}() const { return {{field.get_variable_name()}}; }",
  chars! r"inline const {{field.get_type()}}& {{field.get_name()}}() const { return {{field.get_variable_name()}}; }",
  chars! r""]

/-- generator/EmbeddedProto/templates/FieldRepeated_GetSet.h -/
def fieldRepeatedGetSet : List (List Char) :=
  fieldRepeatedGetSet1 ++ fieldRepeatedGetSet2 ++ fieldRepeatedGetSet3 ++ fieldRepeatedGetSet4 ++ fieldRepeatedGetSet5

def fieldRepeatedSerialize1 : List (List Char) := [
  chars! r"{#",
  chars! r"Copyright (C) 2020-2024 Embedded AMS B.V. - All Rights Reserved",
  chars! r"",
  chars! r"This file is part of Embedded Proto.",
  chars! r"",
  chars! r"Embedded Proto is open source software: you can redistribute it and/or",
  chars! r"modify it under the terms of the GNU General Public License as published",
  chars! r"by the Free Software Foundation, version 3 of the license.",
  chars! r"",
  chars! r"Embedded Proto  is distributed in the hope that it will be useful,",
  chars! r"but WITHOUT ANY WARRANTY; without even the implied warranty of",
  chars! r"MERCHANTABILITY or FITNESS FOR A PARTICULAR PURPOSE. See the",
  chars! r"GNU General Public License for more details.",
  chars! r"",
  chars! r"You should have received a copy of the GNU General Public License",
  chars! r"along with Embedded Proto. If not, see <https://www.gnu.org/licenses/>.",
  chars! r"",
  chars! r"For commercial and closed source application please visit:",
  chars! r"<https://EmbeddedProto.com/license/>.",
  chars! r""]

def fieldRepeatedSerialize2 : List (List Char) := [
  chars! r"Embedded AMS B.V.",
  chars! r"Info:",
  chars! r"  info at EmbeddedProto dot com",
  chars! r"",
  chars! r"Postal address:",
  chars! r"  Atoomweg 2",
  chars! r"  1627 LE, Hoorn",
  chars! r"  the Netherlands",
  chars! r"#}",
  chars! r"if(::EmbeddedProto::Error::NO_ERRORS == return_value)",
  chars! r"{",
  chars! r#"  return_value = {{field.get_variable_name()}}.serialize_with_id(static_cast<uint32_t>(FieldNumber::{{field.get_variable_id_name()}}), buffer, {{ "true" if (field.optional or (field.oneof is not none))  else "false" }});"#,
  chars! r"}"]

/-- generator/EmbeddedProto/templates/FieldRepeated_Serialize.h -/
def fieldRepeatedSerialize : List (List Char) :=
  fieldRepeatedSerialize1 ++ fieldRepeatedSerialize2

def fieldErrorRecursiveGetSet1 : List (List Char) := [
  chars! r"{#",
  chars! r"Copyright (C) 2020-2024 Embedded AMS B.V. - All Rights Reserved",
  chars! r"",
  chars! r"This file is part of Embedded Proto.",
  chars! r"",
  chars! r"Embedded Proto is open source software: you can redistribute it and/or",
  chars! r"modify it under the terms of the GNU General Public License as published",
  chars! r"by the Free Software Foundation, version 3 of the license.",
  chars! r"",
  chars! r"Embedded Proto  is distributed in the hope that it will be useful,",
  chars! r"but WITHOUT ANY WARRANTY; without even the implied warranty of",
  chars! r"MERCHANTABILITY or FITNESS FOR A PARTICULAR PURPOSE. See the",
  chars! r"GNU General Public License for more details.",
  chars! r"",
  chars! r"You should have received a copy of the GNU General Public License",
  chars! r"along with Embedded Proto. If not, see <https://www.gnu.org/licenses/>.",
  chars! r"",
  chars! r"For commercial and closed source application please visit:",
  chars! r"<https://EmbeddedProto.com/license/>.",
  chars! r""]

def fieldErrorRecursiveGetSet2 : List (List Char) := [
  chars! r"Embedded AMS B.V.",
  chars! r"Info:",
  chars! r"  info at EmbeddedProto dot com",
  chars! r"",
  chars! r"Postal address:",
  chars! r"  Atoomweg 2",
  chars! r"  1627 LE, Hoorn",
  chars! r"  the Netherlands",
  chars! r"#}",
  chars! r#"#warning "You have a recursive inclusion with the field: '{{field.get_name()}}'. Embedded Proto is unable to determine the template parameters in this case. We could only generate this message by leaving it out.""#,
  chars! r#"static constexpr char const* {{field.get_name()|upper}}_NAME = "{{field.get_name()}}";"#,
  chars! r"inline void clear_{{field.get_name()}}() { }",
  chars! r"inline void set_{{field.get_name()}}(const uint8_t& value) { }",
  chars! r"inline void set_{{field.get_name()}}(const uint8_t&& value) { }",
  chars! r"inline const uint8_t get_{{field.get_name()}}() const { return 0; }",
  chars! r"inline uint8_t {{field.get_name()}}() const { return 0; }"]

/-- generator/EmbeddedProto/templates/FieldErrorRecursive_GetSet.h -/
def fieldErrorRecursiveGetSet : List (List Char) :=
  fieldErrorRecursiveGetSet1 ++ fieldErrorRecursiveGetSet2

end EP.Gen.Template
