import Verif.Model.Message

/-!
# The classes generated for a message declaration

`ElemTy.cls` instantiates the templates for a declaration, as the generator does
(/repo/generator/EmbeddedProto/TypeDefinitions.py:125-165, Field.py:65-86).
Recursive message types cannot be written down, as the generator rejects them
(Field.py:555-571, ProtoFile.py:133-136).
-/

namespace EP

mutual
/-- The class generated for a type. -/
def ElemTy.cls : ElemTy → FieldClass
  | .scalar s => scalarClass s
  | .str cap => strClass cap
  | .msg fs os => messageClass fs.nOptional (fs.cls 0) os.cls
/-- The members generated for the fields; `idx` is the next free value of the enum
`presence::fields` (TypeDefMsg.h:362-367). -/
def Fields.cls : Fields → Nat → FieldsClass
  | .nil, _ => .nil
  | .plain num t rest, idx => .plain num t.cls (rest.cls idx)
  | .optional num t rest, idx => .optional num idx t.cls (rest.cls (idx + 1))
  | .repeated num cap t rest, idx => .plain num (repeatedClass t.cls cap) (rest.cls idx)
/-- The members generated for one oneof. -/
def Alts.cls : Alts → AltsClass
  | .nil => .nil
  | .cons num t rest => .cons num t.cls rest.cls
/-- The members generated for the oneofs. -/
def Oneofs.cls : Oneofs → OneofsClass
  | .nil => .nil
  | .cons alts rest => .cons alts.cls rest.cls
end

end EP
