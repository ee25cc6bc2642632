import Verif.Spec.Parse

/-!
# Messages in one sequence of bytes
-/

namespace EP
open Spec

/-- A message preceded by its size. -/
def framed (p : List Byte) : List Byte := varint p.length ++ p

/-- What is received if a new object gets the bytes `p` and nothing else: the error, and the value. -/
def alone (fs : Fields) (os : Oneofs) (p : List Byte) : Error × (ElemTy.msg fs os).Val :=
  match parseMessage fs os true p (ElemTy.msg fs os).fresh with
  | .ok v _ => (.noErrors, (ElemTy.msg fs os).seen v)
  | .fail e v => (e, (ElemTy.msg fs os).seen v)
  | .overrun => (.noErrors, (ElemTy.msg fs os).dflt)

end EP
