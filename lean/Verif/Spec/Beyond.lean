import Verif.Spec.Wire

/-!
# A length beyond the end of the data
-/

namespace EP.Spec

/-- Somewhere in `bs` are a length-delimited tag and a length that is more than what follows. -/
def Beyond (bs : List Byte) : Prop :=
  ∃ pre tg pl rest num n, bs = pre ++ (tg ++ (pl ++ rest)) ∧ Varint 32 tg (8 * num + 2) ∧ Varint 32 pl n ∧ rest.length < n

end EP.Spec
