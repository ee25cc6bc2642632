import Verif.Spec.Slot

/-!
# A message without one of its fields
-/

namespace EP
open Spec

namespace Slot

/-- The declaration without the field. -/
def without : {fs : Fields} → {num : Nat} → {c : Card} → {t : ElemTy} → Slot fs num c t → Fields
  | _, _, _, _, .plain _ _ rest => rest
  | _, _, _, _, .optional _ _ rest => rest
  | _, _, _, _, .repeated _ _ _ rest => rest
  | _, _, _, _, .afterPlain m u s => .plain m u s.without
  | _, _, _, _, .afterOptional m u s => .optional m u s.without
  | _, _, _, _, .afterRepeated m k u s => .repeated m k u s.without

/-- The values of the other fields. -/
def others : {fs : Fields} → {num : Nat} → {c : Card} → {t : ElemTy} → (s : Slot fs num c t) → fs.Val → s.without.Val
  | _, _, _, _, .plain _ _ _, v => v.2
  | _, _, _, _, .optional _ _ _, v => v.2
  | _, _, _, _, .repeated _ _ _ _, v => v.2
  | _, _, _, _, .afterPlain _ _ s, v => (v.1, s.others v.2)
  | _, _, _, _, .afterOptional _ _ s, v => (v.1, s.others v.2)
  | _, _, _, _, .afterRepeated _ _ _ s, v => (v.1, s.others v.2)

end Slot
end EP
