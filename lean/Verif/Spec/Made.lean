import Verif.Model.Accessors

/-! # Objects made with the setters only -/

namespace EP

/-- An object that was made with `set_x(…)` and `add_x(…)` and nothing else: strings and bytes with `set(data, length)` on a new
field, messages by setting fields of a new object to, and adding to arrays, objects made in the same way. -/
inductive Made : (t : ElemTy) → t.cls.State → Prop where
  | scalar (s : ScalarTy) (v : s.Val) : Made (.scalar s) v
  | str (cap : Nat) (bs : List Byte) {e : Error} {x : StrObj} : (StrObj.init cap).setData cap bs = .ok (e, x) → Made (.str cap) x
  | new (fs : Fields) (os : Oneofs) : Made (.msg fs os) (ElemTy.msg fs os).cls.init
  | field {fs : Fields} {os : Oneofs} {num : Nat} {t : ElemTy} (s : Slot fs num .single t) {x y : (ElemTy.msg fs os).cls.State}
      {z : t.cls.State} : Made (.msg fs os) x → Made t z → s.call (fun w => t.cls.set w z) x = .ok y → Made (.msg fs os) y
  | optional {fs : Fields} {os : Oneofs} {num : Nat} {t : ElemTy} (s : Slot fs num .opt t) {x y : (ElemTy.msg fs os).cls.State}
      {z : t.cls.State} : Made (.msg fs os) x → Made t z → s.call (fun w => t.cls.set w z) x = .ok y → Made (.msg fs os) y
  | add {fs : Fields} {os : Oneofs} {num cap : Nat} {t : ElemTy} (s : Slot fs num (.rep cap) t)
      {x y : (ElemTy.msg fs os).cls.State} {z : t.cls.State} : Made (.msg fs os) x → Made t z →
      s.call (fun w => RepObj.add cap w z >>= fun r => pure r.2) x = .ok y → Made (.msg fs os) y
  | member {fs : Fields} {os : Oneofs} {a : Alts} {num : Nat} {t : ElemTy} (s : OneofSlot os a) (m : Member a num t)
      {x y : (ElemTy.msg fs os).cls.State} {z : t.cls.State} : Made (.msg fs os) x → Made t z →
      m.call (fs := fs) s (fun w => t.cls.set w z) x = .ok y → Made (.msg fs os) y

end EP
