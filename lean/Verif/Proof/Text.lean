import Verif.Spec.Shown
import Verif.Proof.EncMessage
import Verif.Proof.Base
import Verif.Proof.Member

/-!
# `to_string` writes the text of the value
-/

namespace EP
open Spec

namespace TextView

theorem put_ok {v : TextView} (h : v.Ok) {text : List Byte} (ht : text.length ≤ v.size) : (v.put text).Ok := by
  unfold put
  obtain ⟨h1, h2⟩ := h
  by_cases h0 : text = []
  · rw [if_pos h0]; exact ⟨h1, h2⟩
  · rw [if_neg h0]
    have := List.length_pos_iff.mpr h0
    refine ⟨?_, ?_⟩ <;> simp <;> omega

theorem put_size {v : TextView} {text : List Byte} : (v.put text).size = v.size - text.length := by
  unfold put
  split
  · next h => subst h; rfl
  · rfl

theorem put_put {v : TextView} (h : v.Ok) {a b : List Byte} (hab : a.length + b.length ≤ v.size) :
    (v.put a).put b = v.put (a ++ b) := by
  obtain ⟨h1, h2⟩ := h
  by_cases ha : a = []
  · subst ha; simp [put]
  by_cases hb : b = []
  · subst hb; simp [put]
  have la := List.length_pos_iff.mpr ha
  have lb := List.length_pos_iff.mpr hb
  have hsz := v.put_size (text := a)
  simp only [put, if_neg ha, if_neg hb, if_neg (show ¬ (a ++ b = []) by simp [ha])]
  have e1 : a.take (v.size - 1) = a := List.take_of_length_le (by omega)
  have e2 : min a.length (v.size - 1) = a.length := by omega
  have e3 : (a ++ b).take (v.size - 1) = a ++ b.take (v.size - a.length - 1) := by
    rw [List.take_append, e1]
    congr 2
    omega
  have e4 : min (a ++ b).length (v.size - 1) = a.length + min b.length (v.size - a.length - 1) := by
    rw [List.length_append]; omega
  rw [e1, e2, e3, e4]
  have lt : (v.mem.take v.pos).length = v.pos := by rw [List.length_take]; omega
  have e5 : (v.mem.take v.pos ++ (a ++ [0]) ++ v.mem.drop (v.pos + a.length + 1)).take (v.pos + a.length) =
      v.mem.take v.pos ++ a := by
    rw [List.append_assoc, List.append_assoc, ← List.append_assoc]
    exact List.take_left' (by rw [List.length_append, lt])
  have e6 : (v.mem.take v.pos ++ (a ++ [0]) ++ v.mem.drop (v.pos + a.length + 1)).drop
      (v.pos + a.length + min b.length (v.size - a.length - 1) + 1) =
      v.mem.drop (v.pos + (a.length + min b.length (v.size - a.length - 1)) + 1) := by
    have hl : (v.mem.take v.pos ++ (a ++ [0])).length = v.pos + a.length + 1 := by
      rw [List.length_append, lt]; simp; omega
    rw [List.drop_append, hl, List.drop_eq_nil_of_le (by omega), List.nil_append, List.drop_drop]
    congr 1
    omega
  rw [e5, e6]
  simp only [List.append_assoc, List.length_append]
  congr 1 <;> omega

theorem printN_eq {v : TextView} (h : v.Ok) {text : List Byte} (h0 : text ≠ []) :
    v.printN text = if text.length ≤ v.size then .ok (text.length, v.put text) else .ub := by
  obtain ⟨h1, h2⟩ := h
  have lp := List.length_pos_iff.mpr h0
  unfold printN snprintf
  by_cases hl : text.length < 2147483648
  · rw [if_pos hl]
    by_cases hs : v.size = 0
    · rw [if_pos hs, Res.pure_eq, Res.ok_bind]
      show (v.advance text.length >>= fun v => pure (text.length, v) : Res _) = _
      rw [advance, if_pos lp, if_neg (by omega), if_neg (by omega)]
      rfl
    · obtain ⟨m, hm⟩ : ∃ m, m = v.mem.take v.pos ++ (text.take (v.size - 1) ++ [0]) ++
          v.mem.drop (v.pos + (text.take (v.size - 1) ++ [(0 : Byte)]).length) := ⟨_, rfl⟩
      have lm : m.length = v.mem.length := by rw [hm]; simp; omega
      rw [if_neg hs, arrayCopy, if_pos (by simp; omega), ← hm, Res.ok_bind, Res.pure_eq, Res.ok_bind]
      show (advance ⟨m, v.pos, v.size⟩ text.length >>= fun v => pure (text.length, v) : Res _) = _
      rw [advance, if_pos lp]
      show ((if v.pos + text.length ≤ m.length then _ else _) >>= _ : Res _) = _
      by_cases ht : text.length ≤ v.size
      · rw [if_pos (by omega), if_pos ht, put, if_neg h0, u32sub_of_le ht (by omega), hm]
        simp only [List.length_append, List.length_take, List.length_singleton]
        rw [Nat.min_comm, Nat.add_assoc]
        rfl
      · rw [if_neg (by omega), if_neg ht]
        rfl
  · rw [if_neg hl, if_neg (by omega)]
    rfl

/-- The function writes a text: it leaves the array as described by `put`, and without room for it the
behaviour is undefined. -/
def Writes (f : TextView → Res TextView) (text : List Byte) : Prop :=
  ∀ v : TextView, v.Ok → f v = if text.length ≤ v.size then .ok (v.put text) else .ub

theorem Writes.print {text : List Byte} (h0 : text ≠ []) : Writes (fun v => v.print text) text := by
  intro v hv
  show (v.printN text >>= fun p => pure p.2 : Res _) = _
  rw [printN_eq hv h0]
  split <;> rfl

theorem Writes.pure : Writes (fun v => Pure.pure v) [] := by
  intro v _
  refine Eq.trans ?_ (if_pos (Nat.zero_le _)).symm
  rw [put, if_pos rfl]
  rfl

theorem Writes.bind {f g : TextView → Res TextView} {a b : List Byte} (hf : Writes f a) (hg : Writes g b) :
    Writes (fun v => f v >>= g) (a ++ b) := by
  intro v hv
  show (f v >>= g) = _
  rw [hf v hv, List.length_append]
  by_cases ha : a.length ≤ v.size
  · rw [if_pos ha, Res.ok_bind, hg _ (put_ok hv ha), put_size]
    by_cases hb : b.length ≤ v.size - a.length
    · rw [if_pos hb, if_pos (by omega), put_put hv (by omega)]
    · rw [if_neg hb, if_neg (by omega)]
  · rw [if_neg ha, if_neg (by omega)]
    rfl

/-- With the number of characters of the first part used in the second. -/
theorem Writes.bindN {g : Nat → TextView → Res TextView} {a b : List Byte} (h0 : a ≠ [])
    (hg : Writes (g a.length) b) : Writes (fun v => v.printN a >>= fun p => g p.1 p.2) (a ++ b) := by
  have := Writes.bind (Writes.print h0) hg
  intro v hv
  have h2 := this v hv
  refine Eq.trans ?_ h2
  show (v.printN a >>= fun p => g p.1 p.2 : Res _) = ((v.printN a >>= fun p => Pure.pure p.2) >>= g a.length : Res _)
  rw [printN_eq hv h0]
  split <;> rfl

theorem Writes.of_eq {f : TextView → Res TextView} {a b : List Byte} (h : Writes f a) (e : a = b) : Writes f b :=
  e ▸ h

theorem Writes.comma (first : Bool) : Writes (fun v => v.printComma first) (comma first) := by
  cases first with
  | true => exact Writes.pure
  | false => exact Writes.print (by decide)

theorem put_whole {text : List Byte} (h0 : text ≠ []) (array : List Byte) :
    (if text.length ≤ array.length then .ok (put text ⟨array, 0, array.length⟩) else .ub : Res TextView) =
      if text.length < array.length then
        .ok ⟨text ++ 0 :: array.drop (text.length + 1), text.length, array.length - text.length⟩
      else if text.length = array.length then .ok ⟨text.dropLast ++ [0], text.length, 0⟩
      else .ub := by
  have hp := List.length_pos_iff.mpr h0
  by_cases h1 : text.length < array.length
  · rw [if_pos h1, if_pos (by omega), put, if_neg h0]
    show Res.ok (TextView.mk ([] ++ (text.take (array.length - 1) ++ [0]) ++
      array.drop (0 + min text.length (array.length - 1) + 1)) (0 + text.length) (array.length - text.length)) = _
    rw [List.take_of_length_le (by omega), Nat.min_eq_left (by omega), Nat.zero_add]
    simp
  · rw [if_neg h1]
    by_cases h2 : text.length = array.length
    · rw [if_pos h2, if_pos (by omega), put, if_neg h0]
      show Res.ok (TextView.mk ([] ++ (text.take (array.length - 1) ++ [0]) ++
        array.drop (0 + min text.length (array.length - 1) + 1)) (0 + text.length) (array.length - text.length)) = _
      rw [List.drop_eq_nil_of_le (by omega), ← h2, List.dropLast_eq_take, Nat.zero_add, Nat.sub_self]
      simp
    · rw [if_neg h2, if_neg (by omega)]

end TextView
open TextView

theorem padding_eq (n : Nat) : padding n = spaces n := by
  unfold padding spaces
  have : ascii " " = List.replicate 1 0x20 := by decide
  rw [this, List.replicate_append_replicate]
  congr 1
  omega

theorem spaces_ne (n : Nat) : spaces n ≠ [] := by
  unfold spaces
  rw [Ne, List.replicate_eq_nil_iff]
  omega

theorem decimal_ne (n : Nat) : decimal n ≠ [] := by
  unfold decimal ascii
  rw [Nat.toList_repr, Ne, List.map_eq_nil_iff]
  exact Nat.toDigits_ne_nil

theorem decimalInt_ne (i : Int) : decimalInt i ≠ [] := by
  unfold decimalInt
  split
  · exact List.append_ne_nil_of_right_ne_nil _ (decimal_ne _)
  · exact decimal_ne _

theorem ScalarTy.text_ne (P : Printer) (s : ScalarTy) (v : s.Val) : s.text P v ≠ [] := by
  cases s
  case boolean =>
    show (if v = true then ascii "true" else ascii "false") ≠ []
    cases v <;> decide
  case floatfixed => exact P.float_ne _
  case doublefixed => exact P.double_ne _
  all_goals first | exact decimalInt_ne _ | exact decimal_ne _

theorem ScalarTy.toString_writes (P : Printer) (s : ScalarTy) (x : s.Val) (indent : Nat)
    (name : Option (List Byte)) (first : Bool) :
    Writes (fun v => s.toString P x v indent name first) (textScalar P s x indent name first) := by
  refine ((Writes.comma first).bind (Writes.bind (f := fun v => match name with
    | some n => v.print (padding indent ++ ascii "\"" ++ n ++ ascii "\": ")
    | none => v.print (padding indent)) (a := label indent name) ?_
      (Writes.print (s.text_ne P x)))).of_eq (by simp [textScalar])
  cases name with
  | none => exact (Writes.print (by rw [padding_eq]; exact spaces_ne _)).of_eq (padding_eq _)
  | some n =>
    refine (Writes.print (by simp [padding_eq, spaces_ne])).of_eq ?_
    have : ascii "\": " = ascii "\"" ++ ascii ": " := by decide
    simp [label, quoted, padding_eq, this]

theorem StrObj.toString_writes {x : StrObj} (h : x.cText = .ok x.chars) (indent : Nat)
    (name : Option (List Byte)) (first : Bool) :
    Writes (fun v => x.toString v indent name first) (comma first ++ label indent name ++ quoted x.chars) := by
  have hq : ascii "\": \"" = ascii "\"" ++ ascii ": " ++ ascii "\"" := by decide
  refine (Writes.bind (Writes.comma first) (g := fun v => x.cText >>= fun s => match name with
    | some n => v.print (padding indent ++ ascii "\"" ++ n ++ ascii "\": \"" ++ s ++ ascii "\"")
    | none => v.print (padding indent ++ ascii "\"" ++ s ++ ascii "\"")) (b := label indent name ++ quoted x.chars)
      ?_).of_eq (by simp)
  rw [h]
  cases name with
  | none => exact (Writes.print (by simp [padding_eq, spaces_ne])).of_eq (by simp [label, quoted, padding_eq])
  | some n => exact (Writes.print (by simp [padding_eq, spaces_ne])).of_eq (by simp [label, quoted, padding_eq, hq])

/-! ## Lists -/

/-- The elements from position `i` on. -/
theorem RepObj.toStringLoop_writes {α V : Type} {elem : α → TextView → Nat → Bool → Res TextView}
    {f : Nat → V → Bool → List Byte} {g : α → V} {cap : Nat} {x : RepObj α} (indent : Nat)
    (hg : ∀ i (h : i < x.elems.length), x.getConst cap i = .ok x.elems[i])
    (he : ∀ e ∈ x.elems, ∀ first, Writes (fun v => elem e v indent first) (f indent (g e) first)) :
    ∀ (n i : Nat), n + i = x.elems.length →
      Writes (fun v => x.toStringLoop elem cap indent n i v)
        (textElems (f indent) ((x.elems.drop i).map g) (i == 0))
  | 0, i, h => by
    rw [List.drop_eq_nil_of_le (by omega)]
    exact Writes.pure
  | n + 1, i, h => by
    have hi : i < x.elems.length := by omega
    rw [List.drop_eq_getElem_cons hi]
    show Writes (fun v => x.getConst cap i >>= fun e => elem e v indent (i == 0) >>=
      fun v => x.toStringLoop elem cap indent n (i + 1) v) _
    rw [hg i hi]
    exact (he _ (List.getElem_mem hi) (i == 0)).bind (toStringLoop_writes indent hg he n (i + 1) (by omega))

theorem closing_ne (n : Nat) : ascii "\n" ++ padding n ++ ascii "]" ≠ [] := by simp [padding_eq, spaces_ne]

theorem RepObj.toString_writes {α V : Type} {elem : α → TextView → Nat → Bool → Res TextView}
    {f : Nat → V → Bool → List Byte} {g : α → V} {cap : Nat} {x : RepObj α} (hl : x.elems.length = x.len)
    (hg : ∀ i (h : i < x.elems.length), x.getConst cap i = .ok x.elems[i])
    (he : ∀ e ∈ x.elems, ∀ indent first, Writes (fun v => elem e v indent first) (f indent (g e) first))
    (indent : Nat) (name : List Byte) (first : Bool) :
    Writes (fun v => x.toString elem cap v indent name first)
      (comma first ++ textList f (label indent (some name) ++ ascii "[\n") (x.elems.map g)) := by
  have hq : ascii "\": [\n" = ascii "\"" ++ ascii ": " ++ ascii "[\n" := by decide
  have ho : padding indent ++ ascii "\"" ++ name ++ ascii "\": [\n" = label indent (some name) ++ ascii "[\n" := by
    simp [label, quoted, padding_eq, hq]
  refine (Writes.comma first).bind ?_
  rw [ho]
  refine (Writes.bindN (g := fun n v => x.toStringLoop elem cap n x.len 0 v >>= fun v =>
    v.print (ascii "\n" ++ padding (n - 2) ++ ascii "]")) (by simp [label, spaces_ne])
    ((RepObj.toStringLoop_writes _ hg (fun e h fst => he e h _ fst) x.len 0 hl.symm).bind
      (Writes.print (closing_ne _)))).of_eq ?_
  simp [textList, padding_eq]

theorem StrObj.toStringLoop_writes {P : Printer} {cap : Nat} {x : StrObj} (indent : Nat)
    (hg : ∀ i (h : i < x.chars.length), x.getConst cap i = .ok x.chars[i]) :
    ∀ (n i : Nat), n + i = x.chars.length →
      Writes (fun v => x.toStringLoop P cap indent n i v)
        (textElems (fun (b : Byte) fst => textScalar P .uint32 (b.setWidth 32) indent none fst)
          (x.chars.drop i) (i == 0))
  | 0, i, h => by
    rw [List.drop_eq_nil_of_le (by omega)]
    exact Writes.pure
  | n + 1, i, h => by
    have hi : i < x.chars.length := by omega
    rw [List.drop_eq_getElem_cons hi]
    show Writes (fun v => x.getConst cap i >>= fun b => ScalarTy.toString P .uint32 (b.setWidth 32) v indent none
      (i == 0) >>= fun v => x.toStringLoop P cap indent n (i + 1) v) _
    rw [hg i hi]
    exact (ScalarTy.toString_writes P .uint32 _ indent none _).bind (toStringLoop_writes indent hg n (i + 1) (by omega))

theorem StrObj.toStringBytes_writes {P : Printer} {cap : Nat} {x : StrObj} (hl : x.chars.length = x.len)
    (hg : ∀ i (h : i < x.chars.length), x.getConst cap i = .ok x.chars[i])
    (indent : Nat) (name : Option (List Byte)) (first : Bool) :
    Writes (fun v => x.toStringBytes P cap v indent name first)
      (comma first ++ textList (fun n (b : Byte) fst => textScalar P .uint32 (b.setWidth 32) n none fst)
        (label indent name ++ ascii "[\n") x.chars) := by
  have hq : ascii "\": [\n" = ascii "\"" ++ ascii ": " ++ ascii "[\n" := by decide
  refine (Writes.comma first).bind ?_
  have hne : label indent name ++ ascii "[\n" ≠ [] := by cases name <;> simp [label, spaces_ne]
  have key := Writes.bindN (g := fun n v => x.toStringLoop P cap n x.len 0 v >>= fun v =>
    v.print (ascii "\n" ++ padding (n - 2) ++ ascii "]")) hne
    ((StrObj.toStringLoop_writes _ hg x.len 0 hl.symm).bind
      (Writes.print (closing_ne _)))
  cases name with
  | some n =>
    have ho : padding indent ++ ascii "\"" ++ n ++ ascii "\": [\n" = label indent (some n) ++ ascii "[\n" := by
      simp [label, quoted, padding_eq, hq]
    rw [← ho] at key ⊢
    exact key.of_eq (by simp [textList, padding_eq])
  | none =>
    have ho : padding indent ++ ascii "[\n" = label indent none ++ ascii "[\n" := by
      simp [label, padding_eq]
    rw [← ho] at key ⊢
    exact key.of_eq (by simp [textList, padding_eq])

theorem RepObj.getConst_elems {α : Type} {x : RepObj α} {cap : Nat} (hd : x.data.length = cap) (hl : x.len ≤ cap)
    (hc : cap < 2147483648) (i : Nat) (h : i < x.elems.length) : x.getConst cap i = .ok x.elems[i] := by
  have h' := h
  rw [RepObj.elems, List.length_take] at h'
  have : i < x.data.length := by omega
  unfold RepObj.getConst RepObj.limit
  rw [u32sub_of_le (by omega) (by omega), Nat.min_eq_left (by omega), arrayGet_of_lt this]
  simp [RepObj.elems]

theorem StrObj.chars_len {x : StrObj} {cap : Nat} (h : x.WF cap) : x.chars.length = x.len := by
  obtain ⟨h1, h2⟩ := h
  rw [StrObj.chars, List.length_take]; omega

theorem StrObj.getConst_chars {x : StrObj} {cap : Nat} (hd : x.WF cap)
    (hc : cap < 2147483648) (i : Nat) (h : i < x.chars.length) : x.getConst cap i = .ok x.chars[i] := by
  have h' := h
  rw [StrObj.chars, List.length_take] at h'
  obtain ⟨h1, h2⟩ := hd
  have : i < x.data.length := by omega
  unfold StrObj.getConst
  rw [u32sub_of_le (by omega) (by omega), Nat.min_eq_left (by omega), arrayGet_of_lt this]
  simp [StrObj.chars]

/-! ## The generated classes -/

/-! A message without strings shows no strings. -/

mutual
theorem ElemTy.terminated_of_noStr (P : Printer) : (t : ElemTy) → (path : List Nat) → t.hasStr = false →
    (x : t.cls.State) → t.Terminated P path x
  | .scalar _, _, _, _ => trivial
  | .str _, _, h, _ => nomatch h
  | .msg fs os, path, h, x => by
    rw [ElemTy.hasStr, Bool.or_eq_false_iff] at h
    exact ⟨fs.terminated_of_noStr P 0 path h.1 _, os.terminated_of_noStr P path h.2 _⟩
theorem Fields.terminated_of_noStr (P : Printer) : (fs : Fields) → (idx : Nat) → (path : List Nat) → fs.hasStr = false →
    (x : (fs.cls idx).State) → fs.Terminated P idx path x
  | .nil, _, _, _, _ => trivial
  | .plain num t rest, idx, path, h, x => by
    rw [Fields.hasStr, Bool.or_eq_false_iff] at h
    exact ⟨t.terminated_of_noStr P (num :: path) h.1 x.1, rest.terminated_of_noStr P idx path h.2 x.2⟩
  | .optional num t rest, idx, path, h, x => by
    rw [Fields.hasStr, Bool.or_eq_false_iff] at h
    exact ⟨t.terminated_of_noStr P (num :: path) h.1 x.1, rest.terminated_of_noStr P (idx + 1) path h.2 x.2⟩
  | .repeated num cap t rest, idx, path, h, x => by
    rw [Fields.hasStr, Bool.or_eq_false_iff] at h
    exact ⟨fun e _ => t.terminated_of_noStr P (num :: path) h.1 e, rest.terminated_of_noStr P idx path h.2 x.2⟩
theorem Alts.terminated_of_noStr (P : Printer) : (a : Alts) → (path : List Nat) → a.hasStr = false → (u : a.cls.U) →
    a.Terminated P path u
  | .nil, _, _, u => nomatch u
  | .cons num t rest, path, h, .inl x => by
    rw [Alts.hasStr, Bool.or_eq_false_iff] at h
    exact t.terminated_of_noStr P (num :: path) h.1 x
  | .cons num t rest, path, h, .inr u => by
    rw [Alts.hasStr, Bool.or_eq_false_iff] at h
    exact rest.terminated_of_noStr P path h.2 u
theorem Oneofs.terminated_of_noStr (P : Printer) : (os : Oneofs) → (path : List Nat) → os.hasStr = false →
    (x : os.cls.State) → os.Terminated P path x
  | .nil, _, _, _ => trivial
  | .cons a rest, path, h, x => by
    rw [Oneofs.hasStr, Bool.or_eq_false_iff] at h
    exact ⟨fun u _ => a.terminated_of_noStr P path h.1 u, rest.terminated_of_noStr P path h.2 x.2⟩
end

theorem Alts.toString_none (P : Printer) : (a : Alts) → (path : List Nat) → (which : Nat) → which ∉ a.numbers →
    ∀ (indent : Nat) (first : Bool), Writes (fun v => a.toString P path which none v indent first) []
  | .nil, _, _, _, _, _ => Writes.pure
  | .cons num t rest, path, which, h, indent, first => by
    have hn : which ≠ num := fun e => h (e ▸ List.mem_cons_self)
    intro v hv
    exact (if_neg (α := Res _) hn).trans
      (Alts.toString_none P rest path which (fun hm => h (List.mem_cons_of_mem _ hm)) indent first v hv)

/-- The end of a message. -/
theorem Writes.closing (indent : Nat) :
    Writes (fun v => if indent = 0 then v.print (ascii "\n}")
    else v.print (ascii "\n" ++ padding indent ++ ascii "}"))
    (ascii "\n" ++ (if indent = 0 then [] else spaces indent) ++ ascii "}") := by
  by_cases hz : indent = 0
  · simp only [hz, if_true]
    exact (Writes.print (by decide)).of_eq (by decide)
  · simp only [if_neg hz]
    exact (Writes.print (by simp [padding_eq, spaces_ne])).of_eq (by simp [padding_eq])

/-- The beginning of a message. -/
theorem Writes.opening (indent : Nat) (name : Option (List Byte)) :
    Writes (fun v => match name with
    | some n =>
      if indent = 0 then v.print (ascii "\"" ++ n ++ ascii "\": {\n")
      else v.print (padding indent ++ ascii "\"" ++ n ++ ascii "\": {\n")
    | none =>
      if indent = 0 then v.print (ascii "{\n") else v.print (padding indent ++ ascii "{\n"))
    (openLabel indent name ++ ascii "{\n") := by
  have hq : ascii "\": {\n" = ascii "\"" ++ ascii ": " ++ ascii "{\n" := by decide
  have hs : ascii "\"" ≠ [] := by decide
  have hb : ascii "{\n" ≠ [] := by decide
  cases name with
  | none =>
    by_cases hz : indent = 0
    · simp only [hz, openLabel, if_true]
      exact (Writes.print hb).of_eq (by simp)
    · simp only [openLabel, if_neg hz]
      exact (Writes.print (by simp [padding_eq, spaces_ne])).of_eq (by simp [padding_eq, label])
  | some n =>
    by_cases hz : indent = 0
    · simp only [hz, openLabel, if_true]
      exact (Writes.print (by simp [hs])).of_eq (by simp [quoted, hq])
    · simp only [openLabel, if_neg hz]
      exact (Writes.print (by simp [padding_eq, spaces_ne])).of_eq (by simp [padding_eq, label, quoted, hq])

mutual
theorem ElemTy.toString_writes (P : Printer) : (t : ElemTy) → (path : List Nat) → t.WF → (x : t.cls.State) → t.Inv x →
    t.Terminated P path x → ∀ (indent : Nat) (name : Option (List Byte)) (first : Bool),
    Writes (fun v => t.toString P path x v indent name first) (t.text P path (t.abs x) indent name first)
  | .scalar s, _, _, x, _, _, indent, name, first => ScalarTy.toString_writes P s x indent name first
  | .str cap, path, h, x, hi, ht, indent, name, first => by
    have hi : StrObj.WF cap x := hi
    have h : 0 < cap ∧ cap < 2147483648 := h
    have ht : P.isBytes path = true ∨ StrObj.cText x = .ok (StrObj.chars x) := ht
    show Writes (fun v => if P.isBytes path then StrObj.toStringBytes P cap x v indent name first
      else StrObj.toString x v indent name first) (if P.isBytes path then _ else _)
    by_cases hp : P.isBytes path = true
    · simp only [hp]
      exact StrObj.toStringBytes_writes (StrObj.chars_len hi)
        (StrObj.getConst_chars hi h.2) indent name first
    · simp only [hp]
      exact StrObj.toString_writes (ht.resolve_left hp) indent name first
  | .msg fs os, path, h, x, hi, ht, indent, name, first => by
    obtain ⟨h1, h2, h3, h4⟩ := h
    obtain ⟨_, i2, i3⟩ := hi
    obtain ⟨t1, t2⟩ := ht
    have n2 := (List.nodup_append.mp h3).2.1
    have hend := Writes.closing indent
    have hstart := Writes.opening indent name
    have hz : (fs.numbers.length == 0) = decide (fs.numbers = []) := by
      cases fs.numbers <;> simp
    refine ((Writes.comma first).bind (hstart.bind ((fs.toString_writes P 0 path h1 _ _ i2 t1 (indent + 2) true).bind
      ((os.toString_writes P path h2 n2 (fun n hn => (h4 n (List.mem_append_right _ hn)).1) _ i3 t2 (indent + 2)
        (fs.numbers.length == 0)).bind hend)))).of_eq ?_
    rw [hz]
    show _ = comma first ++ openLabel indent name ++ ascii "{\n" ++ _ ++ _ ++ ascii "\n" ++
      (if indent = 0 then [] else spaces indent) ++ ascii "}"
    simp only [List.append_assoc]
    rfl
theorem Fields.toString_writes (P : Printer) : (fs : Fields) → (idx : Nat) → (path : List Nat) → fs.WF → (has : Nat → Bool) →
    (x : (fs.cls idx).State) → (fs.spec idx).Inv has x → fs.Terminated P idx path x → ∀ (indent : Nat) (first : Bool),
    Writes (fun v => fs.toString P idx path x v indent first) (fs.text P path ((fs.spec idx).abs has x) indent first)
  | .nil, _, _, _, _, _, _, _, _, _ => Writes.pure
  | .plain num t rest, idx, path, h, has, x, hi, ht, indent, first =>
    (t.toString_writes P (num :: path) h.1 x.1 hi.1 ht.1 indent _ first).bind
      (rest.toString_writes P idx path h.2 has x.2 hi.2 ht.2 indent false)
  | .optional num t rest, idx, path, h, has, x, hi, ht, indent, first => by
    have hv : (if has idx then some (t.spec.abs x.1) else none : Option t.Val).getD t.dflt = t.spec.abs x.1 := by
      by_cases hh : has idx = true
      · rw [if_pos hh]; rfl
      · rw [if_neg hh]
        have : x.1 = t.cls.init := hi.1.2 (by simpa using hh)
        exact ((congrArg t.spec.abs this).trans (ElemTy.base t h.1).init_abs).symm
    have h1 := t.toString_writes P (num :: path) h.1 x.1 hi.1.1 ht.1 indent (some (P.name (num :: path))) first
    refine (h1.bind (rest.toString_writes P (idx + 1) path h.2 has x.2 hi.2 ht.2 indent false)).of_eq ?_
    show _ = t.text P (num :: path) ((if has idx then some (t.spec.abs x.1) else none : Option t.Val).getD t.dflt)
      indent (some (P.name (num :: path))) first ++ _
    rw [hv]
    rfl
  | .repeated num cap t rest, idx, path, h, has, x, hi, ht, indent, first =>
    (RepObj.toString_writes (x := x.1) (g := t.spec.abs) (f := fun n v fst => t.text P (num :: path) v n none fst)
      (RepObj.elems_length _ hi.1.1 hi.1.2.1)
      (RepObj.getConst_elems hi.1.1 hi.1.2.1 h.1)
      (fun e he n fst => t.toString_writes P (num :: path) h.2.1 e (hi.1.2.2 e (List.mem_of_mem_take he)) (ht.1 e he) n none fst)
      indent (P.name (num :: path)) first).bind
      (rest.toString_writes P idx path h.2.2 has x.2 hi.2 ht.2 indent false)
theorem Alts.toString_writes (P : Printer) : (a : Alts) → (path : List Nat) → a.WF → a.numbers.Nodup → (u : a.cls.U) →
    a.spec.Inv u → a.Terminated P path u → ∀ (indent : Nat) (first : Bool),
    Writes (fun v => a.toString P path (a.spec.num u) (some u) v indent first)
      (a.text P path (a.spec.abs u) indent first)
  | .nil, _, _, _, u, _, _, _, _ => u.elim
  | .cons num t rest, path, h, hn, .inl x, hi, ht, indent, first => by
    have := t.toString_writes P (num :: path) h.1 x hi ht indent (some (P.name (num :: path))) first
    intro v hv
    exact (if_pos (α := Res _) rfl).trans (this v hv)
  | .cons num t rest, path, h, hn, .inr u, hi, ht, indent, first => by
    have hn : num ∉ rest.numbers ∧ rest.numbers.Nodup := List.nodup_cons.mp hn
    have := rest.toString_writes P path h.2 hn.2 u hi ht indent first
    have hne : rest.spec.num u ≠ num := fun e => hn.1 (e ▸ (Alts.base rest h.2 hn.2).num_mem u)
    intro v hv
    exact (if_neg (α := Res _) hne).trans (this v hv)
theorem Oneofs.toString_writes (P : Printer) : (os : Oneofs) → (path : List Nat) → os.WF → os.numbers.Nodup → 
    (∀ n ∈ os.numbers, 0 < n) → (x : os.cls.State) →
    os.spec.Inv x → os.Terminated P path x → ∀ (indent : Nat) (first : Bool),
    Writes (fun v => os.toString P path x v indent first) (os.text P path (os.spec.abs x) indent first)
  | .nil, _, _, _, _, _, _, _, _, _ => Writes.pure
  | .cons a rest, path, h, hn, h0, x, hi, ht, indent, first => by
    obtain ⟨n1, n2, _⟩ := List.nodup_append.mp hn
    have hr := rest.toString_writes P path h.2 n2 (fun n hm => h0 n (List.mem_append_right _ hm)) x.2 hi.2 ht.2 indent false
    obtain ⟨⟨which, live⟩, x2⟩ := x
    have hi1 : a.spec.ObjInv ⟨which, live⟩ := hi.1
    cases live with
    | none =>
      have hw : which = 0 := hi1
      subst hw
      exact Writes.bind (f := fun v => a.toString P path 0 none v indent first) (a := [])
        (Alts.toString_none P a path 0 (fun hm => absurd (h0 0 (List.mem_append_left _ hm)) (Nat.lt_irrefl 0)) indent first)
        hr
    | some u =>
      have hw : which = a.spec.num u := hi1.1
      subst hw
      exact (a.toString_writes P path h.1 n1 u hi1.2 (ht.1 u rfl) indent first).bind hr
end

end EP
