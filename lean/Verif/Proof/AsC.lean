import Verif.Spec.AsC
import Verif.Proof.Text

/-!
# `to_string` of every object

As in `Verif.Proof.Text`, without assuming that strings are terminated.
-/

namespace EP
open Spec

namespace TextView

/-- The function writes the text, or its behaviour is undefined if there is none. -/
def Shows (f : TextView → Res TextView) : Option (List Byte) → Prop
  | some text => Writes f text
  | none => ∀ v : TextView, v.Ok → f v = .ub

/-- One text behind the other. -/
def joined (a b : Option (List Byte)) : Option (List Byte) := a.bind fun x => b.map fun y => x ++ y

theorem Shows.bind {f g : TextView → Res TextView} {a b : Option (List Byte)} (hf : Shows f a) (hg : Shows g b) :
    Shows (fun v => f v >>= g) (joined a b) := by
  cases a with
  | none =>
    intro v hv
    show (f v >>= g) = _
    rw [hf v hv]
    rfl
  | some x =>
    cases b with
    | some y => exact Writes.bind hf hg
    | none =>
      intro v hv
      show (f v >>= g) = _
      rw [show f v = _ from hf v hv]
      by_cases h : x.length ≤ v.size
      · rw [if_pos h]
        exact hg _ (put_ok hv h)
      · rw [if_neg h]
        rfl

theorem Shows.bindN {g : Nat → TextView → Res TextView} {a : List Byte} {b : Option (List Byte)} (h0 : a ≠ [])
    (hg : Shows (g a.length) b) : Shows (fun v => v.printN a >>= fun p => g p.1 p.2) (joined (some a) b) := by
  cases b with
  | some y => exact Writes.bindN h0 hg
  | none =>
    intro v hv
    show (v.printN a >>= fun p => g p.1 p.2 : Res _) = _
    rw [printN_eq hv h0]
    by_cases h : a.length ≤ v.size
    · rw [if_pos h]
      exact hg _ (put_ok hv h)
    · rw [if_neg h]
      rfl

theorem Shows.of_eq {f : TextView → Res TextView} {a b : Option (List Byte)} (h : Shows f a) (e : a = b) : Shows f b :=
  e ▸ h

theorem Shows.congr {f g : TextView → Res TextView} {a : Option (List Byte)} (h : Shows f a)
    (e : ∀ v, g v = f v) : Shows g a := by
  cases a with
  | some x => exact fun v hv => (e v).trans (h v hv)
  | none => exact fun v hv => (e v).trans (h v hv)

end TextView
open TextView

theorem StrObj.toString_shows (x : StrObj) (indent : Nat) (name : Option (List Byte)) (first : Bool) :
    Shows (fun v => x.toString v indent name first)
      ((if 0 ∈ x.data then some (x.data.takeWhile (· ≠ 0)) else none).map fun s =>
        comma first ++ label indent name ++ quoted s) := by
  have hq : ascii "\": \"" = ascii "\"" ++ ascii ": " ++ ascii "\"" := by decide
  refine (Shows.bind (f := fun v => v.printComma first) (a := some (comma first)) (Writes.comma first)
    (g := fun v => x.cText >>= fun s => match name with
    | some n => v.print (padding indent ++ ascii "\"" ++ n ++ ascii "\": \"" ++ s ++ ascii "\"")
    | none => v.print (padding indent ++ ascii "\"" ++ s ++ ascii "\""))
    (b := (if 0 ∈ x.data then some (x.data.takeWhile (· ≠ 0)) else none).map fun s => label indent name ++ quoted s)
      ?_).of_eq (by split <;> simp [joined])
  unfold StrObj.cText
  by_cases h : 0 ∈ x.data
  · rw [if_pos h, if_pos h]
    cases name with
    | none => exact (Writes.print (by simp [padding_eq, spaces_ne])).of_eq (by simp [label, quoted, padding_eq])
    | some n => exact (Writes.print (by simp [padding_eq, spaces_ne])).of_eq (by simp [label, quoted, padding_eq, hq])
  · rw [if_neg h, if_neg h]
    exact fun _ _ => rfl

theorem RepObj.toStringLoop_shows {α V : Type} {elem : α → TextView → Nat → Bool → Res TextView}
    {f : Nat → V → Bool → List Byte} {g : α → Option V} {cap : Nat} {x : RepObj α} (indent : Nat)
    (hg : ∀ i (h : i < x.elems.length), x.getConst cap i = .ok x.elems[i])
    (he : ∀ e ∈ x.elems, ∀ first, Shows (fun v => elem e v indent first) ((g e).map fun w => f indent w first)) :
    ∀ (n i : Nat), n + i = x.elems.length →
      Shows (fun v => x.toStringLoop elem cap indent n i v)
        (((x.elems.drop i).mapM g).map fun vs => textElems (f indent) vs (i == 0))
  | 0, i, h => by
    rw [List.drop_eq_nil_of_le (by omega)]
    exact Writes.pure
  | n + 1, i, h => by
    have hi : i < x.elems.length := by omega
    rw [List.drop_eq_getElem_cons hi]
    show Shows (fun v => x.getConst cap i >>= fun e => elem e v indent (i == 0) >>=
      fun v => x.toStringLoop elem cap indent n (i + 1) v) _
    rw [hg i hi]
    refine ((he _ (List.getElem_mem hi) (i == 0)).bind
      (toStringLoop_shows indent hg he n (i + 1) (by omega))).of_eq ?_
    rw [List.mapM_cons]
    cases g x.elems[i] with
    | none => rfl
    | some w =>
      cases (x.elems.drop (i + 1)).mapM g with
      | none => rfl
      | some ws => rfl

theorem RepObj.toString_shows {α V : Type} {elem : α → TextView → Nat → Bool → Res TextView}
    {f : Nat → V → Bool → List Byte} {g : α → Option V} {cap : Nat} {x : RepObj α} (hl : x.elems.length = x.len)
    (hg : ∀ i (h : i < x.elems.length), x.getConst cap i = .ok x.elems[i])
    (he : ∀ e ∈ x.elems, ∀ indent first, Shows (fun v => elem e v indent first) ((g e).map fun w => f indent w first))
    (indent : Nat) (name : List Byte) (first : Bool) :
    Shows (fun v => x.toString elem cap v indent name first)
      ((x.elems.mapM g).map fun vs => comma first ++ textList f (label indent (some name) ++ ascii "[\n") vs) := by
  have hq : ascii "\": [\n" = ascii "\"" ++ ascii ": " ++ ascii "[\n" := by decide
  have ho : padding indent ++ ascii "\"" ++ name ++ ascii "\": [\n" = label indent (some name) ++ ascii "[\n" := by
    simp [label, quoted, padding_eq, hq]
  refine (Shows.bind (f := fun v => v.printComma first) (a := some (comma first)) (Writes.comma first)
    (g := fun v => v.printN (padding indent ++ ascii "\"" ++ name ++ ascii "\": [\n") >>= fun p =>
      x.toStringLoop elem cap p.1 x.len 0 p.2 >>= fun v => v.print (ascii "\n" ++ padding (p.1 - 2) ++ ascii "]"))
    (b := (x.elems.mapM g).map fun vs => textList f (label indent (some name) ++ ascii "[\n") vs) ?_).of_eq
      (by cases x.elems.mapM g <;> rfl)
  rw [ho]
  refine (Shows.bindN (g := fun n v => x.toStringLoop elem cap n x.len 0 v >>= fun v =>
    v.print (ascii "\n" ++ padding (n - 2) ++ ascii "]")) (by simp [label, spaces_ne])
    (Shows.bind (b := some _) (RepObj.toStringLoop_shows _ hg (fun e h fst => he e h _ fst) x.len 0 hl.symm)
      (Writes.print (closing_ne _)))).of_eq ?_
  rw [List.drop_zero]
  cases x.elems.mapM g with
  | none => rfl
  | some vs => simp [joined, textList, padding_eq]

mutual
theorem ElemTy.toString_shows (P : Printer) : (t : ElemTy) → (path : List Nat) → t.WF → (x : t.cls.State) → t.Inv x →
    ∀ (indent : Nat) (name : Option (List Byte)) (first : Bool),
    Shows (fun v => t.toString P path x v indent name first)
      ((t.asC P path x).map fun v => t.text P path v indent name first)
  | .scalar s, _, _, x, _, indent, name, first => ScalarTy.toString_writes P s x indent name first
  | .str cap, path, h, x, hi, indent, name, first => by
    have hi : StrObj.WF cap x := hi
    have h : 0 < cap ∧ cap < 2147483648 := h
    show Shows (fun v => if P.isBytes path then StrObj.toStringBytes P cap x v indent name first
      else StrObj.toString x v indent name first)
      ((if P.isBytes path then some (StrObj.chars x)
        else if 0 ∈ StrObj.data x then some ((StrObj.data x).takeWhile (· ≠ 0)) else none).map fun v =>
          if P.isBytes path then _ else _)
    by_cases hp : P.isBytes path = true
    · simp only [hp]
      exact StrObj.toStringBytes_writes (StrObj.chars_len hi) (StrObj.getConst_chars hi h.2) indent name first
    · simp only [hp]
      exact StrObj.toString_shows x indent name first
  | .msg fs os, path, h, x, hi, indent, name, first => by
    obtain ⟨h1, h2, h3, h4⟩ := h
    obtain ⟨_, i2, i3⟩ := hi
    have n2 := (List.nodup_append.mp h3).2.1
    have hz : (fs.numbers.length == 0) = decide (fs.numbers = []) := by
      cases fs.numbers <;> simp
    refine (Shows.bind (f := fun v => v.printComma first) (a := some (comma first)) (Writes.comma first)
      (Shows.bind (a := some _) (Writes.opening indent name)
      ((fs.toString_shows P 0 path h1 _ _ i2 (indent + 2) true).bind
      ((os.toString_shows P path h2 n2 (fun n hn => (h4 n (List.mem_append_right _ hn)).1) _ i3 (indent + 2)
        (fs.numbers.length == 0)).bind (b := some _) (Writes.closing indent))))).of_eq ?_
    rw [hz]
    show _ = Option.map _ ((fs.asC P 0 path (MsgObj.fields x)).bind fun a =>
      (os.asC P path (MsgObj.oneofs x)).map fun b => (a, b))
    cases fs.asC P 0 path (MsgObj.fields x) with
    | none => rfl
    | some a =>
      cases os.asC P path (MsgObj.oneofs x) with
      | none => rfl
      | some b =>
        refine congrArg some ?_
        show _ = comma first ++ openLabel indent name ++ ascii "{\n" ++ _ ++ _ ++ ascii "\n" ++
          (if indent = 0 then [] else spaces indent) ++ ascii "}"
        simp only [List.append_assoc]
theorem Fields.toString_shows (P : Printer) : (fs : Fields) → (idx : Nat) → (path : List Nat) → fs.WF → (has : Nat → Bool) →
    (x : (fs.cls idx).State) → (fs.spec idx).Inv has x → ∀ (indent : Nat) (first : Bool),
    Shows (fun v => fs.toString P idx path x v indent first)
      ((fs.asC P idx path x).map fun v => fs.text P path v indent first)
  | .nil, _, _, _, _, _, _, _, _ => Writes.pure
  | .plain num t rest, idx, path, h, has, x, hi, indent, first => by
    refine ((t.toString_shows P (num :: path) h.1 x.1 hi.1 indent _ first).bind
      (rest.toString_shows P idx path h.2 has x.2 hi.2 indent false)).of_eq ?_
    show _ = Option.map _ ((t.asC P (num :: path) x.1).bind fun a => (rest.asC P idx path x.2).map fun b => (a, b))
    cases t.asC P (num :: path) x.1 with
    | none => rfl
    | some a =>
      cases rest.asC P idx path x.2 with
      | none => rfl
      | some b => rfl
  | .optional num t rest, idx, path, h, has, x, hi, indent, first => by
    refine ((t.toString_shows P (num :: path) h.1 x.1 hi.1.1 indent _ first).bind
      (rest.toString_shows P (idx + 1) path h.2 has x.2 hi.2 indent false)).of_eq ?_
    show _ = Option.map _ ((t.asC P (num :: path) x.1).bind fun a =>
      (rest.asC P (idx + 1) path x.2).map fun b => (some a, b))
    cases t.asC P (num :: path) x.1 with
    | none => rfl
    | some a =>
      cases rest.asC P (idx + 1) path x.2 with
      | none => rfl
      | some b => rfl
  | .repeated num cap t rest, idx, path, h, has, x, hi, indent, first => by
    refine ((RepObj.toString_shows (x := x.1) (g := fun e => t.asC P (num :: path) e)
      (f := fun n v fst => t.text P (num :: path) v n none fst)
      (RepObj.elems_length _ hi.1.1 hi.1.2.1)
      (RepObj.getConst_elems hi.1.1 hi.1.2.1 h.1)
      (fun e he n fst => t.toString_shows P (num :: path) h.2.1 e (hi.1.2.2 e (List.mem_of_mem_take he)) n none fst)
      indent (P.name (num :: path)) first).bind
      (rest.toString_shows P idx path h.2.2 has x.2 hi.2 indent false)).of_eq ?_
    show _ = Option.map _ (((RepObj.elems x.1).mapM fun e => t.asC P (num :: path) e).bind fun a =>
      (rest.asC P idx path x.2).map fun b => (a, b))
    cases (RepObj.elems x.1).mapM fun e => t.asC P (num :: path) e with
    | none => rfl
    | some a =>
      cases rest.asC P idx path x.2 with
      | none => rfl
      | some b => rfl
theorem Alts.toString_shows (P : Printer) : (a : Alts) → (path : List Nat) → a.WF → a.numbers.Nodup → (u : a.cls.U) →
    a.spec.Inv u → ∀ (indent : Nat) (first : Bool),
    Shows (fun v => a.toString P path (a.spec.num u) (some u) v indent first)
      ((a.asC P path u).map fun v => a.text P path v indent first)
  | .nil, _, _, _, u, _, _, _ => u.elim
  | .cons num t rest, path, h, hn, .inl x, hi, indent, first => by
    have := t.toString_shows P (num :: path) h.1 x hi indent (some (P.name (num :: path))) first
    refine (this.congr fun v => if_pos (α := Res _) rfl).of_eq ?_
    show _ = Option.map _ (Option.map _ (t.asC P (num :: path) x))
    cases t.asC P (num :: path) x <;> rfl
  | .cons num t rest, path, h, hn, .inr u, hi, indent, first => by
    have hn : num ∉ rest.numbers ∧ rest.numbers.Nodup := List.nodup_cons.mp hn
    have := rest.toString_shows P path h.2 hn.2 u hi indent first
    have hne : rest.spec.num u ≠ num := fun e => hn.1 (e ▸ (Alts.base rest h.2 hn.2).num_mem u)
    refine (this.congr fun v => if_neg (α := Res _) hne).of_eq ?_
    show _ = Option.map _ (Option.map _ (rest.asC P path u))
    cases rest.asC P path u <;> rfl
theorem Oneofs.toString_shows (P : Printer) : (os : Oneofs) → (path : List Nat) → os.WF → os.numbers.Nodup →
    (∀ n ∈ os.numbers, 0 < n) → (x : os.cls.State) →
    os.spec.Inv x → ∀ (indent : Nat) (first : Bool),
    Shows (fun v => os.toString P path x v indent first)
      ((os.asC P path x).map fun v => os.text P path v indent first)
  | .nil, _, _, _, _, _, _, _, _ => Writes.pure
  | .cons a rest, path, h, hn, h0, x, hi, indent, first => by
    obtain ⟨n1, n2, _⟩ := List.nodup_append.mp hn
    have hr := rest.toString_shows P path h.2 n2 (fun n hm => h0 n (List.mem_append_right _ hm)) x.2 hi.2 indent false
    obtain ⟨⟨which, live⟩, x2⟩ := x
    have hi1 : a.spec.ObjInv ⟨which, live⟩ := hi.1
    cases live with
    | none =>
      have hw : which = 0 := hi1
      subst hw
      refine (Shows.bind (f := fun v => a.toString P path 0 none v indent first) (a := some [])
        (Alts.toString_none P a path 0 (fun hm => absurd (h0 0 (List.mem_append_left _ hm)) (Nat.lt_irrefl 0)) indent first)
        hr).of_eq ?_
      show _ = Option.map _ ((some none).bind fun m => (rest.asC P path x2).map fun b => (m, b))
      cases rest.asC P path x2 <;> rfl
    | some u =>
      have hw : which = a.spec.num u := hi1.1
      subst hw
      refine ((a.toString_shows P path h.1 n1 u hi1.2 indent first).bind hr).of_eq ?_
      show _ = Option.map _ (((a.asC P path u).map some).bind fun m => (rest.asC P path x2).map fun b => (m, b))
      cases a.asC P path u with
      | none => rfl
      | some w => cases rest.asC P path x2 <;> rfl
end

end EP
