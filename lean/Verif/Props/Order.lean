import Verif.Proof.GenNested
import Verif.Proof.HeaderDec

/-!
# Properties of the order of definitions

C48: types are defined before they are used, circular definitions are refused.
C53: files whose definitions can be ordered are accepted; exactly which are.
-/

namespace EP

open Gen

/-- A chain of uses within the file leads from `a` to `b`. -/
inductive Reaches (f : FileDesc) : Str → Str → Prop where
  | use {scope m t} : At f.package f.messages scope m → Uses scope m t → t ∈ f.header f.messages →
      Reaches f (dot scope m.name) t
  | trans {a b c} : Reaches f a b → Reaches f b c → Reaches f a c

/-- C48.  For every file: if the generator accepts it, then in the header every type of the file comes before the
messages using it; if the definitions are circular, the generator refuses it. -/
def C48_Statement (f : FileDesc) : Prop :=
  f.Valid →
    (∀ ms, f.order = .ok ms → ∀ scope m t, At f.package f.messages scope m → Uses scope m t →
      t ∈ f.header f.messages → Before (f.header ms) t (dot scope m.name)) ∧
    ((∃ a, Reaches f a a) → f.order = .error .circular)

theorem C48_order_partial (f : FileDesc) (hc : f.Clear) (ho : f.NoOuter) : C48_Statement f := by
  intro hv
  have hb := fun ms (h : f.order = .ok ms) scope m t hm hu hd =>
    order_before (scope := scope) (m := m) (t := t) hv hc ho h hm hu hd
  refine ⟨hb, ?_⟩
  rintro ⟨a, ha⟩
  cases h : f.order with
  | error e => rw [order_error h]
  | ok ms =>
    have hn : (f.header ms).Nodup := (order_perm h).nodup_iff.mpr hv.distinct
    have key : ∀ {a b}, Reaches f a b → Before (f.header ms) b a := by
      intro a b hr
      induction hr with
      | use h1 h2 h3 => exact hb ms h _ _ _ h1 h2 h3
      | trans _ _ ih1 ih2 => exact pair_trans hn ih2 ih1
    exact absurd (key ha) (pair_irrefl hn)

/-- Nothing is lost or defined twice. -/
theorem C48_complete (f : FileDesc) (ms : List MsgDesc) (h : f.order = .ok ms) :
    (f.header ms).Perm (f.header f.messages) := order_perm h

/-- The only reason for refusing a file at this point is a circular dependency. -/
theorem C48_error (f : FileDesc) (e : GenError) (h : f.order = .error e) : e = .circular := order_error h

namespace C48Example

def use (name type : String) (number : Nat := 1) : FieldDesc :=
  { name := name.toList, number, repeated := false, type := .message, typeName := type.toList, oneofIndex := none,
    proto3Optional := false, maxLength := 0 }

def msg (name : String) (fields : List FieldDesc) (nested : List MsgDesc := []) (enums : List String := []) : MsgDesc :=
  .mk name.toList fields [] (enums.map String.toList) nested

/-- Used before defined, also across nested messages. -/
def file : FileDesc :=
  { package := ".pkg".toList, enums := ["E".toList]
    messages :=
      [msg "A" [use "b" ".pkg.B.N", use "e" ".pkg.E"] [msg "L" [use "k" ".pkg.A.K"], msg "K" [use "c" ".pkg.C"]],
       msg "B" [] [msg "N" []], msg "C" [use "c" ".pkg.C", use "i" ".other.I"] [] ["F"]] }

theorem valid : file.Valid := valid_of (by decide) (by decide)
theorem clear : file.Clear := clear_of (by decide +kernel) (by decide +kernel)
theorem noOuter : file.NoOuter := noOuter_of (by decide +kernel)

/-- `A` has moved to the end, `K` before `L`. -/
example : ∃ ms, file.order = .ok ms ∧ file.header ms =
    [".pkg.E".toList, ".pkg.B.N".toList, ".pkg.B".toList, ".pkg.C.F".toList, ".pkg.C".toList,
      ".pkg.A.K".toList, ".pkg.A.L".toList, ".pkg.A".toList] := by
  refine ⟨(file.order).toOption.getD [], ?_, ?_⟩
  · have h : file.order.isOk = true := by decide +kernel
    cases e : file.order with
    | error _ => rw [e] at h; exact nomatch h
    | ok _ => rfl
  · decide +kernel

/-- `message A { B b = 1; } message B { A a = 1; }` -/
def circle : FileDesc :=
  { package := [], enums := [], messages := [msg "A" [use "b" ".B"], msg "B" [use "a" ".A"]] }

example : circle.Valid ∧ circle.Clear ∧ circle.NoOuter ∧ ∃ a, Reaches circle a a :=
  ⟨valid_of (by decide) (by decide), clear_of (by decide +kernel) (by decide +kernel), noOuter_of (by decide +kernel),
    ".A".toList,
    .trans (b := ".B".toList)
      (.use (scope := []) (m := msg "A" [use "b" ".B"]) (.here (by simp [circle]))
        (uses_iff.mpr (by decide)) (by decide))
      (.use (scope := []) (m := msg "B" [use "a" ".A"]) (.here (by simp [circle]))
        (uses_iff.mpr (by decide)) (by decide))⟩

/-- `message Foo { message N { FooBar x = 1; } }  message FooBar { }`: "FooBar" begins with "Foo". -/
def prefixClash : FileDesc :=
  { package := [], enums := [],
    messages := [msg "Foo" [] [msg "N" [use "x" ".FooBar"]], msg "FooBar" []] }

/-- `message FooBar { } message Foo { message Bar { } FooBar f = 1; }`: without package the generator takes
"Foo.Bar" for "FooBar". -/
def scopeClash : FileDesc :=
  { package := [], enums := [],
    messages := [msg "FooBar" [], msg "Foo" [use "f" ".FooBar"] [msg "Bar" []]] }

/-- `message A { message B { A a = 1; } B b = 1; }`: accepted although circular. -/
def outerUse : FileDesc :=
  { package := [], enums := [], messages := [msg "A" [use "b" ".A.B"] [msg "B" [use "a" ".A"]]] }

end C48Example

open C48Example

/-- If the generator has put a type after its use, the statement is false of the file. -/
theorem C48Example.order_refute {f : FileDesc} (hv : f.Valid) (hd : (f.header f.messages).Nodup) {ms : List MsgDesc} (h : f.order = .ok ms)
    {scope : Str} {m : MsgDesc} {t : Str} (hm : At f.package f.messages scope m) (hu : Uses scope m t)
    (ht : t ∈ f.header f.messages) (hb : Before (f.header ms) (dot scope m.name) t) : ¬ C48_Statement f := by
  intro hs
  have hn : (f.header ms).Nodup := (order_perm h).nodup_iff.mpr hd
  exact pair_irrefl hn (pair_trans hn hb ((hs hv).1 ms h scope m t hm hu ht))

theorem C48Example.ok_of_isOk {α : Type} {x : Except GenError (List α)} (h : x.isOk = true) : x = .ok (x.toOption.getD []) := by
  cases x with
  | error _ => exact nomatch h
  | ok _ => rfl

/-- C48 is false: names that begin with the name of a message are taken for nested in it. -/
theorem C48_prefix_false : ¬ C48_Statement prefixClash :=
  order_refute (valid_of (by decide) (by decide)) (by decide) (ok_of_isOk (by decide +kernel))
    (scope := ".Foo".toList) (m := msg "N" [use "x" ".FooBar"]) (t := ".FooBar".toList)
    (.inside (c := msg "Foo" [] [msg "N" [use "x" ".FooBar"]]) (by simp [prefixClash]) (.here (by simp [msg, MsgDesc.nested])))
    (uses_iff.mpr (by decide)) (by decide) (by unfold Before; decide +kernel)

/-- C48 is false: without package a nested message can be taken for one outside. -/
theorem C48_scope_false : ¬ C48_Statement scopeClash :=
  order_refute (valid_of (by decide) (by decide)) (by decide) (ok_of_isOk (by decide +kernel))
    (scope := []) (m := msg "Foo" [use "f" ".FooBar"] [msg "Bar" []]) (t := ".FooBar".toList)
    (.here (by simp [scopeClash]))
    (uses_iff.mpr (by decide)) (by decide) (by unfold Before; decide +kernel)

/-- C48 is false: circular definitions through the message they are nested in are accepted. -/
theorem C48_outer_false : ¬ C48_Statement outerUse :=
  order_refute (valid_of (by decide) (by decide)) (by decide) (ok_of_isOk (by decide +kernel))
    (scope := ".A".toList) (m := msg "B" [use "a" ".A"]) (t := ".A".toList)
    (.inside (c := msg "A" [use "b" ".A.B"] [msg "B" [use "a" ".A"]]) (by simp [outerUse])
      (.here (by simp [msg, MsgDesc.nested])))
    (uses_iff.mpr (by decide)) (by decide) (by unfold Before; decide +kernel)

theorem C48_false : ¬ ∀ f, C48_Statement f := fun h => C48_prefix_false (h _)

/-- C53.  If the messages of a file, and those nested in them, can be arranged so that every type comes before the
messages that use it, the generator accepts the file. -/
def C53_Statement (f : FileDesc) : Prop := f.Valid → f.Orderable → ∃ r, f.order = .ok r

/-- C53 if no message uses a type nested two or more levels deep in it. -/
theorem C53_partial (f : FileDesc) (hs : f.Shallow) : C53_Statement f := fun hv ho => accept_shallow hv hs ho

/-- Such a message is a reason for refusal. -/
theorem C53_deep (f : FileDesc) (hv : f.Valid) (hs : ¬ f.Shallow) : f.order = .error .circular := by
  cases h : f.order with
  | error e => rw [order_error h]
  | ok ms => exact absurd (shallow_of_accept hv h) hs

/-- Exactly which files are accepted, if the names do not confuse the generator and no message uses one it is nested
in. -/
theorem C53_exact (f : FileDesc) (hv : f.Valid) (hc : f.Clear) (hn : f.NoOuter) :
    (∃ r, f.order = .ok r) ↔ f.Orderable ∧ f.Shallow := order_iff hv hc hn

/-- What is accepted has been arranged, on every level, and nothing else. -/
theorem C53_arranged (f : FileDesc) (ms : List MsgDesc) (h : f.order = .ok ms) : Rearranged f.messages ms :=
  order_rearranged h

/-- C53 for files without nested messages (nested enums are fine). -/
theorem C53_flat (f : FileDesc) (hf : ∀ m ∈ f.messages, m.nested = []) : C53_Statement f := by
  refine C53_partial f ?_
  intro scope m t hm _ c hc _
  have : m.nested = [] := by
    cases hm with
    | here hm => exact hf m hm
    | inside hc' hm =>
      rw [hf _ hc'] at hm
      cases hm with
      | here h => exact nomatch h
      | inside h _ => exact nomatch h
  rw [this] at hc
  exact nomatch hc

/-- `message A { B.C x = 1; message B { message C { } } }` -/
def C48Example.deepUse : FileDesc :=
  { package := [], enums := [], messages := [msg "A" [use "x" ".A.B.C"] [msg "B" [] [msg "C" []]]] }

/-- C53 is false: a message that uses what is nested two levels deep in it is refused. -/
theorem C53_false : ¬ ∀ f, C53_Statement f := by
  intro h
  obtain ⟨r, hr⟩ := h deepUse (valid_of (by decide) (by decide)) ⟨deepUse.messages, .refl _, by
    intro scope m t hm hu _
    have h : ∀ p ∈ listAts deepUse.package deepUse.messages, ∀ t ∈ used p.1 p.2,
        [t, dot p.1 p.2.name].isSublist (deepUse.header deepUse.messages) = true := by decide +kernel
    exact List.isSublist_iff_sublist.mp (h _ hm.mem_listAts t (uses_iff.mp hu))⟩
  have : deepUse.order.isOk = false := by decide +kernel
  rw [hr] at this
  exact nomatch this

/-- A file without nested messages that can be ordered. -/
def C48Example.flat : FileDesc :=
  { package := [], enums := [],
    messages := [msg "A" [use "b" ".B", use "a" ".A"], msg "B" [use "c" ".C"], msg "C" [] [] ["E"]] }

example : flat.Valid ∧ (∀ m ∈ flat.messages, m.nested = []) ∧ flat.Orderable := by
  refine ⟨valid_of (by decide) (by decide), ?_, flat.messages.reverse, .perm (List.reverse_perm _).symm, ?_⟩
  · intro m hm
    simp only [flat, List.mem_cons, List.not_mem_nil, or_false] at hm
    rcases hm with rfl | rfl | rfl <;> rfl
  · intro scope m t hm hu _
    have h : ∀ p ∈ listAts flat.package flat.messages, ∀ t ∈ used p.1 p.2,
        [t, dot p.1 p.2.name].isSublist (flat.header flat.messages.reverse) = true := by decide +kernel
    exact List.isSublist_iff_sublist.mp (h _ hm.mem_listAts t (uses_iff.mp hu))

/-- The file with nested messages from above can be arranged, and no message uses what is deep inside it. -/
example : file.Valid ∧ file.Clear ∧ file.NoOuter ∧ file.Orderable ∧ file.Shallow := by
  refine ⟨C48Example.valid, C48Example.clear, C48Example.noOuter, ?_⟩
  exact (C53_exact file C48Example.valid C48Example.clear C48Example.noOuter).mp ⟨_, ok_of_isOk (by decide +kernel)⟩

/-- `deepUse` is not shallow. -/
example : deepUse.Valid ∧ ¬ deepUse.Shallow := by
  refine ⟨valid_of (by decide) (by decide), fun h => ?_⟩
  have := h [] (msg "A" [use "x" ".A.B.C"] [msg "B" [] [msg "C" []]]) ".A.B.C".toList (.here (by simp [deepUse]))
    (uses_iff.mpr (by decide)) (msg "B" [] [msg "C" []]) (by simp [msg, MsgDesc.nested]) (by decide)
  exact absurd this (by decide)

end EP
