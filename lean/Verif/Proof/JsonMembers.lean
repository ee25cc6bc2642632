import Verif.Spec.Named
import Verif.Proof.Json
import Verif.Proof.Accessors

/-!
# The members of the JSON value of a message
-/

namespace EP

theorem Slot.json_mem (P : Printer) (path : List Nat) {fs : Fields} {num : Nat} {c : Card} {t : ElemTy} (s : Slot fs num c t) :
    ∀ (idx : Nat) (has : Nat → Bool) (x : (fs.cls idx).State), fs.WF → (fs.spec idx).Inv has x →
      (P.name (num :: path), c.json P (num :: path) t ((c.spec t).abs (s.state idx x))) ∈
        fs.json P path ((fs.spec idx).abs has x) := by
  induction s with
  | plain num t rest => exact fun idx has x _ _ => List.mem_cons_self
  | repeated num cap t rest => exact fun idx has x _ _ => List.mem_cons_self
  | optional num t rest =>
    intro idx has x h hi
    have hv : (if has idx then some (t.spec.abs x.1) else none : Option t.Val).getD t.dflt = t.spec.abs x.1 := by
      by_cases hh : has idx = true
      · rw [if_pos hh]; rfl
      · rw [if_neg hh]
        have : x.1 = t.cls.init := hi.1.2 (by simpa using hh)
        exact ((congrArg t.spec.abs this).trans (ElemTy.base t h.1).init_abs).symm
    show (_, t.json P (num :: path) (t.spec.abs x.1)) ∈ (_, t.json P (num :: path)
      ((if has idx then some (t.spec.abs x.1) else none : Option t.Val).getD t.dflt)) :: _
    rw [hv]
    exact List.mem_cons_self
  | afterPlain _ _ s ih => exact fun idx has x h hi => List.mem_cons_of_mem _ (ih idx has x.2 h.2 hi.2)
  | afterOptional _ _ s ih => exact fun idx has x h hi => List.mem_cons_of_mem _ (ih (idx + 1) has x.2 h.2 hi.2)
  | afterRepeated _ _ _ s ih => exact fun idx has x h hi => List.mem_cons_of_mem _ (ih idx has x.2 h.2.2 hi.2)

theorem Member.json_mem (P : Printer) (path : List Nat) {a : Alts} {num : Nat} {t : ElemTy} (m : Member a num t) (v : t.Val) :
    a.json P path (m.inj v) = [(P.name (num :: path), t.json P (num :: path) v)] := by
  induction m with
  | here => rfl
  | after _ _ m ih => exact ih v

theorem OneofSlot.json_mem (P : Printer) (path : List Nat) {os : Oneofs} {a : Alts} (s : OneofSlot os a) :
    ∀ (v : os.Val) {w : a.Val} {p}, s.get v = some w → p ∈ a.json P path w → p ∈ os.json P path v := by
  induction s with
  | here a rest =>
    intro v w p hw hp
    have hw : v.1 = some w := hw
    obtain ⟨v1, v2⟩ := v
    subst hw
    exact List.mem_append_left _ hp
  | after a' s ih => exact fun v w p hw hp => List.mem_append_right _ (ih v.2 hw hp)

theorem Fields.json_keys (P : Printer) (path : List Nat) : ∀ (fs : Fields) (v : fs.Val), ∀ p ∈ fs.json P path v,
    ∃ n ∈ fs.numbers, p.1 = P.name (n :: path)
  | .nil, _, _, h => nomatch h
  | .plain num t rest, v, p, h => by
    rcases List.mem_cons.mp h with rfl | h
    · exact ⟨_, List.mem_cons_self, rfl⟩
    · obtain ⟨n, hn, e⟩ := Fields.json_keys P path rest v.2 p h
      exact ⟨n, List.mem_cons_of_mem _ hn, e⟩
  | .optional num t rest, v, p, h => by
    rcases List.mem_cons.mp h with rfl | h
    · exact ⟨_, List.mem_cons_self, rfl⟩
    · obtain ⟨n, hn, e⟩ := Fields.json_keys P path rest v.2 p h
      exact ⟨n, List.mem_cons_of_mem _ hn, e⟩
  | .repeated num cap t rest, v, p, h => by
    rcases List.mem_cons.mp h with rfl | h
    · exact ⟨_, List.mem_cons_self, rfl⟩
    · obtain ⟨n, hn, e⟩ := Fields.json_keys P path rest v.2 p h
      exact ⟨n, List.mem_cons_of_mem _ hn, e⟩

theorem Alts.json_keys (P : Printer) (path : List Nat) : ∀ (a : Alts) (u : a.cls.U), ∀ p ∈ a.json P path (a.spec.abs u),
    p.1 = P.name (a.spec.num u :: path)
  | .nil, u, _, _ => u.elim
  | .cons num t rest, .inl x, p, h => by
    have h : p ∈ [(P.name (num :: path), t.json P (num :: path) (t.spec.abs x))] := h
    rw [List.mem_singleton] at h
    subst h
    rfl
  | .cons num t rest, .inr u, p, h => Alts.json_keys P path rest u p h

/-- Only the members that are set are there. -/
theorem Oneofs.json_keys (P : Printer) (path : List Nat) : ∀ (os : Oneofs), os.WF → os.numbers.Nodup → ∀ (x : os.cls.State), os.spec.Inv x →
    ∀ p ∈ os.json P path (os.spec.abs x), ∃ n ∈ os.numbers, p.1 = P.name (n :: path) ∧
      ∀ (a : Alts) (s : OneofSlot os a), n ∈ a.numbers → (s.state x).which = n
  | .nil, _, _, _, _, _, h => nomatch h
  | .cons a rest, h, hd, x, hi, p, hp => by
    obtain ⟨d1, d2, d3⟩ := List.nodup_append.mp hd
    obtain ⟨⟨which, live⟩, x2⟩ := x
    have hi1 : a.spec.ObjInv ⟨which, live⟩ := hi.1
    rcases List.mem_append.mp hp with hp | hp
    · cases live with
      | none => exact nomatch hp
      | some u =>
        have hw : which = a.spec.num u := hi1.1
        have hm := (Alts.base a h.1 d1).num_mem u
        refine ⟨a.spec.num u, List.mem_append_left _ hm, Alts.json_keys P path a u p hp, ?_⟩
        intro a' s hn
        cases s with
        | here => exact hw
        | after _ s => exact absurd rfl (d3 _ hm _ (s.mem hn))
    · obtain ⟨n, hn, e, hu⟩ := Oneofs.json_keys P path rest h.2 d2 x2 hi.2 p hp
      refine ⟨n, List.mem_append_right _ hn, e, ?_⟩
      intro a' s hn'
      cases s with
      | here => exact absurd rfl (d3 _ hn' _ hn)
      | after _ s => exact hu a' s hn'

/-! ## A text with nothing before it but a comma -/

/-- The text of fields that are not first is empty or begins with a comma. -/
theorem Fields.text_comma (P : Printer) : ∀ (fs : Fields) (path : List Nat) (v : fs.Val) (indent : Nat),
    (fs.json P path v = [] ∧ fs.text P path v indent false = []) ∨ ∃ l, fs.text P path v indent false = ascii ",\n" ++ l
  | .nil, _, _, _ => .inl ⟨rfl, rfl⟩
  | .plain num t rest, path, v, indent => by
    obtain ⟨l, e⟩ := t.text_comma P (path := num :: path) (v := v.1) (indent := indent) (name := some (P.name (num :: path)))
    refine .inr ⟨l ++ rest.text P path v.2 indent false, ?_⟩
    show t.text P _ _ _ _ _ ++ _ = _
    rw [e, List.append_assoc]
  | .optional num t rest, path, v, indent => by
    obtain ⟨l, e⟩ := t.text_comma P (path := num :: path) (v := v.1.getD t.dflt) (indent := indent)
      (name := some (P.name (num :: path)))
    refine .inr ⟨l ++ rest.text P path v.2 indent false, ?_⟩
    show t.text P _ _ _ _ _ ++ _ = _
    rw [e, List.append_assoc]
  | .repeated num cap t rest, path, v, indent => .inr ⟨_, List.append_assoc ..⟩

/-- The text of oneofs that are not first is empty or begins with a comma. -/
theorem Oneofs.text_comma' (P : Printer) : ∀ (os : Oneofs) (path : List Nat) (v : os.Val) (indent : Nat),
    (os.json P path v = [] ∧ os.text P path v indent false = []) ∨ ∃ l, os.text P path v indent false = ascii ",\n" ++ l
  | .nil, _, _, _ => .inl ⟨rfl, rfl⟩
  | .cons a rest, path, (none, r), indent => Oneofs.text_comma' P rest path r indent
  | .cons a rest, path, (some w, r), indent => by
    obtain ⟨l, e⟩ := a.text_comma P (path := path) (indent := indent) w
    refine .inr ⟨l ++ rest.text P path r indent false, ?_⟩
    show a.text P path w indent false ++ _ = _
    rw [e, List.append_assoc]

end EP
