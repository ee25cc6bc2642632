import Verif.Proof.Reach

/-! # Objects whose unused array elements are new -/

namespace EP

mutual
/-- Without repeated message fields there is nothing to keep clean. -/
theorem ElemTy.clean_of_hasRepMsg : (t : ElemTy) → t.hasRepMsg = false → ∀ x, t.spec.Clean x
  | .scalar _, _, _ => trivial
  | .str _, _, _ => trivial
  | .msg fs os, h, x => by
    simp only [ElemTy.hasRepMsg, Bool.or_eq_false_iff] at h
    exact ⟨Fields.clean_of_hasRepMsg fs 0 h.1 x.fields, Oneofs.clean_of_hasRepMsg os h.2 x.oneofs⟩
theorem Fields.clean_of_hasRepMsg : (fs : Fields) → (idx : Nat) → fs.hasRepMsg = false →
    ∀ x, (fs.spec idx).Clean x
  | .nil, _, _, _ => trivial
  | .plain _ t rest, idx, h, x => by
    simp only [Fields.hasRepMsg, Bool.or_eq_false_iff] at h
    exact ⟨ElemTy.clean_of_hasRepMsg t h.1 x.1, Fields.clean_of_hasRepMsg rest idx h.2 x.2⟩
  | .optional _ t rest, idx, h, x => by
    simp only [Fields.hasRepMsg, Bool.or_eq_false_iff] at h
    exact ⟨ElemTy.clean_of_hasRepMsg t h.1 x.1, Fields.clean_of_hasRepMsg rest (idx + 1) h.2 x.2⟩
  | .repeated _ cap t rest, idx, h, x => by
    simp only [Fields.hasRepMsg, Bool.or_eq_false_iff] at h
    refine ⟨?_, Fields.clean_of_hasRepMsg rest idx h.2 x.2⟩
    cases t with
    | scalar s => exact ⟨fun _ _ => trivial, fun h => nomatch h⟩
    | str cap => exact ⟨fun _ _ => trivial, fun h => nomatch h⟩
    | msg fs os => exact nomatch h.1
theorem Alts.clean_of_hasRepMsg : (a : Alts) → a.hasRepMsg = false → ∀ u, a.spec.Clean u
  | .nil, _, u => u.elim
  | .cons _ t rest, h, u => by
    simp only [Alts.hasRepMsg, Bool.or_eq_false_iff] at h
    cases u with
    | inl x => exact ElemTy.clean_of_hasRepMsg t h.1 x
    | inr u => exact Alts.clean_of_hasRepMsg rest h.2 u
theorem Oneofs.clean_of_hasRepMsg : (os : Oneofs) → os.hasRepMsg = false → ∀ x, os.spec.Clean x
  | .nil, _, _ => trivial
  | .cons a rest, h, x => by
    simp only [Oneofs.hasRepMsg, Bool.or_eq_false_iff] at h
    exact ⟨fun u _ => Alts.clean_of_hasRepMsg a h.1 u, Oneofs.clean_of_hasRepMsg rest h.2 x.2⟩
end

/-- Decoding arbitrary bytes into a message. -/
theorem ElemTy.msg_safe (fs : Fields) (os : Oneofs) (h : (ElemTy.msg fs os).WF) {β : Type} [ReadBuffer β]
    (M : ReadModel β) (fuel : Nat) (b : β) (x : (ElemTy.msg fs os).Obj) (hb : M.Inv b)
    (hi : (ElemTy.msg fs os).Inv x) :
    ((ElemTy.msg fs os).cls.deserialize fuel b x).Safe (Fwd M (M.view b) ∧ (M.view b).length < fuel)
      fun r => M.Inv r.2.1 ∧ (ElemTy.msg fs os).Inv r.2.2 ∧
        ((ElemTy.msg fs os).Clean x → (ElemTy.msg fs os).Clean r.2.2) ∧
        (Fwd M (M.view b) → M.view r.2.1 <:+: M.view b) ∧
        (r.1 = .noErrors → M.view r.2.1 = []) := by
  simp only [ElemTy.WF] at h
  have hd := List.nodup_append.mp h.2.2.1
  have h₁ := Fields.safe_law fs 0 fs.nOptional h.1 (by omega)
  rw [Nat.zero_add] at h₁
  exact EP.msg_safe h₁ (Oneofs.safe_law os h.2.1 hd.2.1
    (fun k hk => (h.2.2.2 k (List.mem_append_right _ hk)).1)) M fuel b x hb hi

/-! ## Calls that do not shorten an array of messages -/

section Gentle
variable {V W : Type}

/-- Observation with the invariant extended by cleanness. -/
def ClassSpec.tidy {C : FieldClass} (S : ClassSpec C V) : ClassSpec C V :=
  { S with Inv := fun x => S.Inv x ∧ S.Clean x }

def FieldsSpec.tidy {F : FieldsClass} (S : FieldsSpec F V) : FieldsSpec F V :=
  { S with Inv := fun b x => S.Inv b x ∧ S.Clean x }

def AltsSpec.tidy {A : AltsClass} (S : AltsSpec A V) : AltsSpec A V :=
  { S with Inv := fun x => S.Inv x ∧ S.Clean x }

def OneofsSpec.tidy {O : OneofsClass} (S : OneofsSpec O V) : OneofsSpec O V :=
  { S with Inv := fun x => S.Inv x ∧ S.Clean x }

theorem InitLaw.tidy {C : FieldClass} {S : ClassSpec C V} {d : V} (h : InitLaw C S d) :
    InitLaw C S.tidy d where
  init_inv := ⟨h.init_inv, h.init_clean⟩
  init_clean := h.init_clean
  init_abs := h.init_abs
  clear x hx := h.clear x hx.1

theorem FieldsInit.tidy {F : FieldsClass} {S : FieldsSpec F V} {lo hi n : Nat} {d : V}
    (h : FieldsInit F S lo hi n d) : FieldsInit F S.tidy lo hi n d where
  lo_le := h.lo_le
  congr b b' s hb := ⟨(h.congr b b' s hb).1, fun hi => ⟨(h.congr b b' s hb).2 hi.1, hi.2⟩⟩
  init b hb := by
    obtain ⟨h1, h2, h3⟩ := h.init b hb
    exact ⟨⟨h1, h2⟩, h2, h3⟩
  clear p s hp hi := h.clear p s hp hi.1

theorem AltsInit.tidy {A : AltsClass} {S : AltsSpec A V} {nums : List Nat} (h : AltsInit A S nums) :
    AltsInit A S.tidy nums where
  num_mem := h.num_mem
  hasCase := h.hasCase
  construct id u hid := by
    obtain ⟨v, h1, h2, h3, h4, h5⟩ := h.construct id u hid
    exact ⟨v, h1, h2, h3, ⟨h4, h5⟩, h5⟩
  destroy := h.destroy
  destroy_none := h.destroy_none

theorem Keeps.congr {S : Type} {P Q : S → Prop} {f : S → Res S} (h : ∀ x, P x ↔ Q x) (hf : Keeps P f) :
    Keeps Q f := fun x hx => (hf x ((h x).mpr hx)).mono fun y hy => (h y).mp hy

theorem FieldsKeep.congr {F : FieldsClass} {S R : FieldsSpec F V} {lo hi n : Nat}
    {f : Presence × F.State → Res (Presence × F.State)} (h : ∀ b x, S.Inv b x ↔ R.Inv b x)
    (hf : FieldsKeep S lo hi n f) : FieldsKeep R lo hi n f := fun s hs =>
  (hf s ⟨hs.1, (h _ _).mpr hs.2⟩).mono fun _ hr => ⟨⟨hr.1.1, (h _ _).mp hr.1.2⟩, hr.2⟩

theorem AltsKeep.congr {A : AltsClass} {S R : AltsSpec A V} {id : Nat}
    {f : Option A.U → Res (Option A.U)} (hn : ∀ u, S.num u = R.num u) (h : ∀ u, S.Inv u ↔ R.Inv u)
    (hf : AltsKeep S id f) : AltsKeep R id f := fun u hu hi =>
  (hf u ((hn u).trans hu) ((h u).mpr hi)).mono fun _ ⟨z, h1, h2, h3⟩ =>
    ⟨z, h1, (hn z).symm.trans h2, (h z).mp h3⟩

theorem Keeps.tidy {C : FieldClass} {S : ClassSpec C V} {f : C.State → Res C.State}
    (h : Keeps S.Inv f) (hc : ∀ x, S.Clean x) : Keeps S.tidy.Inv f := fun x hx =>
  (h x hx.1).mono fun y hy => ⟨hy, hc y⟩

section Repeated
variable {E : FieldClass} {S : ClassSpec E V} {d : V} {cap : Nat}

/-- A call on an element; the elements up to it come into use. -/
theorem modifyAt_tidy (h : InitLaw E S d) (hm : E.kind = .message) (h0 : 0 < cap) (hc : cap < 2147483648)
    (i : Nat) {g : E.State → Res E.State} (hg : Keeps S.tidy.Inv g) :
    Keeps (repSpec S cap).tidy.Inv fun x : RepObj E.State => x.modifyAt cap i g := by
  rintro x ⟨hx, hcl⟩
  obtain ⟨h1, h2, h3⟩ := id hx
  obtain ⟨hc1, hc2⟩ : (∀ d ∈ x.elems, S.Clean d) ∧ (E.kind = .message → ∀ d ∈ x.stale, d = E.init) := hcl
  have hall : ∀ d ∈ x.data, S.Clean d := by
    intro d hd
    rw [← List.take_append_drop x.len x.data] at hd
    rcases List.mem_append.mp hd with hd | hd
    · exact hc1 d hd
    · rw [hc2 hm d hd]; exact h.init_clean
  have hlim : RepObj.limit cap i < cap := by
    rw [RepObj.limit, u32sub_of_le (by omega) (by omega)]; omega
  have hl : RepObj.limit cap i < x.data.length := by omega
  simp only [RepObj.modifyAt, RepObj.grow]
  rw [arrayGet_of_lt hl]
  simp only [Res.ok_bind]
  refine Res.Safe_bind.mpr
    ((hg _ ⟨h3 _ (List.getElem_mem hl), hall _ (List.getElem_mem hl)⟩).mono ?_)
  rintro v ⟨hv, hvc⟩
  rw [arraySet_of_lt hl]
  simp only [Res.pure_eq]
  have hlen : ∃ n, (if RepObj.limit cap i ≥ x.len then u32 (RepObj.limit cap i + 1) else x.len) = n ∧
      n ≤ cap ∧ x.len ≤ n ∧ RepObj.limit cap i < n := by
    refine ⟨_, rfl, ?_⟩
    split
    · rw [u32_of_lt (by omega)]; omega
    · omega
  obtain ⟨n, hn, n1, n2, n3⟩ := hlen
  rw [hn]
  refine ⟨⟨by simp [h1], n1, ?_⟩, ?_, fun _ => ?_⟩
  · intro y hy
    rcases List.mem_or_eq_of_mem_set hy with hy | rfl
    · exact h3 y hy
    · exact hv
  · intro y hy
    rcases List.mem_or_eq_of_mem_set (List.mem_of_mem_take hy) with hy | rfl
    · exact hall y hy
    · exact hvc
  · intro y hy
    have hy : y ∈ (x.data.set (RepObj.limit cap i) v).drop n := hy
    rw [List.drop_set_of_lt n3] at hy
    refine hc2 hm y ?_
    show y ∈ x.data.drop x.len
    rw [show n = x.len + (n - x.len) by omega, ← List.drop_drop] at hy
    exact List.mem_of_mem_drop hy

theorem repGentle_law (hb : BaseLaw E S d) (hm : E.kind = .message) (hc : cap < 2147483648)
    (hs : SafeLaw (repeatedClass E cap) (repSpec S cap))
    {Reach : E.State → Prop} {G : (E.State → Res E.State) → Prop} (hR : ∀ z, Reach z → S.Inv z)
    (hG : ∀ g, G g → Keeps S.tidy.Inv g) {f : RepObj E.State → Res (RepObj E.State)}
    (hf : RepGentle E cap Reach G f) : Keeps (repSpec S cap).tidy.Inv f := by
  have hdes : ∀ (src : Source) (fuel : Nat) (wt : WireType) (x : RepObj E.State),
      (repSpec S cap).tidy.Inv x →
      (((repeatedClass E cap).deserializeCheckType fuel src.buf wt x).object).Safe False
        (repSpec S cap).tidy.Inv := by
    intro src fuel wt x hx
    refine Res.object_safe (((hs src.β src.M fuel src.buf wt x src.inv hx.1).weaken False.elim).mono ?_)
    intro r hr; exact ⟨hr.2.1, hr.2.2.1 hx.2⟩
  rcases hf with rfl | ⟨src, fuel, rfl⟩ | ⟨src, fuel, wt, rfl⟩ | ⟨v, hv, rfl⟩ | ⟨i, g, h0, hg, rfl⟩
  · intro x hx
    rw [(rep_base hb).clear x hx.1]
    exact ⟨(rep_base hb).init_inv, (rep_base hb).init_clean⟩
  · intro x hx
    have := hdes src fuel .lengthDelimited x hx
    simp only [repeatedClass, ↓reduceIte] at this
    exact this
  · exact fun x hx => hdes src fuel wt x hx
  · rintro x ⟨hx, hcl⟩
    obtain ⟨h1, h2, h3⟩ := id hx
    obtain ⟨hc1, hc2⟩ : (∀ d ∈ x.elems, S.Clean d) ∧
      (E.kind = .message → ∀ d ∈ x.stale, d = E.init) := id hcl
    simp only [RepObj.add]
    split
    · rename_i hl
      have hl' : x.len < x.data.length := by omega
      have hi : x.data[x.len] = E.init := by
        refine hc2 hm _ ?_
        show _ ∈ x.data.drop x.len
        rw [List.drop_eq_getElem_cons hl']
        exact List.mem_cons_self
      rw [arrayGet_of_lt hl', hi]
      simp only [Res.ok_bind]
      refine Res.Safe_bind.mpr (Res.Safe_bind.mpr ((hb.assign _ v hb.init_inv (hR v hv)).mono ?_).safe)
      rintro z ⟨hz, _, hzc⟩
      rw [arraySet_of_lt hl']
      simp only [Res.pure_eq, Res.ok_bind, Res.Safe_ok]
      rw [u32_of_lt (by omega)]
      obtain ⟨a1, a2, a3⟩ := rep_append (S := S) hx hl hz
      exact ⟨a1, a3 hcl (hzc rfl)⟩
    · exact ⟨hx, hcl⟩
  · exact modifyAt_tidy hb.toInitLaw hm h0 hc i (hG g hg)

end Repeated

end Gentle

/-! ## Declarations -/

theorem ElemTy.member_keeps (t : ElemTy) (h : t.WF) {g : t.cls.State → Res t.cls.State}
    (hg : MemberApi t.cls.init t.Api g) : Keeps t.spec.Inv g :=
  hg.keeps (t.api_law h) (t.base h).init_inv

mutual
theorem ElemTy.gentle_law : (t : ElemTy) → t.WF → ∀ g, t.Gentle g → Keeps t.spec.tidy.Inv g
  | .scalar s, h, g, hg => ((ElemTy.scalar s).member_keeps h hg).tidy fun _ => trivial
  | .str cap, h, g, hg => ((ElemTy.str cap).member_keeps h hg).tidy fun _ => trivial
  | .msg fs os, h, f, hf => by
    have hwf := h
    have hb := ElemTy.base (.msg fs os) hwf
    simp only [ElemTy.WF] at h
    have hd := List.nodup_append.mp h.2.2.1
    rcases hf with rfl | rfl | ⟨src, fuel, rfl⟩ | ⟨src, fuel, wt, rfl⟩ | ⟨y, hy, rfl⟩ | ⟨hr, hf⟩ |
      ⟨g, hg, rfl⟩ | ⟨g, hg, rfl⟩
    · exact Keeps.pure
    · intro x hx
      rw [hb.clear x hx.1]
      exact ⟨hb.init_inv, hb.init_clean⟩
    · intro x hx
      refine Res.object_safe (((ElemTy.msg_safe fs os hwf src.M fuel src.buf x src.inv hx.1).weaken
        False.elim).mono ?_)
      intro r hr; exact ⟨hr.2.1, hr.2.2.1 hx.2⟩
    · intro x hx
      refine Res.object_safe (((ElemTy.safe_law (.msg fs os) hwf src.β src.M fuel src.buf wt x src.inv
        hx.1).weaken False.elim).mono ?_)
      intro r hr; exact ⟨hr.2.1, hr.2.2.1 hx.2⟩
    · intro x hx
      simp only [hb.clear x hx.1, Res.ok_bind]
      exact ((hb.assign _ y hb.init_inv (ElemTy.reach_inv _ hwf hy)).mono
        fun z hz => ⟨hz.1, hz.2.2 rfl⟩).safe
    · exact ((ElemTy.msg fs os).member_keeps hwf hf).tidy (ElemTy.clean_of_hasRepMsg _ hr)
    · have hk := Fields.gentle_law fs 0 fs.nOptional h.1 (by omega) g hg
      rintro ⟨p, s, o⟩ ⟨⟨hp, hs, ho⟩, hcs, hco⟩
      refine Res.Safe_bind.mpr ((hk (p, s) ⟨hp, hs, hcs⟩).mono ?_)
      rintro ⟨p', s'⟩ ⟨⟨h1, h2⟩, _⟩
      exact ⟨⟨h1, h2.1, ho⟩, h2.2, hco⟩
    · have hk := Oneofs.gentle_law os h.2.1 hd.2.1
        (fun k hk => (h.2.2.2 k (List.mem_append_right _ hk)).1) g hg
      rintro ⟨p, s, o⟩ ⟨⟨hp, hs, ho⟩, hcs, hco⟩
      refine Res.Safe_bind.mpr ((hk o ⟨ho, hco⟩).mono ?_)
      intro o' ho'
      exact ⟨⟨hp, hs, ho'.1⟩, hcs, ho'.2⟩
theorem Fields.gentle_law : (fs : Fields) → (idx n : Nat) → fs.WF → idx + fs.nOptional ≤ n →
    ∀ g, fs.Gentle idx g → FieldsKeep (fs.spec idx).tidy idx (idx + fs.nOptional) n g
  | .nil, _, _, _, _, _, hg => hg.elim
  | .plain num t rest, idx, n, h, hi, f, hf => by
    simp only [Fields.WF] at h
    simp only [Fields.nOptional] at hi
    have hcongr : ∀ b s, (FieldsSpec.plain num t.spec.tidy (rest.spec idx).tidy).Inv b s ↔
        ((Fields.plain num t rest).spec idx).tidy.Inv b s := fun b s => and_and_and_comm
    refine FieldsKeep.congr hcongr ?_
    rcases hf with ⟨g, hg, rfl⟩ | ⟨g, hg, rfl⟩
    · exact onFst_keep (ElemTy.gentle_law t h.1 g hg)
    · exact onRest_keep_plain (Fields.gentle_law rest idx n h.2 hi g hg)
  | .optional num t rest, idx, n, h, hi, f, hf => by
    simp only [Fields.WF] at h
    simp only [Fields.nOptional] at hi
    have hb := (Fields.base rest (idx + 1) n h.2 (by omega)).toFieldsInit.tidy
    have he : idx + 1 + rest.nOptional = idx + (rest.nOptional + 1) := by omega
    rw [he] at hb
    have hle : idx + (rest.nOptional + 1) ≤ n := by omega
    have hcongr : ∀ b s, (FieldsSpec.optional num idx t.spec.tidy (rest.spec (idx + 1)).tidy).Inv b s ↔
        ((Fields.optional num t rest).spec idx).tidy.Inv b s := fun b s =>
      ⟨fun h => ⟨⟨⟨h.1.1.1, h.1.2⟩, h.2.1⟩, h.1.1.2, h.2.2⟩,
       fun h => ⟨⟨⟨h.1.1.1, h.2.1⟩, h.1.1.2⟩, h.1.2, h.2.2⟩⟩
    refine FieldsKeep.congr hcongr ?_
    rcases hf with ⟨g, hg, rfl⟩ | rfl | ⟨g, hg, rfl⟩
    · exact touchOptional_keep hle hb (ElemTy.gentle_law t h.1 g hg)
    · exact clearOptional_keep hle (ElemTy.base t h.1).toInitLaw.tidy hb
    · have := Fields.gentle_law rest (idx + 1) n h.2 (by omega) g hg
      rw [he] at this
      exact onRest_keep_optional this
  | .repeated num cap t rest, idx, n, h, hi, f, hf => by
    simp only [Fields.WF] at h
    simp only [Fields.nOptional] at hi
    have hcongr : ∀ b s, (FieldsSpec.plain num (repSpec t.spec cap).tidy (rest.spec idx).tidy).Inv b s ↔
        ((Fields.repeated num cap t rest).spec idx).tidy.Inv b s := fun b s => and_and_and_comm
    refine FieldsKeep.congr hcongr ?_
    have ha := ElemTy.api_law t h.2.1
    have hbase := ElemTy.base t h.2.1
    have hs := ElemTy.rep_safe t cap h.1 h.2.1
    rcases hf with ⟨hm, g, hg, rfl⟩ | ⟨hm, g, hg, rfl⟩ | ⟨g, hg, rfl⟩
    · have hk : t.cls.kind = .message := by
        cases t with
        | scalar s => exact nomatch hm
        | str c => exact nomatch hm
        | msg fs os => rfl
      exact onFst_keep (repGentle_law hbase hk h.1 hs (fun z hz => ElemTy.reach_inv t h.2.1 hz)
        (fun g hg => ElemTy.gentle_law t h.2.1 g hg) hg)
    · refine onFst_keep (Keeps.tidy (hg.keeps ?_ (rep_base hbase).init_inv) ?_)
      · intro R f hR hf
        rcases hf with hf | hf
        · exact commonApi_law (rep_base hbase) hs (rep_des hs) R f hR hf
        · exact repApi_law hbase h.1 (fun z hz => ReachGen.keeps ha hbase.init_inv hz) ha hf
      · intro x
        cases t with
        | scalar s => exact ⟨fun _ _ => trivial, fun h => nomatch h⟩
        | str cap => exact ⟨fun _ _ => trivial, fun h => nomatch h⟩
        | msg fs os => exact nomatch hm
    · exact onRest_keep_plain (Fields.gentle_law rest idx n h.2.2 hi g hg)
theorem Alts.gentle_law : (a : Alts) → a.WF → a.numbers.Nodup → ∀ id g, a.Gentle id g →
    id ∈ a.numbers ∧ AltsKeep a.spec.tidy id g
  | .nil, _, _, _, _, hg => hg.elim
  | .cons num t rest, h, hd, id, f, hf => by
    simp only [Alts.WF] at h
    simp only [Alts.numbers, List.nodup_cons] at hd
    have hnum : ∀ u, (AltsSpec.cons num t.spec.tidy rest.spec.tidy).num u =
        (Alts.cons num t rest).spec.tidy.num u := by
      intro u; cases u <;> rfl
    have hinv : ∀ u, (AltsSpec.cons num t.spec.tidy rest.spec.tidy).Inv u ↔
        (Alts.cons num t rest).spec.tidy.Inv u := by
      intro u; cases u <;> exact Iff.rfl
    rcases hf with ⟨rfl, g, hg, rfl⟩ | ⟨g, hg, rfl⟩
    · exact ⟨List.mem_cons_self, AltsKeep.congr hnum hinv (onLeft_keep hd.1
        (Alts.base rest h.2 hd.2).toAltsInit.tidy (ElemTy.gentle_law t h.1 g hg))⟩
    · obtain ⟨h1, h2⟩ := Alts.gentle_law rest h.2 hd.2 id g hg
      exact ⟨List.mem_cons_of_mem _ h1, AltsKeep.congr hnum hinv (onRight_keep hd.1 h1 h2)⟩
theorem Oneofs.gentle_law : (os : Oneofs) → os.WF → os.numbers.Nodup → (∀ k ∈ os.numbers, 0 < k) →
    ∀ g, os.Gentle g → Keeps os.spec.tidy.Inv g
  | .nil, _, _, _, _, hg => hg.elim
  | .cons a rest, h, hd, hn, f, hf => by
    simp only [Oneofs.WF] at h
    simp only [Oneofs.numbers] at hd hn
    have hd' := List.nodup_append.mp hd
    have h0 : 0 ∉ a.numbers := fun h0 => absurd (hn 0 (List.mem_append_left _ h0)) (by omega)
    have hb := (Alts.base a h.1 hd'.1).toAltsInit.tidy
    have hobj : ∀ o, a.spec.tidy.ObjInv o ↔
        (a.spec.ObjInv o ∧ ∀ u, o.live = some u → a.spec.Clean u) := by
      rintro ⟨w, l⟩
      cases l with
      | none => exact ⟨fun h => ⟨h, fun _ h => (nomatch h)⟩, fun h => h.1⟩
      | some u =>
        refine ⟨fun h => ⟨⟨h.1, h.2.1⟩, fun v hv => ?_⟩, fun h => ⟨h.1.1, h.1.2, h.2 u rfl⟩⟩
        cases hv; exact h.2.2
    rcases hf with ⟨id, g, hg, rfl⟩ | ⟨id, _, rfl⟩ | ⟨g, hg, rfl⟩
    · obtain ⟨h1, h2⟩ := Alts.gentle_law a h.1 hd'.1 id g hg
      rintro ⟨o, t⟩ ⟨⟨ho, ht⟩, hco, hct⟩
      refine Res.Safe_bind.mpr ((touchMember_keep hb h0 h1 h2 o ((hobj o).mpr ⟨ho, hco⟩)).mono ?_)
      intro o' ho'
      obtain ⟨q1, q2⟩ := (hobj o').mp ho'
      exact ⟨⟨q1, ht⟩, q2, hct⟩
    · rintro ⟨o, t⟩ ⟨⟨ho, ht⟩, hco, hct⟩
      refine Res.Safe_bind.mpr ((clearMember_keep hb h0 id o ((hobj o).mpr ⟨ho, hco⟩)).mono ?_)
      intro o' ho'
      obtain ⟨q1, q2⟩ := (hobj o').mp ho'
      exact ⟨⟨q1, ht⟩, q2, hct⟩
    · have := Oneofs.gentle_law rest h.2 hd'.2.1 (fun k hk => hn k (List.mem_append_right _ hk)) g hg
      rintro ⟨o, t⟩ ⟨⟨ho, ht⟩, hco, hct⟩
      refine Res.Safe_bind.mpr ((this t ⟨ht, hct⟩).mono ?_)
      intro t' ht'; exact ⟨⟨ho, ht'.1⟩, hco, ht'.2⟩
end

theorem ElemTy.Tidy.inv_clean {t : ElemTy} (h : t.WF) {x : t.Obj} (hx : t.Tidy x) :
    t.Inv x ∧ t.Clean x := by
  rcases hx with ⟨hx, hr⟩ | hx
  · exact ⟨ElemTy.reach_inv _ h hx, ElemTy.clean_of_hasRepMsg _ hr x⟩
  · exact ReachGen.keeps (Inv := t.spec.tidy.Inv)
      (fun R f _ hf => t.gentle_law h f hf) ⟨(t.base h).init_inv, (t.base h).init_clean⟩ hx

/-- Objects only used for receiving are tidy. -/
theorem ElemTy.Received.tidy {fs : Fields} {os : Oneofs} {x : (ElemTy.msg fs os).Obj}
    (hx : (ElemTy.msg fs os).Received x) : (ElemTy.msg fs os).Tidy x := by
  refine Or.inr ?_
  induction hx with
  | init => exact .init
  | step _ hf _ he _ ih =>
    refine .step (R := fun _ => False) (fun _ h => h.elim) ?_ ih he
    rcases hf with rfl | ⟨src, fuel, rfl⟩
    · exact Or.inr (Or.inl rfl)
    · exact Or.inr (Or.inr (Or.inl ⟨src, fuel, rfl⟩))

end EP
