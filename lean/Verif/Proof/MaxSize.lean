import Verif.Spec.MaxSize
import Verif.Proof.Blank
import Verif.Proof.WireExtra

/-!
# Proofs about the size of the largest message
-/

namespace EP
open Spec

theorem varint_length_mono : (m n : Nat) → m ≤ n → (varint m).length ≤ (varint n).length := by
  intro m
  induction m using Nat.strongRecOn with
  | _ m ih =>
    intro n h
    by_cases h1 : m < 128
    · have : (varint m).length = 1 := by unfold varint; rw [if_pos h1]; rfl
      have := varint_length_pos n
      omega
    · have e1 : (varint m).length = (varint (m / 128)).length + 1 := by
        rw [varint, if_neg h1]; rfl
      have e2 : (varint n).length = (varint (n / 128)).length + 1 := by
        rw [varint, if_neg (by omega)]; rfl
      have := ih (m / 128) (by omega) (n / 128) (Nat.div_le_div_right h)
      omega

theorem ScalarTy.enc_maxLen (s : ScalarTy) (v : s.Val) : (s.enc v).length ≤ s.maxLen := by
  have h32 : ∀ n, n < 2 ^ 32 → (varint n).length ≤ 5 := fun n h => varint_length_le 5 n (by omega) (by decide)
  have h64 : ∀ n, n < 2 ^ 64 → (varint n).length ≤ 10 := fun n h => varint_length_le 10 n (by omega) (by decide)
  cases s <;> first
    | exact h32 _ (BitVec.isLt (w := 32) v)
    | exact h64 _ (BitVec.isLt (w := 64) v)
    | exact h32 _ (zigzag_lt (w := 32) (by decide) v)
    | exact h64 _ (zigzag_lt (w := 64) (by decide) v)
    | exact Nat.le_of_eq (littleEndian_length _ _)
    | (cases v <;> decide +kernel)

theorem ElemTy.recordLen_mono (num : Nat) (t : ElemTy) {m n : Nat} (h : m ≤ n) : t.recordLen num m ≤ t.recordLen num n := by
  unfold ElemTy.recordLen
  have := varint_length_mono m n h
  split <;> omega

theorem ElemTy.record_length (num : Nat) (t : ElemTy) (bs : List Byte) :
    (tag num t.wire ++ t.wrap bs).length = t.recordLen num bs.length := by
  unfold ElemTy.recordLen
  cases t <;> simp [ElemTy.wrap, ElemTy.isScalar, lenDelim, Nat.add_assoc]

theorem flatten_length_le {l : List (List Byte)} {n : Nat} (h : ∀ x ∈ l, x.length ≤ n) : l.flatten.length ≤ l.length * n := by
  induction l with
  | nil => simp
  | cons x l ih =>
    have h1 := h x (List.mem_cons_self ..)
    have h2 := ih fun y hy => h y (List.mem_cons_of_mem _ hy)
    simp only [List.flatten_cons, List.length_append, List.length_cons, Nat.add_mul]
    omega

theorem ElemTy.wire_of_not_scalar {t : ElemTy} (h : t.isScalar = false) : t.wire = .lengthDelimited := by
  cases t
  · exact Bool.noConfusion h
  · rfl
  · rfl

theorem encodeRepeated_length (t : ElemTy) (num cap n : Nat) (es : List (List Byte)) (hl : es.length ≤ cap)
    (h : ∀ x ∈ es, x.length ≤ n) :
    (encodeRepeated t num es).length ≤
      if cap = 0 then 0 else if t.isScalar then (tag num .lengthDelimited).length + (varint (cap * n)).length + cap * n
      else cap * t.recordLen num n := by
  by_cases h0 : cap = 0
  · have : es = [] := List.eq_nil_of_length_eq_zero (by omega)
    rw [if_pos h0, this]
    unfold encodeRepeated
    split <;> simp
  rw [if_neg h0]
  unfold encodeRepeated
  have hf := flatten_length_le h
  have hc : es.length * n ≤ cap * n := Nat.mul_le_mul_right n hl
  cases hs : t.isScalar
  · simp only [Bool.false_eq_true, if_false]
    refine Nat.le_trans (flatten_length_le (n := t.recordLen num n) ?_) ?_
    · intro x hx
      obtain ⟨e, he, rfl⟩ := List.mem_map.mp hx
      have := t.record_length num e
      rw [ElemTy.wire_of_not_scalar hs, show t.wrap e = lenDelim e by cases t <;> first | rfl | exact Bool.noConfusion hs] at this
      rw [this]
      exact t.recordLen_mono num (h e he)
    · rw [List.length_map]
      exact Nat.mul_le_mul_right _ hl
  · simp only [if_true]
    split
    · exact Nat.zero_le _
    · have := varint_length_mono es.flatten.length (cap * n) (by omega)
      simp only [lenDelim, List.length_append]
      omega

theorem ElemTy.recordLen_pos (num : Nat) (t : ElemTy) (n : Nat) : 0 < t.recordLen num n := by
  unfold ElemTy.recordLen
  have := varint_length_pos (8 * num + wireNumber t.wire)
  have e : (tag num t.wire).length = (varint (8 * num + wireNumber t.wire)).length := rfl
  omega

theorem Alts.maxLen_zero (a : Alts) (h : a.maxLen = 0) (v : a.Val) : False := by
  cases a with
  | nil => exact nomatch v
  | cons num t rest =>
    simp only [Alts.maxLen] at h
    have := t.recordLen_pos num t.maxLen
    omega

mutual
theorem ElemTy.isDflt_of_maxLen : (t : ElemTy) → (v : t.Val) → t.maxLen = 0 → t.Fits v → t.isDflt v = true
  | .scalar s, v, h, _ => by
    simp only [ElemTy.maxLen] at h
    cases s <;> exact absurd h (by decide)
  | .str cap, v, h, hf => by
    simp only [ElemTy.maxLen] at h
    simp only [ElemTy.Fits] at hf
    simp only [ElemTy.isDflt]
    exact List.isEmpty_iff.mpr (List.eq_nil_of_length_eq_zero (by omega))
  | .msg fs os, v, h, hf => by
    simp only [ElemTy.maxLen] at h
    simp only [ElemTy.Fits] at hf
    simp only [ElemTy.isDflt, Bool.and_eq_true]
    exact ⟨fs.isDflt_of_maxLen v.1 (by omega) hf.1, os.isDflt_of_maxLen v.2 (by omega) hf.2⟩
theorem Fields.isDflt_of_maxLen : (fs : Fields) → (v : fs.Val) → fs.maxLen = 0 → fs.Fits v → fs.isDflt v = true
  | .nil, _, _, _ => by simp [Fields.isDflt]
  | .plain num t rest, v, h, hf => by
    simp only [Fields.maxLen] at h
    simp only [Fields.Fits] at hf
    simp only [Fields.isDflt, Bool.and_eq_true]
    have := t.recordLen_pos num t.maxLen
    refine ⟨t.isDflt_of_maxLen v.1 ?_ hf.1, rest.isDflt_of_maxLen v.2 (by omega) hf.2⟩
    split at h
    · assumption
    · omega
  | .optional num t rest, v, h, hf => by
    simp only [Fields.maxLen] at h
    have := t.recordLen_pos num t.maxLen
    omega
  | .repeated num cap t rest, v, h, hf => by
    simp only [Fields.maxLen] at h
    simp only [Fields.Fits] at hf
    simp only [Fields.isDflt, Bool.and_eq_true]
    refine ⟨?_, rest.isDflt_of_maxLen v.2 (by omega) hf.2⟩
    have h1 := t.recordLen_pos num t.maxLen
    have h2 := varint_length_pos (cap * t.maxLen)
    split at h
    · exact List.isEmpty_iff.mpr (List.eq_nil_of_length_eq_zero (by omega))
    split at h
    · omega
    · have : cap = 0 := by
        rcases Nat.mul_eq_zero.mp (Nat.eq_zero_of_add_eq_zero_right h) with h | h
        · exact h
        · omega
      exact List.isEmpty_iff.mpr (List.eq_nil_of_length_eq_zero (by omega))
theorem Oneofs.isDflt_of_maxLen : (os : Oneofs) → (v : os.Val) → os.maxLen = 0 → os.Fits v → os.isDflt v = true
  | .nil, _, _, _ => by simp [Oneofs.isDflt]
  | .cons a rest, v, h, hf => by
    simp only [Oneofs.maxLen] at h
    simp only [Oneofs.Fits] at hf
    simp only [Oneofs.isDflt, Bool.and_eq_true]
    refine ⟨?_, rest.isDflt_of_maxLen v.2 (by omega) hf.2⟩
    cases hv : v.1 with
    | none => rfl
    | some x => exact (a.maxLen_zero (by omega) x).elim
end

mutual
theorem ElemTy.encode_maxLen : (t : ElemTy) → (v : t.Val) → t.Fits v → (t.encode v).length ≤ t.maxLen
  | .scalar s, v, _ => by
    simp only [ElemTy.encode, ElemTy.encodeWith, ElemTy.maxLen]
    exact s.enc_maxLen v
  | .str cap, v, h => by
    simp only [ElemTy.encode, ElemTy.encodeWith, ElemTy.maxLen]
    exact h
  | .msg fs os, v, h => by
    simp only [ElemTy.Fits] at h
    have h1 := fs.encode_maxLen v.1 h.1
    have h2 := os.encode_maxLen v.2 h.2
    simp only [ElemTy.encode, ElemTy.encodeWith, ElemTy.maxLen, List.length_append]
    exact Nat.add_le_add h1 h2
theorem Fields.encode_maxLen : (fs : Fields) → (v : fs.Val) → fs.Fits v → (fs.encode v).length ≤ fs.maxLen
  | .nil, _, _ => by simp [Fields.encode, Fields.encodeWith]
  | .plain num t rest, v, h => by
    simp only [Fields.Fits] at h
    have h1 := t.encode_maxLen v.1 h.1
    have h2 := rest.encode_maxLen v.2 h.2
    have h3 := t.record_length num (t.encode v.1)
    have h4 := t.recordLen_mono num h1
    simp only [Fields.encode, Fields.encodeWith, Fields.maxLen, List.length_append]
    refine Nat.add_le_add ?_ h2
    split
    · exact Nat.zero_le _
    · rename_i hd
      rw [if_neg, h3]
      · exact h4
      · intro h0
        exact hd (t.isDflt_of_maxLen v.1 h0 h.1)
  | .optional num t rest, v, h => by
    simp only [Fields.Fits] at h
    have h2 := rest.encode_maxLen v.2 h.2
    simp only [Fields.encode, Fields.encodeWith, Fields.maxLen, List.length_append]
    refine Nat.add_le_add ?_ h2
    split
    · exact Nat.zero_le _
    · rename_i x hx
      have h1 := t.encode_maxLen x (h.1 x hx)
      rw [t.record_length num]
      exact t.recordLen_mono num h1
  | .repeated num cap t rest, v, h => by
    simp only [Fields.Fits] at h
    have h2 := rest.encode_maxLen v.2 h.2
    simp only [Fields.encode, Fields.encodeWith, Fields.maxLen, List.length_append]
    refine Nat.add_le_add (encodeRepeated_length t num cap t.maxLen _ ?_ ?_) h2
    · rw [List.length_map]
      exact h.1.1
    · intro e he
      obtain ⟨x, hx, rfl⟩ := List.mem_map.mp he
      exact t.encode_maxLen x (h.1.2 x hx)
theorem Alts.encode_maxLen : (a : Alts) → (v : a.Val) → a.Fits v → (a.encode v).length ≤ a.maxLen
  | .nil, v, _ => nomatch v
  | .cons num t rest, .inl x, h => by
    simp only [Alts.Fits] at h
    have h1 := t.encode_maxLen x h
    simp only [Alts.encode, Alts.encodeWith, Alts.maxLen]
    rw [t.record_length num]
    exact Nat.le_trans (t.recordLen_mono num h1) (Nat.le_max_left ..)
  | .cons num t rest, .inr y, h => by
    simp only [Alts.Fits] at h
    simp only [Alts.encode, Alts.encodeWith, Alts.maxLen]
    exact Nat.le_trans (rest.encode_maxLen y h) (Nat.le_max_right ..)
theorem Oneofs.encode_maxLen : (os : Oneofs) → (v : os.Val) → os.Fits v → (os.encode v).length ≤ os.maxLen
  | .nil, _, _ => by simp [Oneofs.encode, Oneofs.encodeWith]
  | .cons a rest, v, h => by
    simp only [Oneofs.Fits] at h
    have h2 := rest.encode_maxLen v.2 h.2
    simp only [Oneofs.encode, Oneofs.encodeWith, Oneofs.maxLen, List.length_append]
    refine Nat.add_le_add ?_ h2
    split
    · exact Nat.zero_le _
    · rename_i x hx
      exact a.encode_maxLen x (h.1 x hx)
end

/-! ## A message of that size -/

/-- A value that takes most bytes. -/
def ScalarTy.worst : (s : ScalarTy) → s.Val
  | .boolean => true
  | .int64 | .uint64 => BitVec.allOnes 64
  | .sint64 => BitVec.intMin 64
  | .int32 | .uint32 | .enumeration => BitVec.allOnes 32
  | .sint32 => BitVec.intMin 32
  | .fixed64 | .sfixed64 | .doublefixed => (1 : BitVec 64)
  | .fixed32 | .sfixed32 | .floatfixed => (1 : BitVec 32)

mutual
def ElemTy.worst : (t : ElemTy) → t.Val
  | .scalar s => s.worst
  | .str cap => List.replicate cap (1 : Byte)
  | .msg fs os => (fs.worst, os.worst)
def Fields.worst : (fs : Fields) → fs.Val
  | .nil => ()
  | .plain _ t rest => (t.worst, rest.worst)
  | .optional _ t rest => (some t.worst, rest.worst)
  | .repeated _ cap t rest => (List.replicate cap t.worst, rest.worst)
def Alts.worst : (a : Alts) → Option a.Val
  | .nil => none
  | .cons num t rest =>
    if rest.maxLen ≤ t.recordLen num t.maxLen then some (.inl t.worst) else rest.worst.map .inr
def Oneofs.worst : (os : Oneofs) → os.Val
  | .nil => ()
  | .cons a rest => (a.worst, rest.worst)
end

theorem ScalarTy.worst_length (s : ScalarTy) : (s.enc s.worst).length = s.maxLen := by cases s <;> decide +kernel

theorem ScalarTy.worst_numZero (s : ScalarTy) : s.numZero s.worst = false := by cases s <;> decide +kernel

theorem ElemTy.worst_dropNegZero (t : ElemTy) : t.dropNegZero t.worst = t.worst := by
  cases t with
  | scalar s =>
    show (if s.numZero s.worst then s.zero else s.worst) = s.worst
    rw [s.worst_numZero]
    rfl
  | str => rfl
  | msg => rfl

mutual
theorem ElemTy.worst_fits : (t : ElemTy) → t.Fits t.worst
  | .scalar s => by simp [ElemTy.Fits]
  | .str cap => by
    simp only [ElemTy.Fits, ElemTy.worst]
    exact Nat.le_of_eq List.length_replicate
  | .msg fs os => by
    simp only [ElemTy.Fits, ElemTy.worst]
    exact ⟨fs.worst_fits, os.worst_fits⟩
theorem Fields.worst_fits : (fs : Fields) → fs.Fits fs.worst
  | .nil => by simp [Fields.Fits]
  | .plain num t rest => by
    simp only [Fields.Fits, Fields.worst]
    exact ⟨t.worst_fits, rest.worst_fits⟩
  | .optional num t rest => by
    simp only [Fields.Fits, Fields.worst]
    exact ⟨fun x hx => Option.some.inj hx ▸ t.worst_fits, rest.worst_fits⟩
  | .repeated num cap t rest => by
    simp only [Fields.Fits, Fields.worst]
    exact ⟨⟨Nat.le_of_eq List.length_replicate, fun x hx => List.eq_of_mem_replicate hx ▸ t.worst_fits⟩, rest.worst_fits⟩
theorem Alts.worst_fits : (a : Alts) → ∀ x, a.worst = some x → a.Fits x
  | .nil, x, _ => nomatch x
  | .cons num t rest, x, h => by
    simp only [Alts.worst] at h
    split at h
    · cases h
      simp only [Alts.Fits]
      exact t.worst_fits
    · obtain ⟨y, hy, rfl⟩ := Option.map_eq_some_iff.mp h
      simp only [Alts.Fits]
      exact rest.worst_fits y hy
theorem Oneofs.worst_fits : (os : Oneofs) → os.Fits os.worst
  | .nil => by simp [Oneofs.Fits]
  | .cons a rest => by
    simp only [Oneofs.Fits, Oneofs.worst]
    exact ⟨a.worst_fits, rest.worst_fits⟩
end

mutual
theorem ElemTy.worst_canon : (t : ElemTy) → t.canon t.worst = t.worst
  | .scalar s => rfl
  | .str cap => rfl
  | .msg fs os => by
    simp only [ElemTy.canon, ElemTy.worst]
    rw [fs.worst_canon, os.worst_canon]
theorem Fields.worst_canon : (fs : Fields) → fs.canon fs.worst = fs.worst
  | .nil => rfl
  | .plain num t rest => by
    simp only [Fields.canon, Fields.worst]
    rw [t.worst_canon, t.worst_dropNegZero, rest.worst_canon]
  | .optional num t rest => by
    simp only [Fields.canon, Fields.worst, Option.map_some]
    rw [t.worst_canon, rest.worst_canon]
  | .repeated num cap t rest => by
    simp only [Fields.canon, Fields.worst, List.map_replicate]
    rw [t.worst_canon, rest.worst_canon]
theorem Alts.worst_canon : (a : Alts) → ∀ x, a.worst = some x → a.canon x = x
  | .nil, x, _ => nomatch x
  | .cons num t rest, x, h => by
    simp only [Alts.worst] at h
    split at h
    · cases h
      simp only [Alts.canon]
      rw [t.worst_canon]
    · obtain ⟨y, hy, rfl⟩ := Option.map_eq_some_iff.mp h
      simp only [Alts.canon]
      rw [rest.worst_canon y hy]
theorem Oneofs.worst_canon : (os : Oneofs) → os.canon os.worst = os.worst
  | .nil => rfl
  | .cons a rest => by
    simp only [Oneofs.canon, Oneofs.worst]
    rw [rest.worst_canon]
    cases h : a.worst with
    | none => rfl
    | some x => rw [Option.map_some, a.worst_canon x h]
end

theorem Alts.worst_none : (a : Alts) → a.worst = none → a.maxLen = 0
  | .nil, _ => rfl
  | .cons num t rest, h => by
    simp only [Alts.worst] at h
    split at h
    · cases h
    · have := rest.worst_none (Option.map_eq_none_iff.mp h)
      omega

mutual
theorem ElemTy.maxLen_of_worst : (t : ElemTy) → t.WF → t.isDflt t.worst = true → t.maxLen = 0
  | .scalar s, _, h => by cases s <;> exact absurd h (by decide)
  | .str cap, _, h => by
    simp only [ElemTy.isDflt, ElemTy.worst] at h
    have := congrArg List.length (List.isEmpty_iff.mp h)
    rw [List.length_replicate] at this
    exact this
  | .msg fs os, hw, h => by
    simp only [ElemTy.WF] at hw
    simp only [ElemTy.isDflt, ElemTy.worst, Bool.and_eq_true] at h
    simp only [ElemTy.maxLen]
    rw [fs.maxLen_of_worst hw.1 h.1, os.maxLen_of_worst hw.2.1 h.2]
theorem Fields.maxLen_of_worst : (fs : Fields) → fs.WF → fs.isDflt fs.worst = true → fs.maxLen = 0
  | .nil, _, _ => rfl
  | .plain num t rest, hw, h => by
    simp only [Fields.WF] at hw
    simp only [Fields.isDflt, Fields.worst, Bool.and_eq_true] at h
    simp only [Fields.maxLen]
    rw [t.maxLen_of_worst hw.1 h.1, rest.maxLen_of_worst hw.2 h.2]
    rfl
  | .optional num t rest, hw, h => by
    simp [Fields.isDflt, Fields.worst] at h
  | .repeated num cap t rest, hw, h => by
    simp only [Fields.WF] at hw
    simp only [Fields.isDflt, Fields.worst, Bool.and_eq_true] at h
    have := congrArg List.length (List.isEmpty_iff.mp h.1)
    rw [List.length_replicate] at this
    have : cap = 0 := this
    simp only [Fields.maxLen]
    rw [if_pos this, rest.maxLen_of_worst hw.2.2 h.2]
theorem Oneofs.maxLen_of_worst : (os : Oneofs) → os.WF → os.isDflt os.worst = true → os.maxLen = 0
  | .nil, _, _ => rfl
  | .cons a rest, hw, h => by
    simp only [Oneofs.WF] at hw
    simp only [Oneofs.isDflt, Oneofs.worst, Bool.and_eq_true] at h
    simp only [Oneofs.maxLen]
    rw [a.worst_none (Option.isNone_iff_eq_none.mp h.1), rest.maxLen_of_worst hw.2 h.2]
end

theorem flatten_replicate_length (n : Nat) (l : List Byte) : (List.replicate n l).flatten.length = n * l.length := by
  rw [List.length_flatten, List.map_replicate, List.sum_replicate_nat]

mutual
theorem ElemTy.encode_worst : (t : ElemTy) → t.WF → (t.encode t.worst).length = t.maxLen
  | .scalar s, _ => by
    simp only [ElemTy.encode, ElemTy.encodeWith, ElemTy.maxLen, ElemTy.worst]
    exact s.worst_length
  | .str cap, _ => by
    simp only [ElemTy.encode, ElemTy.encodeWith, ElemTy.maxLen, ElemTy.worst]
    exact List.length_replicate
  | .msg fs os, h => by
    simp only [ElemTy.WF] at h
    have h1 := fs.encode_worst h.1
    have h2 := os.encode_worst h.2.1
    simp only [ElemTy.encode, ElemTy.encodeWith, ElemTy.maxLen, ElemTy.worst, List.length_append]
    exact congr (congrArg _ h1) h2
theorem Fields.encode_worst : (fs : Fields) → fs.WF → (fs.encode fs.worst).length = fs.maxLen
  | .nil, _ => by simp [Fields.encode, Fields.encodeWith, Fields.maxLen]
  | .plain num t rest, h => by
    simp only [Fields.WF] at h
    have h1 := t.encode_worst h.1
    have h2 := rest.encode_worst h.2
    have h3 := t.record_length num (t.encode t.worst)
    simp only [Fields.encode, Fields.encodeWith, Fields.maxLen, Fields.worst, List.length_append]
    refine congr (congrArg _ ?_) h2
    show (if t.isDflt t.worst then [] else tag num t.wire ++ t.wrap (t.encode t.worst)).length = _
    by_cases h0 : t.maxLen = 0
    · rw [if_pos (t.isDflt_of_maxLen _ h0 t.worst_fits), if_pos h0]
      rfl
    · rw [if_neg h0, if_neg fun hd => h0 (t.maxLen_of_worst h.1 hd), h3, h1]
  | .optional num t rest, h => by
    simp only [Fields.WF] at h
    have h1 := t.encode_worst h.1
    have h2 := rest.encode_worst h.2
    have h3 := t.record_length num (t.encode t.worst)
    simp only [Fields.encode, Fields.encodeWith, Fields.maxLen, Fields.worst, List.length_append]
    refine congr (congrArg _ ?_) h2
    rw [← List.length_append, h3, h1]
  | .repeated num cap t rest, h => by
    simp only [Fields.WF] at h
    have h1 := t.encode_worst h.2.1
    have h2 := rest.encode_worst h.2.2
    have h3 := t.record_length num (t.encode t.worst)
    simp only [Fields.encode, Fields.encodeWith, Fields.maxLen, Fields.worst, List.length_append]
    refine congr (congrArg _ ?_) h2
    unfold encodeRepeated
    rw [List.map_replicate]
    by_cases hc : cap = 0
    · rw [if_pos hc, hc]
      split <;> simp
    rw [if_neg hc]
    cases hs : t.isScalar
    · simp only [Bool.false_eq_true, if_false]
      rw [List.map_replicate, flatten_replicate_length]
      rw [ElemTy.wire_of_not_scalar hs, show ∀ e, t.wrap e = lenDelim e by
        intro e; cases t <;> first | rfl | exact Bool.noConfusion hs] at h3
      rw [h3, h1]
    · simp only [if_true]
      rw [if_neg (by simp; omega), List.length_append, lenDelim, List.length_append, flatten_replicate_length, h1]
      omega
theorem Alts.encode_worst : (a : Alts) → a.WF → ∀ x, a.worst = some x → (a.encode x).length = a.maxLen
  | .nil, _, x, _ => nomatch x
  | .cons num t rest, h, x, hx => by
    simp only [Alts.WF] at h
    have h1 := t.encode_worst h.1
    have h3 := t.record_length num (t.encode t.worst)
    simp only [Alts.worst] at hx
    simp only [Alts.maxLen]
    split at hx
    · rename_i hle
      cases hx
      simp only [Alts.encode, Alts.encodeWith]
      rw [h3, h1]
      omega
    · rename_i hle
      obtain ⟨y, hy, rfl⟩ := Option.map_eq_some_iff.mp hx
      simp only [Alts.encode, Alts.encodeWith]
      have := rest.encode_worst h.2 y hy
      exact this.trans (by omega)
theorem Oneofs.encode_worst : (os : Oneofs) → os.WF → (os.encode os.worst).length = os.maxLen
  | .nil, _ => by simp [Oneofs.encode, Oneofs.encodeWith, Oneofs.maxLen]
  | .cons a rest, h => by
    simp only [Oneofs.WF] at h
    have h2 := rest.encode_worst h.2
    simp only [Oneofs.encode, Oneofs.encodeWith, Oneofs.maxLen, Oneofs.worst, List.length_append]
    refine congr (congrArg _ ?_) h2
    cases hw : a.worst with
    | none => exact (a.worst_none hw).symm
    | some x => exact a.encode_worst h.1 x hw
end

end EP
