import Verif.Spec.BufferHistory
import Verif.Proof.BufferModels

/-! # Histories of buffer operations: lemmas -/

namespace EP
variable {β : Type}

/-! ## Write buffer -/

theorem WriteFixed.push_rep (w : WriteFixed) (c : List Byte) (room : Nat) (x : Byte)
    (h : WriteFixed.model.Rep w c room) :
    ∃ w', w.push x = .ok (decide (c.length < w.cap), w') ∧ w'.cap = w.cap ∧
      WriteFixed.model.Rep w' (if c.length < w.cap then c ++ [x] else c) (w'.cap - w'.write) := by
  have h0 := h
  obtain ⟨h1, h2, h3, h4, h5⟩ := h0
  have hl : c.length = w.write := by rw [← h4]; simp [WriteFixed.bytes]; omega
  by_cases hf : w.write = w.cap
  · refine ⟨w, ?_, rfl, ?_⟩
    · show WriteBuffer.push w x = _
      rw [(WriteFixed.model.push_full w c room x h hf).1]
      simp; omega
    · rw [if_neg (by omega)]
      exact ⟨h1, h2, h3, h4, rfl⟩
  · obtain ⟨w', hp, hr⟩ := WriteFixed.model.push_ok w c room x h hf
    have hc : w'.cap = w.cap := by
      have hp : w.push x = .ok (true, w') := hp
      rw [WriteFixed.push, if_pos (by omega), arraySet_of_lt (by omega), Res.ok_bind, Res.pure_eq] at hp
      injection hp with hp
      rw [← (Prod.mk.inj hp).2]
    refine ⟨w', ?_, hc, ?_⟩
    · show WriteBuffer.push w x = _
      rw [hp]; simp; omega
    · rw [if_pos (by omega)]
      obtain ⟨a1, a2, a3, a4, a5⟩ := hr
      exact ⟨a1, a2, a3, a4, rfl⟩

theorem WriteFixed.pushBytes_rep (w : WriteFixed) (c : List Byte) (room : Nat) (bs : List Byte)
    (h : WriteFixed.model.Rep w c room) (hb : bs.length < 2147483648) :
    ∃ w', w.pushBytes bs = .ok (decide (c.length + bs.length < w.cap), w') ∧ w'.cap = w.cap ∧
      WriteFixed.model.Rep w' (if c.length + bs.length < w.cap then c ++ bs else c) (w'.cap - w'.write) := by
  obtain ⟨h1, h2, h3, h4, h5⟩ := h
  have hl : c.length = w.write := by rw [← h4]; simp [WriteFixed.bytes]; omega
  by_cases hfit : w.write + bs.length < w.cap
  · refine ⟨{ w with data := w.data.take w.write ++ bs ++ w.data.drop (w.write + bs.length), write := w.write + bs.length }, ?_, rfl, ?_⟩
    · rw [WriteFixed.pushBytes, u32_of_lt (by omega), if_pos (by omega), arrayCopy,
        if_pos (by omega), Res.ok_bind, Res.pure_eq]
      simp; omega
    · rw [if_pos (by omega)]
      refine ⟨by simp; omega, by simp; omega, h3, ?_, rfl⟩
      subst h4
      simp only [WriteFixed.bytes]
      rw [List.take_left' (by simp; omega)]
  · refine ⟨w, ?_, rfl, ?_⟩
    · rw [WriteFixed.pushBytes, u32_of_lt (by omega), if_neg (by omega), Res.pure_eq]
      simp; omega
    · rw [if_neg (by omega)]
      exact ⟨h1, h2, h3, h4, rfl⟩

/-- Every history. -/
theorem WriteFixed.run_log (cap : Nat) (ops : List WOp) (w : WriteFixed) (c : List Byte) (room : Nat)
    (hcap : w.cap = cap) (h : WriteFixed.model.Rep w c room)
    (hops : ∀ bs, .bulk bs ∈ ops → bs.length < 2147483648) :
    ∃ rs w', WriteFixed.run ops w = .ok (rs, w') ∧ w'.cap = cap ∧ logAccepts cap c ops rs ∧
      WriteFixed.model.Rep w' (logOf c ops rs) (w'.cap - w'.write) := by
  induction ops generalizing w c room with
  | nil =>
    obtain ⟨h1, h2, h3, h4, h5⟩ := h
    exact ⟨[], w, rfl, hcap, rfl, h1, h2, h3, h4, rfl⟩
  | cons op ops ih =>
    have hops' : ∀ bs, .bulk bs ∈ ops → bs.length < 2147483648 := fun bs hb => hops bs (by simp [hb])
    cases op with
    | clear =>
      obtain ⟨h1, h2, h3, h4, h5⟩ := h
      obtain ⟨rs, w', hr, hc, ha, hrep⟩ := ih w.clear [] w.cap hcap
        ⟨h1, by simp [WriteFixed.clear], h3, by simp [WriteFixed.clear, WriteFixed.bytes], by simp [WriteFixed.clear]⟩ hops'
      refine ⟨true :: rs, w', ?_, hc, ⟨rs, rfl, ha⟩, by rw [logOf]; exact hrep⟩
      rw [WriteFixed.run, hr]; rfl
    | push x =>
      obtain ⟨w1, hp, hc1, hrep1⟩ := WriteFixed.push_rep w c room x h
      obtain ⟨rs, w', hr, hc, ha, hrep⟩ := ih w1 _ _ (by omega) hrep1 hops'
      refine ⟨decide (c.length < w.cap) :: rs, w', ?_, hc, ⟨_, rs, rfl, by rw [hcap], ?_⟩, ?_⟩
      · rw [WriteFixed.run, hp, Res.ok_bind]
        dsimp only
        rw [hr]; rfl
      · simpa using ha
      · rw [logOf]; simpa using hrep
    | bulk bs =>
      obtain ⟨w1, hp, hc1, hrep1⟩ := WriteFixed.pushBytes_rep w c room bs h (hops bs (by simp))
      obtain ⟨rs, w', hr, hc, ha, hrep⟩ := ih w1 _ _ (by omega) hrep1 hops'
      refine ⟨decide (c.length + bs.length < w.cap) :: rs, w', ?_, hc,
        ⟨_, rs, rfl, by simp; omega, by simp; omega, ?_⟩, ?_⟩
      · rw [WriteFixed.run, hp, Res.ok_bind]
        dsimp only
        rw [hr]; rfl
      · simpa using ha
      · rw [logOf]; simpa using hrep

/-! ## Read buffer as a queue -/

/-- The buffer is the queue `q`. -/
structure ReadFixed.IsQueue (cap : Nat) (b : ReadFixed) (q : Queue) : Prop where
  wf : b.WF cap
  stored : b.data.take b.write = q.stored
  unread : b.unread = q.unread

theorem ReadFixed.qstep_queue (cap : Nat) (hcap : cap < 4294967296) (op : QOp) (b : ReadFixed) (q : Queue)
    (hop : ROp.Legal cap (.q op)) (h : b.IsQueue cap q) :
    ∃ b', b.qstep op = .ok ((q.step cap op).1, b') ∧ b'.IsQueue cap (q.step cap op).2 := by
  obtain ⟨hwf, hst, hun⟩ := h
  have hwf0 := hwf
  obtain ⟨h1, h2, h3, h4⟩ := hwf0
  have hul := hwf.unread_length
  have hsl : q.stored.length = b.write := by rw [← hst]; simp; omega
  have hne : ∀ (_ : b.read < b.write), b.unread = b.data[b.read]'(by omega) :: (b.data.take b.write).drop (b.read + 1) := by
    intro hlt
    have hd : b.read < (b.data.take b.write).length := by simp; omega
    rw [ReadFixed.unread, List.drop_eq_getElem_cons hd]
    simp
  have hnil : ¬ b.read < b.write → b.unread = [] := fun hlt =>
    List.eq_nil_of_length_eq_zero (by omega)
  cases op with
  | load bs =>
    simp only [ROp.Legal] at hop
    refine ⟨⟨cap, bs ++ b.data.drop bs.length, bs.length, 0⟩, ?_, ⟨rfl, by simp; omega, by simp, hop⟩, ?_, ?_⟩
    · have e : b.clear.writeData bs = .ok ⟨b.cap, bs ++ b.data.drop bs.length, 0, 0⟩ := by
        have : bs.length ≤ b.clear.data.length := by show bs.length ≤ b.data.length; omega
        simp [ReadFixed.writeData, arrayCopy, this]
        simp [ReadFixed.clear]
      rw [ReadFixed.qstep, e]
      simp [ReadFixed.setBytesWritten, Queue.step, h1, hop]
    · simp [Queue.step]
    · simp [Queue.step, ReadFixed.unread]
  | clear =>
    exact ⟨b.clear, rfl, ⟨h1, h2, Nat.le_refl _, by simp [ReadFixed.clear]⟩, by simp [ReadFixed.clear, Queue.step],
      by simp [ReadFixed.clear, Queue.step, ReadFixed.unread]⟩
  | push x =>
    simp only [ReadFixed.qstep, ReadFixed.push, Queue.step]
    by_cases hf : b.write < b.cap
    · rw [if_pos hf, if_pos (by omega), arraySet_of_lt (by omega)]
      have ht : (b.data.set b.write x).take (b.write + 1) = b.data.take b.write ++ [x] := by
        rw [List.take_add_one, List.take_set_of_le (Nat.le_refl _)]
        simp [show b.write < b.data.length by omega]
      refine ⟨{ b with data := b.data.set b.write x, write := b.write + 1 }, ?_,
        ⟨h1, by simpa using h2, by simp; omega, by simp; omega⟩, ?_, ?_⟩
      · rw [u32_of_lt (by omega)]; rfl
      · dsimp only; rw [ht, hst]
      · show ((b.data.set b.write x).take (b.write + 1)).drop b.read = _
        rw [ht, List.drop_append_of_le_length (by simp; omega)]
        rw [← hun]; rfl
    · rw [if_neg hf, if_neg (by omega)]
      exact ⟨b, rfl, hwf, hst, hun⟩
  | peek =>
    simp only [ReadFixed.qstep, ReadFixed.peek, Queue.step]
    by_cases hf : b.read < b.write
    · rw [if_pos hf, arrayGet_of_lt (by omega)]
      refine ⟨b, ?_, hwf, hst, hun⟩
      rw [← hun, hne hf]; rfl
    · rw [if_neg hf]
      refine ⟨b, ?_, hwf, hst, hun⟩
      rw [← hun, hnil hf]; rfl
  | pop =>
    simp only [ReadFixed.qstep, ReadFixed.pop, Queue.step]
    by_cases hf : b.read < b.write
    · rw [if_pos hf, arrayGet_of_lt (by omega)]
      refine ⟨{ b with read := b.read + 1 }, ?_, ⟨h1, h2, by simp; omega, h4⟩, hst, ?_⟩
      · rw [← hun, hne hf, u32_of_lt (by omega)]; rfl
      · rw [← hun, hne hf]; rfl
    · rw [if_neg hf]
      refine ⟨b, ?_, hwf, hst, ?_⟩
      · rw [← hun, hnil hf]; rfl
      · rw [← hun, hnil hf]; rfl
  | advance =>
    simp only [ReadFixed.qstep, ReadFixed.advance, Queue.step]
    by_cases hf : b.read < b.write
    · rw [if_pos hf]
      refine ⟨{ b with read := b.read + 1 }, ?_, ⟨h1, h2, by simp; omega, h4⟩, hst, ?_⟩
      · rw [← hun, hne hf, u32_of_lt (by omega)]; rfl
      · rw [← hun, hne hf]; rfl
    · rw [if_neg hf]
      refine ⟨b, ?_, hwf, hst, ?_⟩
      · rw [← hun, hnil hf]; rfl
      · rw [← hun, hnil hf]; rfl

theorem ReadFixed.qrun_queue (cap : Nat) (hcap : cap < 4294967296) (ops : List QOp) (b : ReadFixed) (q : Queue)
    (hops : ∀ bs, .load bs ∈ ops → bs.length ≤ cap) (h : b.IsQueue cap q) :
    ∃ b', ReadFixed.qrun ops b = .ok ((Queue.run cap ops q).1, b') ∧ b'.IsQueue cap (Queue.run cap ops q).2 := by
  induction ops generalizing b q with
  | nil => exact ⟨b, rfl, h⟩
  | cons op ops ih =>
    have hop : ROp.Legal cap (.q op) := by
      cases op <;> simp only [ROp.Legal]
      exact hops _ (by simp)
    obtain ⟨b1, e1, i1⟩ := ReadFixed.qstep_queue cap hcap op b q hop h
    obtain ⟨b2, e2, i2⟩ := ih b1 _ (fun bs hb => hops bs (by simp [hb])) i1
    refine ⟨b2, ?_, i2⟩
    rw [ReadFixed.qrun, e1, Res.ok_bind]
    dsimp only
    rw [e2]; rfl

/-! ## Read buffer, any history -/

/-- What holds after any history, including `set_bytes_written(n)` below the read position. -/
structure ReadFixed.Sane (cap : Nat) (b : ReadFixed) : Prop where
  cap_eq : b.cap = cap
  length_eq : b.data.length = cap
  write_le : b.write ≤ cap
  read_le : b.read ≤ cap

theorem ReadFixed.rstep_sane (cap : Nat) (hcap : cap < 4294967296) (op : ROp) (b : ReadFixed)
    (hop : op.Legal cap) (h : b.Sane cap) :
    ∃ r b', b.rstep op = .ok (r, b') ∧ b'.Sane cap := by
  obtain ⟨h1, h2, h3, h4⟩ := h
  cases op with
  | q op =>
    cases op with
    | load bs =>
      simp only [ROp.Legal] at hop
      have e : b.clear.writeData bs = .ok ⟨b.cap, bs ++ b.data.drop bs.length, 0, 0⟩ := by
        have : bs.length ≤ b.clear.data.length := by show bs.length ≤ b.data.length; omega
        simp [ReadFixed.writeData, arrayCopy, this]
        simp [ReadFixed.clear]
      simp only [ReadFixed.rstep, ReadFixed.qstep, e]
      exact ⟨_, _, rfl, h1, by simp [ReadFixed.setBytesWritten]; omega, by simp [ReadFixed.setBytesWritten]; omega,
        by simp [ReadFixed.setBytesWritten]⟩
    | clear => exact ⟨_, _, rfl, h1, h2, by simp [ReadFixed.clear], by simp [ReadFixed.clear]⟩
    | push x =>
      simp only [ReadFixed.rstep, ReadFixed.qstep, ReadFixed.push]
      split
      · rw [arraySet_of_lt (by omega)]
        exact ⟨_, _, rfl, h1, by simpa using h2, by simp only; rw [u32_of_lt (by omega)]; omega, h4⟩
      · exact ⟨_, _, rfl, h1, h2, h3, h4⟩
    | peek =>
      simp only [ReadFixed.rstep, ReadFixed.qstep, ReadFixed.peek]
      split
      · rw [arrayGet_of_lt (by omega)]
        exact ⟨_, _, rfl, h1, h2, h3, h4⟩
      · exact ⟨_, _, rfl, h1, h2, h3, h4⟩
    | pop =>
      simp only [ReadFixed.rstep, ReadFixed.qstep, ReadFixed.pop]
      split
      · rw [arrayGet_of_lt (by omega)]
        exact ⟨_, _, rfl, h1, h2, h3, by simp only; rw [u32_of_lt (by omega)]; omega⟩
      · exact ⟨_, _, rfl, h1, h2, h3, h4⟩
    | advance =>
      simp only [ReadFixed.rstep, ReadFixed.qstep, ReadFixed.advance]
      split
      · exact ⟨_, _, rfl, h1, h2, h3, by simp only; rw [u32_of_lt (by omega)]; omega⟩
      · exact ⟨_, _, rfl, h1, h2, h3, h4⟩
  | write bs =>
    simp only [ROp.Legal] at hop
    simp only [ReadFixed.rstep, ReadFixed.writeData, arrayCopy]
    rw [if_pos (by omega)]
    exact ⟨_, _, rfl, h1, by simp; omega, h3, h4⟩
  | setWritten n =>
    exact ⟨_, _, rfl, h1, h2, by simp [ReadFixed.setBytesWritten]; omega, h4⟩
  | advanceN n =>
    simp only [ReadFixed.rstep, ReadFixed.advanceN]
    split
    · exact ⟨_, _, rfl, h1, h2, h3, by simp only; omega⟩
    · exact ⟨_, _, rfl, h1, h2, h3, h4⟩

theorem ReadFixed.rrun_sane (cap : Nat) (hcap : cap < 4294967296) (ops : List ROp) (b : ReadFixed)
    (hops : ∀ op ∈ ops, op.Legal cap) (h : b.Sane cap) :
    ∃ rs b', ReadFixed.rrun ops b = .ok (rs, b') ∧ b'.Sane cap := by
  induction ops generalizing b with
  | nil => exact ⟨[], b, rfl, h⟩
  | cons op ops ih =>
    obtain ⟨r, b1, e1, i1⟩ := ReadFixed.rstep_sane cap hcap op b (hops op (by simp)) h
    obtain ⟨rs, b2, e2, i2⟩ := ih b1 (fun o ho => hops o (by simp [ho])) i1
    refine ⟨r :: rs, b2, ?_, i2⟩
    rw [ReadFixed.rrun, e1, Res.ok_bind]
    dsimp only
    rw [e2]; rfl

/-! ## Sections -/

/-- A buffer that only moves forward.  `within k b b'`: going from `b` to `b'` used at most the
budget of every section, having moved `k` bytes. -/
structure Forward (β : Type) [ReadBuffer β] where
  Inv : β → Prop
  view : β → List Byte
  fwd : Nat → Prop
  within : Nat → β → β → Prop
  refl : ∀ b, within 0 b b
  trans : ∀ k l b b' b'', within k b b' → within l b' b'' → within (k + l) b b''
  getSize_lt : ∀ b, Inv b → ReadBuffer.getSize b < 4294967296
  getSize_fwd : ∀ b n, Inv b → n ≤ ReadBuffer.getSize b → fwd n
  peek : ∀ b, Inv b → ∃ r, ReadBuffer.peek b = .ok r ∧ ∀ x, r = some x → (view b).head? = some x
  pop : ∀ b, Inv b → ∃ r b', ReadBuffer.pop b = .ok (r, b') ∧ Inv b' ∧
    ((∃ x, r = some x ∧ view b = x :: view b' ∧ within 1 b b') ∨ (r = none ∧ view b' = view b ∧ within 0 b b'))
  advance : ∀ b, Inv b → ∃ r b', ReadBuffer.advance b = .ok (r, b') ∧ Inv b' ∧
    ((∃ x, r = true ∧ view b = x :: view b' ∧ within 1 b b') ∨ (r = false ∧ view b' = view b ∧ within 0 b b'))
  advanceN : ∀ b n, Inv b → fwd n → ∃ r b' k, ReadBuffer.advanceN b n = .ok (r, b') ∧ Inv b' ∧
    k ≤ n ∧ k ≤ (view b).length ∧ view b' = (view b).drop k ∧ within k b b'

/-- `ReadBufferFixedSize` moves only forward as long as sums do not wrap. -/
def ReadFixed.forward (cap : Nat) (hcap : cap < 2147483648) : Forward ReadFixed where
  Inv b := b.WF cap
  view b := b.unread
  fwd n := cap + n < 4294967296
  within _ _ _ := True
  refl _ := trivial
  trans _ _ _ _ _ _ _ := trivial
  getSize_lt b h := (ReadFixed.model cap (by omega)).getSize_lt b h
  getSize_fwd b n h hn := (ReadFixed.model cap (by omega)).getSize_fwd hcap b n h hn
  peek b h := by
    obtain ⟨b', e, _⟩ := ReadFixed.qstep_queue cap (by omega) .peek b ⟨_, b.unread⟩ trivial ⟨h, rfl, rfl⟩
    simp only [ReadFixed.qstep, Queue.step] at e
    show ∃ r, b.peek = _ ∧ _
    cases hp : b.peek with
    | ok r => rw [hp] at e; simp at e; exact ⟨r, rfl, fun x hx => by rw [← e.1, hx]⟩
    | ub => rw [hp] at e; cases e
    | diverge => rw [hp] at e; cases e
  pop b h := by
    cases hv : b.unread with
    | nil =>
      obtain ⟨b', hp, hi, hv'⟩ := (ReadFixed.model cap (by omega)).pop_nil b h hv
      exact ⟨none, b', hp, hi, Or.inr ⟨rfl, hv', trivial⟩⟩
    | cons x xs =>
      obtain ⟨b', hp, hi, hv'⟩ := (ReadFixed.model cap (by omega)).pop_cons b x xs h hv
      exact ⟨some x, b', hp, hi, Or.inl ⟨x, rfl, congrArg (x :: ·) hv'.symm, trivial⟩⟩
  advance b h := by
    obtain ⟨b', e, hq⟩ := ReadFixed.qstep_queue cap (by omega) .advance b ⟨_, b.unread⟩ trivial ⟨h, rfl, rfl⟩
    simp only [ReadFixed.qstep, Queue.step] at e
    have hu := hq.unread
    have hw := hq.wf
    simp only [Queue.step] at hu
    show ∃ r b', b.advance = _ ∧ _
    cases hp : b.advance with
    | ok r =>
      rw [hp] at e
      simp at e
      obtain ⟨e1, e2⟩ := e
      refine ⟨r.1, r.2, rfl, by rw [e2]; exact hw, ?_⟩
      cases hv : b.unread with
      | nil => right; rw [e2, hu, hv]; simp [e1, hv]
      | cons x xs => left; refine ⟨x, ?_, ?_, trivial⟩ <;> simp [e1, hv, e2, hu]
    | ub => rw [hp] at e; cases e
    | diverge => rw [hp] at e; cases e
  advanceN b n h hf := by
    by_cases hle : n ≤ b.unread.length
    · obtain ⟨r, b', hp, hi, hv⟩ := (ReadFixed.model cap (by omega)).advanceN_le b n h hle
      exact ⟨r, b', n, hp, hi, Nat.le_refl _, hle, hv, trivial⟩
    · have hl := h.unread_length
      have hw := h.write_le; have hc := h.cap_eq; have hr := h.read_le
      refine ⟨false, b, 0, ?_, h, Nat.zero_le _, Nat.zero_le _, rfl, trivial⟩
      simp only [ReadBuffer.advanceN, ReadFixed.advanceN]
      rw [u32_of_lt (by omega), if_neg (by omega), Res.pure_eq]

/-- A section over a buffer that only moves forward. -/
def Section.forward [ReadBuffer β] (F : Forward β) : Forward (Section β) where
  Inv s := F.Inv s.buffer ∧ s.size < 4294967296 ∧ ∀ n, n ≤ s.size → F.fwd n
  view s := F.view s.buffer
  fwd _ := True
  within k s s' := k + s'.size ≤ s.size ∧ F.within k s.buffer s'.buffer
  refl s := ⟨by omega, F.refl _⟩
  trans k l s s' s'' h h' := ⟨by omega, F.trans k l _ _ _ h.2 h'.2⟩
  getSize_lt s h := h.2.1
  getSize_fwd _ _ _ _ := trivial
  peek s h := by
    simp only [ReadBuffer.peek, Section.peek]
    split
    · exact F.peek s.buffer h.1
    · exact ⟨none, rfl, nofun⟩
  pop s h := by
    obtain ⟨hi, hs, hf⟩ := h
    by_cases h0 : 0 < s.size
    · obtain ⟨r, b', hp, hi', hv⟩ := F.pop s.buffer hi
      refine ⟨r, { s with buffer := b', size := s.size - 1 }, ?_,
        ⟨hi', by simp; omega, fun n hn => hf n (by simp at hn; omega)⟩, ?_⟩
      · simp only [ReadBuffer.pop, Section.pop, if_pos h0] at *
        rw [hp]
        simp [u32sub_of_le (show 1 ≤ s.size by omega) hs]
      · rcases hv with ⟨x, h1, h2, h3⟩ | ⟨h1, h2, h3⟩
        · exact Or.inl ⟨x, h1, h2, by simp; omega, h3⟩
        · exact Or.inr ⟨h1, h2, by simp, h3⟩
    · refine ⟨none, s, ?_, ⟨hi, hs, hf⟩, Or.inr ⟨rfl, rfl, by omega, F.refl _⟩⟩
      simp [ReadBuffer.pop, Section.pop, h0]
  advance s h := by
    obtain ⟨hi, hs, hf⟩ := h
    by_cases h0 : 0 < s.size
    · obtain ⟨r, b', hp, hi', hv⟩ := F.advance s.buffer hi
      refine ⟨r, { s with buffer := b', size := s.size - 1 }, ?_,
        ⟨hi', by simp; omega, fun n hn => hf n (by simp at hn; omega)⟩, ?_⟩
      · simp only [ReadBuffer.advance, Section.advance, if_pos h0] at *
        rw [hp]
        simp [u32sub_of_le (show 1 ≤ s.size by omega) hs]
      · rcases hv with ⟨x, h1, h2, h3⟩ | ⟨h1, h2, h3⟩
        · exact Or.inl ⟨x, h1, h2, by simp; omega, h3⟩
        · exact Or.inr ⟨h1, h2, by simp, h3⟩
    · refine ⟨false, s, ?_, ⟨hi, hs, hf⟩, Or.inr ⟨rfl, rfl, by omega, F.refl _⟩⟩
      simp [ReadBuffer.advance, Section.advance, h0]
  advanceN s n h _ := by
    obtain ⟨hi, hs, hf⟩ := h
    by_cases h0 : 0 < s.size
    · obtain ⟨r, b', k, hp, hi', hk, hkl, hv, hw⟩ := F.advanceN s.buffer (min n s.size) hi (hf _ (by omega))
      refine ⟨r, { s with buffer := b', size := s.size - min n s.size }, k, ?_,
        ⟨hi', by simp; omega, fun n hn => hf n (by simp at hn; omega)⟩, by omega, hkl, hv, by simp; omega, hw⟩
      simp only [ReadBuffer.advanceN, Section.advanceN, if_pos h0] at *
      rw [show (if n ≤ s.size then n else s.size) = min n s.size by split <;> omega, hp]
      simp [u32sub_of_le (show min n s.size ≤ s.size by omega) hs]
    · refine ⟨false, s, 0, ?_, ⟨hi, hs, hf⟩, Nat.zero_le _, Nat.zero_le _, rfl, by omega, F.refl _⟩
      simp [ReadBuffer.advanceN, Section.advanceN, h0]

theorem rdStep_forward [ReadBuffer β] (F : Forward β) (op : RdOp) (b : β) (hi : F.Inv b)
    (hop : ∀ n, op = .advanceN n → F.fwd n) :
    ∃ x b' k, rdStep b op = .ok (x, b') ∧ F.Inv b' ∧ k ≤ (F.view b).length ∧ F.view b' = (F.view b).drop k ∧
      x.toList.Sublist ((F.view b).take k) ∧ F.within k b b' := by
  cases op with
  | peek =>
    obtain ⟨r, hp, _⟩ := F.peek b hi
    refine ⟨none, b, 0, ?_, hi, Nat.zero_le _, rfl, by simp, F.refl b⟩
    rw [rdStep, hp]; rfl
  | pop =>
    obtain ⟨r, b', hp, hi', hv⟩ := F.pop b hi
    rcases hv with ⟨x, h1, h2, h3⟩ | ⟨h1, h2, h3⟩
    · exact ⟨r, b', 1, hp, hi', by simp [h2], by simp [h2], by simp [h1, h2], h3⟩
    · exact ⟨r, b', 0, hp, hi', by simp, by simp [h2], by simp [h1], h3⟩
  | advance =>
    obtain ⟨r, b', hp, hi', hv⟩ := F.advance b hi
    have e : rdStep b .advance = .ok (none, b') := by rw [rdStep, hp]; rfl
    rcases hv with ⟨x, h1, h2, h3⟩ | ⟨h1, h2, h3⟩
    · exact ⟨none, b', 1, e, hi', by simp [h2], by simp [h2], by simp, h3⟩
    · exact ⟨none, b', 0, e, hi', by simp, by simp [h2], by simp, h3⟩
  | advanceN n =>
    obtain ⟨r, b', k, hp, hi', hk, hkl, hv, hw⟩ := F.advanceN b n hi (hop n rfl)
    exact ⟨none, b', k, by rw [rdStep, hp]; rfl, hi', hkl, hv, by simp, hw⟩

theorem rdRun_forward [ReadBuffer β] (F : Forward β) (ops : List RdOp) (b : β) (hi : F.Inv b)
    (hops : ∀ n, .advanceN n ∈ ops → F.fwd n) :
    ∃ xs b' k, rdRun ops b = .ok (xs, b') ∧ F.Inv b' ∧ k ≤ (F.view b).length ∧
      F.view b' = (F.view b).drop k ∧ xs.Sublist ((F.view b).take k) ∧ F.within k b b' := by
  induction ops generalizing b with
  | nil => exact ⟨[], b, 0, rfl, hi, Nat.zero_le _, rfl, by simp, F.refl b⟩
  | cons op ops ih =>
    obtain ⟨x, b1, k, e1, i1, hk, v1, s1, w1⟩ := rdStep_forward F op b hi (fun n hn => hops n (by simp [hn]))
    obtain ⟨xs, b2, l, e2, i2, hl, v2, s2, w2⟩ := ih b1 i1 (fun n hn => hops n (by simp [hn]))
    rw [v1] at hl v2 s2
    simp only [List.length_drop] at hl
    refine ⟨x.toList ++ xs, b2, k + l, ?_, i2, by omega, ?_, ?_, F.trans k l b b1 b2 w1 w2⟩
    · rw [rdRun, e1, Res.ok_bind]
      dsimp only
      rw [e2]; rfl
    · rw [v2, List.drop_drop]
    · rw [List.take_add]
      exact s1.append s2

/-- Nested sections only move forward. -/
def Nest.forward [ReadBuffer β] (F : Forward β) : (ns : List Nat) → Forward (Nest β ns)
  | [] => F
  | _ :: ns => Section.forward (Nest.forward F ns)

theorem Nest.forward_view [ReadBuffer β] (F : Forward β) (ns : List Nat) (s : Nest β ns) :
    (Nest.forward F ns).view s = F.view (Nest.base ns s) := by
  induction ns with
  | nil => rfl
  | cons n ns ih => exact ih (Section.buffer s)

theorem Nest.enter_base [ReadBuffer β] (b : β) (ns : List Nat) : Nest.base ns (Nest.enter b ns) = b := by
  induction ns with
  | nil => rfl
  | cons n ns ih => exact ih

theorem Nest.enter_inv [ReadBuffer β] (F : Forward β) (b : β) (h : F.Inv b) (ns : List Nat) :
    (Nest.forward F ns).Inv (Nest.enter b ns) := by
  induction ns with
  | nil => exact h
  | cons n ns ih =>
    have hlt := (Nest.forward F ns).getSize_lt _ ih
    refine ⟨ih, ?_, fun k hk => (Nest.forward F ns).getSize_fwd _ k ih ?_⟩
    · show min n _ < _
      omega
    · have : k ≤ min n (ReadBuffer.getSize (Nest.enter b ns)) := hk
      omega

theorem Nest.within_le [ReadBuffer β] (F : Forward β) (b : β) (ns : List Nat) (k : Nat) (s' : Nest β ns)
    (h : (Nest.forward F ns).within k (Nest.enter b ns) s') : ∀ n ∈ ns, k ≤ n := by
  induction ns with
  | nil => simp
  | cons n ns ih =>
    obtain ⟨h1, h2⟩ := h
    intro m hm
    rcases List.mem_cons.mp hm with rfl | hm
    · have : (Nest.enter b (m :: ns)).size = min m (ReadBuffer.getSize (Nest.enter b ns)) := rfl
      have h1 : k + s'.size ≤ min m (ReadBuffer.getSize (Nest.enter b ns)) := h1
      omega
    · exact ih _ h2 m hm

/-- Popping through a section delivers exactly its window. -/
theorem Section.pops [ReadBuffer β] (M : ReadModel β) (m : Nat) (b : β) (h : M.Inv b) :
    ∃ b', rdRun (List.replicate m .pop) b = .ok ((M.view b).take m, b') ∧ M.Inv b' ∧
      M.view b' = (M.view b).drop m := by
  induction m generalizing b with
  | zero => exact ⟨b, rfl, h, rfl⟩
  | succ m ih =>
    cases hv : M.view b with
    | nil =>
      obtain ⟨b1, e1, i1, v1⟩ := M.pop_nil b h hv
      obtain ⟨b2, e2, i2, v2⟩ := ih b1 i1
      refine ⟨b2, ?_, i2, by simp [v2, v1]⟩
      rw [List.replicate_succ, rdRun, rdStep, e1, Res.ok_bind]
      dsimp only
      rw [e2, v1]
      simp
    | cons x xs =>
      obtain ⟨b1, e1, i1, v1⟩ := M.pop_cons b x xs h hv
      obtain ⟨b2, e2, i2, v2⟩ := ih b1 i1
      refine ⟨b2, ?_, i2, by simp [v2, v1]⟩
      rw [List.replicate_succ, rdRun, rdStep, e1, Res.ok_bind]
      dsimp only
      rw [e2, v1]
      simp

end EP
