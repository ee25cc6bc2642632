import Verif.Props.Support
import Verif.Proof.BufferHistory

/-!
# Properties C08–C12: the buffers
-/

namespace EP
variable {β : Type}

/-! ## C08 -/

/-- **C08** for block pushes below `2^31` bytes.  Any history of operations on a new buffer runs
without undefined behaviour; the buffer holds the concatenation of the successful pushes since the
last `clear`; a byte is accepted exactly when there is room. -/
theorem C08_write_log_partial (cap : Nat) (hcap : cap < 2147483648) (ops : List WOp)
    (hops : ∀ bs, .bulk bs ∈ ops → bs.length < 2147483648) :
    ∃ rs w, WriteFixed.run ops (WriteFixed.new cap) = .ok (rs, w) ∧
      logAccepts cap [] ops rs ∧
      w.bytes = logOf [] ops rs ∧ w.bytes.length ≤ cap ∧
      WriteBuffer.getSize w = w.bytes.length ∧ WriteBuffer.getMaxSize w = cap ∧
      WriteBuffer.getSize w + WriteBuffer.getAvailableSize w = WriteBuffer.getMaxSize w ∧
      w.data.length = cap := by
  obtain ⟨rs, w, hr, hc, ha, h1, h2, h3, h4, h5⟩ :=
    WriteFixed.run_log cap ops (WriteFixed.new cap) [] cap rfl (WriteFixed.new_rep cap hcap) hops
  have hl : w.bytes.length = w.write := by simp [WriteFixed.bytes]; omega
  refine ⟨rs, w, hr, ha, h4, by omega, hl.symm, hc, ?_, by omega⟩
  show w.write + u32sub w.cap w.write = w.cap
  rw [u32sub_of_le h2 (by omega)]
  omega

example : (WriteFixed.run [.push 1, .bulk [2, 3], .push 4, .push 5, .clear, .bulk [6, 7, 8, 9], .push 10]
    (WriteFixed.new 4)).get?.map (fun r => (r.1, r.2.bytes)) =
    some ([true, true, true, false, true, false, true], [10]) := by decide +kernel

/-- **C08** (full statement): for blocks of any length a caller can pass. -/
def C08_Statement : Prop :=
  ∀ (cap : Nat), cap < 2147483648 → ∀ (ops : List WOp),
    (∀ bs, .bulk bs ∈ ops → bs.length < 4294967296) →
    ∃ rs w, WriteFixed.run ops (WriteFixed.new cap) = .ok (rs, w) ∧ w.bytes = logOf [] ops rs

/-- **C08 is false** for blocks near `2^32` bytes: `write_index_ + length` wraps, the check passes
and `memcpy` writes past the array. -/
theorem C08_false : ¬ C08_Statement := by
  intro h
  obtain ⟨bs, hbs⟩ : ∃ bs : List Byte, bs.length = 4294967295 :=
    ⟨List.replicate 4294967295 0, List.length_replicate⟩
  obtain ⟨rs, w, h, -⟩ := h 4 (by decide) [.push 1, .bulk bs] (by
    intro bs' hbs'
    simp at hbs'
    rw [hbs', hbs]; decide)
  have h1 : (WriteFixed.new 4).push 1 = .ok (true, ⟨4, [1, 0, 0, 0], 1⟩) := rfl
  rw [WriteFixed.run, h1, Res.ok_bind] at h
  dsimp only at h
  rw [WriteFixed.run, WriteFixed.pushBytes] at h
  simp only [hbs, arrayCopy, List.length_cons, List.length_nil] at h
  rw [if_pos (by decide), if_neg (by decide)] at h
  cases h

/-- **C08**, exactly: pushing a block onto a buffer of less than `2^31` bytes is undefined behaviour if
and only if `write position + length` wraps; if it does not, the block is appended whole or refused. -/
theorem C08_block_iff (w : WriteFixed) (c : List Byte) (room : Nat) (bs : List Byte)
    (hw : WriteFixed.model.Rep w c room) (hbs : bs.length < 4294967296) :
    (w.pushBytes bs = .ub ↔ 4294967296 ≤ c.length + bs.length) ∧
    (c.length + bs.length < 4294967296 →
      (bs.length < room ∧ ∃ w', w.pushBytes bs = .ok (true, w') ∧ WriteFixed.model.Rep w' (c ++ bs) (room - bs.length)) ∨
      (room ≤ bs.length ∧ w.pushBytes bs = .ok (false, w))) := by
  obtain ⟨h1, h2, h3, h4, h5⟩ := hw
  have hl : c.length = w.write := by rw [← h4]; simp [WriteFixed.bytes]; omega
  by_cases hwrap : 4294967296 ≤ c.length + bs.length
  · have e : u32 (w.write + bs.length) = w.write + bs.length - 4294967296 := by
      show (w.write + bs.length) % 4294967296 = _
      omega
    refine ⟨⟨fun _ => hwrap, fun _ => ?_⟩, fun h => by omega⟩
    rw [WriteFixed.pushBytes, e, if_pos (by omega), arrayCopy, if_neg (by omega)]
    rfl
  · rw [WriteFixed.pushBytes, u32_of_lt (by omega)]
    by_cases hfit : w.write + bs.length < w.cap
    · rw [if_pos hfit, arrayCopy, if_pos (by omega), Res.ok_bind, Res.pure_eq]
      refine ⟨⟨nofun, fun h => absurd h hwrap⟩, fun _ => Or.inl ⟨by omega, _, rfl, ?_⟩⟩
      refine ⟨by simp; omega, by simp; omega, h3, ?_, by simp; omega⟩
      subst h4
      simp only [WriteFixed.bytes]
      rw [List.take_left' (by simp; omega)]
    · rw [if_neg hfit]
      exact ⟨⟨nofun, fun h => absurd h hwrap⟩, fun _ => Or.inr ⟨by omega, rfl⟩⟩

/-- In an empty buffer no block is undefined behaviour; after one byte a block of `2^32 - 1` bytes is. -/
example (bs : List Byte) (h : bs.length < 4294967296) : (WriteFixed.new 4).pushBytes bs ≠ .ub := fun e =>
  absurd ((C08_block_iff _ [] 4 bs (WriteFixed.new_rep 4 (by decide)) h).1.mp e) (by simp; omega)
example : WriteFixed.model.Rep ⟨4, [1, 0, 0, 0], 1⟩ [1] 3 := ⟨rfl, by decide, by decide, rfl, rfl⟩

/-! ## C09 -/

/-- **C09** (full statement). -/
def C09_Statement : Prop :=
  ∀ (w : WriteFixed) (c : List Byte) (room : Nat) (bs : List Byte), WriteFixed.model.Rep w c room →
    bs.length < 2147483648 →
    ((∃ w', w.pushBytes bs = .ok (true, w')) ↔ bs.length ≤ WriteBuffer.getAvailableSize w)

/-- **C09 is false**: four bytes are refused by an empty buffer of four bytes. -/
theorem C09_false : ¬ C09_Statement := by
  intro h
  obtain ⟨w', hw⟩ := (h (WriteFixed.new 4) [] 4 [1, 2, 3, 4] (WriteFixed.new_rep 4 (by decide)) (by decide)).mpr
    (by decide)
  have : (WriteFixed.new 4).pushBytes [1, 2, 3, 4] = .ok (false, WriteFixed.new 4) := rfl
  rw [this] at hw
  cases hw

/-- **C09**, what does hold: success exactly when strictly less than the available size is pushed;
otherwise `false` and nothing changes. -/
theorem C09_bulk_push_partial (w : WriteFixed) (c : List Byte) (room : Nat) (bs : List Byte)
    (h : WriteFixed.model.Rep w c room) (hb : bs.length < 2147483648) :
    ((∃ w', w.pushBytes bs = .ok (true, w')) ↔ bs.length < WriteBuffer.getAvailableSize w) ∧
    (¬ bs.length < WriteBuffer.getAvailableSize w → w.pushBytes bs = .ok (false, w)) ∧
    (∀ w', w.pushBytes bs = .ok (true, w') → w'.bytes = w.bytes ++ bs) := by
  have h0 := h
  obtain ⟨h1, h2, h3, h4, h5⟩ := h0
  have hl : c.length = w.write := by rw [← h4]; simp [WriteFixed.bytes]; omega
  have hav : WriteBuffer.getAvailableSize w = w.cap - w.write := by
    show u32sub w.cap w.write = _
    rw [u32sub_of_le h2 (by omega)]
  obtain ⟨w', hp, hc, hr⟩ := WriteFixed.pushBytes_rep w c room bs h hb
  rw [hav]
  refine ⟨?_, ?_, ?_⟩
  · rw [hp]
    constructor
    · rintro ⟨w'', he⟩
      injection he with he
      have := (Prod.mk.inj he).1
      simp at this; omega
    · intro hlt
      exact ⟨w', by simp; omega⟩
  · intro hn
    rw [WriteFixed.pushBytes, u32_of_lt (by omega), if_neg (by omega), Res.pure_eq]
  · intro w'' he
    rw [hp] at he
    injection he with he
    obtain ⟨e1, e2⟩ := Prod.mk.inj he
    simp at e1
    rw [if_pos e1] at hr
    rw [← e2, hr.2.2.2.1, h4]

/-- **C09**, exactly the lengths: the answer is right for every length but that of all the room there is. -/
theorem C09_iff (w : WriteFixed) (c : List Byte) (room : Nat) (bs : List Byte)
    (h : WriteFixed.model.Rep w c room) (hb : bs.length < 2147483648) :
    ((∃ w', w.pushBytes bs = .ok (true, w')) ↔ bs.length ≤ WriteBuffer.getAvailableSize w) ↔
      bs.length ≠ WriteBuffer.getAvailableSize w := by
  rw [(C09_bulk_push_partial w c room bs h hb).1]
  omega

/-- An empty buffer of four bytes: right for three and for five bytes. -/
example : ((∃ w', (WriteFixed.new 4).pushBytes [1, 2, 3] = .ok (true, w')) ↔ 3 ≤ WriteBuffer.getAvailableSize (WriteFixed.new 4)) ∧
    ((∃ w', (WriteFixed.new 4).pushBytes [1, 2, 3, 4, 5] = .ok (true, w')) ↔
      5 ≤ WriteBuffer.getAvailableSize (WriteFixed.new 4)) :=
  ⟨(C09_iff _ [] 4 [1, 2, 3] (WriteFixed.new_rep 4 (by decide)) (by decide)).mpr (by decide),
    (C09_iff _ [] 4 [1, 2, 3, 4, 5] (WriteFixed.new_rep 4 (by decide)) (by decide)).mpr (by decide)⟩

/-! ## C10 -/

/-- **C10**, as a queue.  Any history of loading, `clear`, `push`, `peek`, `pop`, `advance` gives the
outputs of the reference queue, without undefined behaviour. -/
theorem C10_read_fifo (cap : Nat) (hcap : cap < 4294967296) (ops : List QOp)
    (hops : ∀ bs, .load bs ∈ ops → bs.length ≤ cap) :
    ∃ b, ReadFixed.qrun ops (ReadFixed.new cap) = .ok ((Queue.run cap ops ⟨[], []⟩).1, b) ∧
      b.unread = (Queue.run cap ops ⟨[], []⟩).2.unread ∧
      ReadBuffer.getSize b = (Queue.run cap ops ⟨[], []⟩).2.stored.length ∧
      ReadBuffer.getMaxSize b = cap := by
  obtain ⟨b, e, hq⟩ := ReadFixed.qrun_queue cap hcap ops (ReadFixed.new cap) ⟨[], []⟩ hops
    ⟨⟨rfl, by simp [ReadFixed.new], by simp [ReadFixed.new], by simp [ReadFixed.new]⟩, by simp [ReadFixed.new],
      by simp [ReadFixed.new, ReadFixed.unread]⟩
  refine ⟨b, e, hq.unread, ?_, hq.wf.cap_eq⟩
  rw [← hq.stored]
  have h1 := hq.wf.length_eq
  have h2 := hq.wf.write_le
  show b.write = _
  simp; omega

example : (Queue.run 3 [.load [1, 2], .pop, .push 3, .push 4, .advance, .peek, .pop, .pop] ⟨[], []⟩).1 =
    [.none, .byte (some 1), .flag true, .flag false, .flag true, .byte (some 3), .byte (some 3), .byte none] := by
  decide +kernel

/-- **C10**, any history with any arguments, `set_bytes_written(n)` (also below the read position) and
`advance(n)` included: never an access outside the array, and a read then delivers the stored byte at
the read position, or fails when the read position has reached the number of stored bytes. -/
theorem C10_read_any (cap : Nat) (hcap : cap < 4294967296) (ops : List ROp) (hops : ∀ op ∈ ops, op.Legal cap) :
    ∃ rs b, ReadFixed.rrun ops (ReadFixed.new cap) = .ok (rs, b) ∧
      b.data.length = cap ∧ b.write ≤ cap ∧ b.read ≤ cap ∧
      b.peek = .ok (if b.read < b.write then b.data[b.read]? else none) ∧
      (∃ b', b.pop = .ok (if b.read < b.write then b.data[b.read]? else none, b') ∧
        b' = { b with read := if b.read < b.write then b.read + 1 else b.read }) := by
  obtain ⟨rs, b, e, h1, h2, h3, h4⟩ := ReadFixed.rrun_sane cap hcap ops (ReadFixed.new cap) hops
    ⟨rfl, by simp [ReadFixed.new], by simp [ReadFixed.new], by simp [ReadFixed.new]⟩
  refine ⟨rs, b, e, h2, h3, h4, ?_, _, ?_, rfl⟩
  · rw [ReadFixed.peek]
    split
    · rw [arrayGet_of_lt (by omega)]
      simp [List.getElem?_eq_getElem (show b.read < b.data.length by omega)]
    · rfl
  · rw [ReadFixed.pop]
    split
    · rw [arrayGet_of_lt (by omega), u32_of_lt (by omega)]
      simp [List.getElem?_eq_getElem (show b.read < b.data.length by omega)]
    · rfl

/-- A history that leaves the read position behind the stored bytes. -/
example : (ReadFixed.rrun [.q (.load [1, 2, 3]), .advanceN 2, .setWritten 1, .q .pop, .q (.push 9), .q .pop,
    .setWritten 3, .q .pop] (ReadFixed.new 4)).get?.map (·.1) =
    some [.none, .flag true, .none, .byte none, .flag true, .byte none, .none, .byte (some 3)] := by
  decide +kernel

/-! ## C11 -/

/-- **C11** (full statement). -/
def C11_Statement : Prop :=
  ∀ (cap : Nat) (b : ReadFixed) (n : Nat), cap < 4294967296 → b.WF cap → n < 4294967296 →
    ∃ r b', b.advanceN n = .ok (r, b') ∧ b.read ≤ b'.read ∧ b'.read ≤ b.read + n ∧ b'.read ≤ b.write ∧
      (r = true ↔ n ≤ b.write - b.read)

/-- **C11 is false**: at read position 6 of 6 stored bytes `advance(2^32 - 6)` succeeds and rewinds to
position 0. -/
theorem C11_false : ¬ C11_Statement := by
  intro h
  obtain ⟨r, b', h1, h2, -⟩ := h 6 ⟨6, [1, 2, 3, 4, 5, 6], 6, 6⟩ 4294967290 (by decide)
    ⟨rfl, rfl, by decide, by decide⟩ (by decide)
  have : ReadFixed.advanceN ⟨6, [1, 2, 3, 4, 5, 6], 6, 6⟩ 4294967290 =
    .ok (true, ⟨6, [1, 2, 3, 4, 5, 6], 6, 0⟩) := rfl
  rw [this] at h1
  injection h1 with h1
  rw [← (Prod.mk.inj h1).2] at h2
  exact absurd h2 (by decide)

/-- **C11** holds when `read position + n` does not wrap, in particular for every `n ≤ 2^31` when the
buffer is smaller than `2^31` bytes. -/
theorem C11_advance_partial (cap : Nat) (b : ReadFixed) (n : Nat) (h : b.WF cap)
    (hn : b.read + n < 4294967296) :
    ∃ r b', b.advanceN n = .ok (r, b') ∧ b'.WF cap ∧ b.read ≤ b'.read ∧ b'.read ≤ b.read + n ∧
      (r = true ↔ n ≤ b.unread.length) ∧
      b'.unread = if n ≤ b.unread.length then b.unread.drop n else b.unread := by
  have hl := h.unread_length
  have hw := h.write_le; have hc := h.cap_eq; have hr := h.read_le
  simp only [ReadFixed.advanceN]
  rw [u32_of_lt hn]
  by_cases hle : n ≤ b.unread.length
  · rw [if_pos (by omega)]
    refine ⟨true, _, rfl, ⟨hc, h.length_eq, by simp; omega, hw⟩, by simp, by simp, by simp [hle], ?_⟩
    rw [if_pos hle]
    simp [ReadFixed.unread, List.drop_drop]
  · rw [if_neg (by omega)]
    refine ⟨false, b, rfl, h, Nat.le_refl _, by omega, by simp; omega, by rw [if_neg hle]⟩

/-- **C11**, exactly: `advance(n)` does what it should if and only if `read position + n` does not wrap.
If it wraps the call succeeds and moves the read position back by `2^32 - n` bytes, so that these are
read again. -/
theorem C11_advance_iff (cap : Nat) (b : ReadFixed) (n : Nat) (hcap : cap < 4294967296) (h : b.WF cap)
    (hn : n < 4294967296) :
    ((∃ r b', b.advanceN n = .ok (r, b') ∧ b.read ≤ b'.read ∧ b'.read ≤ b.read + n ∧ b'.read ≤ b.write ∧
      (r = true ↔ n ≤ b.write - b.read)) ↔ b.read + n < 4294967296) ∧
    (4294967296 ≤ b.read + n → ∃ b', b.advanceN n = .ok (true, b') ∧ b'.WF cap ∧
      b'.read + (4294967296 - n) = b.read ∧ b'.read < b.read ∧
      b'.unread = (b.data.take b.write).drop (b.read - (4294967296 - n))) := by
  have hw := h.write_le; have hc := h.cap_eq; have hr := h.read_le
  have wrap : 4294967296 ≤ b.read + n → ∃ b', b.advanceN n = .ok (true, b') ∧ b'.WF cap ∧
      b'.read + (4294967296 - n) = b.read ∧ b'.read < b.read ∧
      b'.unread = (b.data.take b.write).drop (b.read - (4294967296 - n)) := by
    intro hge
    have e : u32 (b.read + n) = b.read - (4294967296 - n) := by
      show (b.read + n) % 4294967296 = _
      omega
    simp only [ReadFixed.advanceN]
    rw [e, if_pos (by omega)]
    exact ⟨_, rfl, ⟨hc, h.length_eq, by show _ ≤ b.write; dsimp only; omega, hw⟩, by dsimp only; omega, by dsimp only; omega, rfl⟩
  refine ⟨⟨?_, ?_⟩, wrap⟩
  · rintro ⟨r, b', h1, h2, _⟩
    apply Classical.byContradiction
    intro hge
    obtain ⟨b2, h3, _, _, h4, _⟩ := wrap (by omega)
    rw [h1] at h3
    injection h3 with h3
    have h3 : b' = b2 := congrArg Prod.snd h3
    rw [h3] at h2
    omega
  · intro hlt
    obtain ⟨r, b', h1, h2, h3, h4, h5, h6⟩ := C11_advance_partial cap b n h hlt
    have hl := h.unread_length
    refine ⟨r, b', h1, h3, h4, ?_, by rw [h5, hl]⟩
    simp only [ReadFixed.advanceN] at h1
    split at h1
    · cases h1; dsimp only; omega
    · cases h1; exact hr

example : (ReadFixed.mk 6 [1, 2, 3, 4, 5, 6] 6 4).WF 6 := ⟨rfl, rfl, by decide, by decide⟩
example : (ReadFixed.advanceN ⟨6, [1, 2, 3, 4, 5, 6], 6, 4⟩ 4294967293).get?.map (fun r => (r.1, r.2.unread)) =
    some (true, [2, 3, 4, 5, 6]) := by decide +kernel

example : (ReadFixed.advanceN (ReadFixed.holding 8 [1, 2, 3]) 2).get?.map (fun r => (r.1, r.2.unread)) =
    some (true, [3]) := by decide +kernel

/-! ## C12 -/

/-- **C12**.  Sections opened over a buffer at any nesting depth with any declared sizes: whatever
reads are made through the innermost one, the underlying buffer only moves forward, by at most the
smallest declared size; the bytes delivered are bytes it moved over, in order. -/
theorem C12_section_window [ReadBuffer β] (F : Forward β) (b : β) (hb : F.Inv b) (ns : List Nat)
    (hns : ns ≠ []) (ops : List RdOp) :
    ∃ xs s k, rdRun ops (Nest.enter b ns) = .ok (xs, s) ∧
      F.view (Nest.base ns s) = (F.view b).drop k ∧ k ≤ (F.view b).length ∧ (∀ n ∈ ns, k ≤ n) ∧
      xs.Sublist ((F.view b).take k) ∧ (∀ n ∈ ns, xs.length ≤ n) := by
  obtain ⟨xs, s, k, e, i, hk, hv, hs, hw⟩ := rdRun_forward (Nest.forward F ns) ops (Nest.enter b ns)
    (Nest.enter_inv F b hb ns) (by
      intro n _
      cases ns with
      | nil => exact absurd rfl hns
      | cons => trivial)
  rw [Nest.forward_view, Nest.enter_base] at hk hs
  rw [Nest.forward_view, Nest.forward_view, Nest.enter_base] at hv
  have hle := Nest.within_le F b ns k s hw
  refine ⟨xs, s, k, e, hv, hk, hle, hs, fun n hn => ?_⟩
  have h1 := hs.length_le
  rw [List.length_take] at h1
  have h2 := hle n hn
  omega

/-- The buffer of the library is such a buffer. -/
example (cap : Nat) (hcap : cap < 2147483648) : (ReadFixed.forward cap hcap).Inv (ReadFixed.new cap) :=
  ⟨rfl, by simp [ReadFixed.new], by simp [ReadFixed.new], by simp [ReadFixed.new]⟩

/-- **C12**, completeness: reading through a section of declared size `n` one byte after another
delivers exactly the next `n` bytes (or all there are). -/
theorem C12_section_delivers [ReadBuffer β] (M : ReadModel β) (b : β) (hb : M.Inv b) (n m : Nat) :
    ∃ s, rdRun (List.replicate m .pop) (Section.new b n) = .ok (((M.view b).take n).take m, s) := by
  obtain ⟨s, e, _⟩ := Section.pops (Section.model M (M.view b)) m (Section.new b n) (Section.new_inv M b n hb)
  refine ⟨s, ?_⟩
  rw [e]
  have h1 := M.getSize_ge b hb
  have : (Section.model M (M.view b)).view (Section.new b n) = (M.view b).take n := by
    show (M.view b).take (min n (ReadBuffer.getSize b)) = _
    by_cases h : n ≤ ReadBuffer.getSize b
    · rw [Nat.min_eq_left h]
    · rw [Nat.min_eq_right (by omega), List.take_of_length_le h1, List.take_of_length_le (by omega)]
  rw [this]

/-- Three levels; the middle window is the smallest. -/
example : (rdRun [.pop, .advanceN 100, .pop] (Nest.enter (ReadFixed.holding 8 [1, 2, 3, 4, 5]) [4, 2, 3])).get?.map
    (fun r => (r.1, (Nest.base [4, 2, 3] r.2).unread)) = some ([1], [3, 4, 5]) := rfl

end EP
