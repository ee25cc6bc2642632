import Verif.Model.Schema

/-!
# Decoding uses the buffer only through its interface

Two buffers, of the same class or of two, that answer alike now and after every further call: decoding from them gives the
same error and object, is undefined for both or for neither, and ends for both or for neither.
-/

namespace EP

/-- The same outcome, with related results. -/
def Res.Alike {α α' : Type} (Q : α → α' → Prop) : Res α → Res α' → Prop
  | .ok a, .ok b => Q a b
  | .ub, .ub => True
  | .diverge, .diverge => True
  | _, _ => False

namespace Res.Alike
variable {α α' γ γ' : Type} {Q : α → α' → Prop} {P : γ → γ' → Prop}

theorem bind {a : Res α} {b : Res α'} {f : α → Res γ} {g : α' → Res γ'} (h : Alike Q a b)
    (hf : ∀ x y, Q x y → Alike P (f x) (g y)) : Alike P (a >>= f) (b >>= g) := by
  match a, b, h with
  | .ok a, .ok b, h => exact hf a b h
  | .ub, .ub, _ => trivial
  | .diverge, .diverge, _ => trivial

theorem same {a : Res α} {f : α → Res γ} {g : α → Res γ'} (hf : ∀ x, Alike P (f x) (g x)) :
    Alike P (a >>= f) (a >>= g) := by
  cases a with
  | ok a => exact hf a
  | ub => trivial
  | diverge => trivial

theorem ite {p : Prop} [Decidable p] {a b : Res α} {a' b' : Res α'} (h : Alike Q a a') (h' : Alike Q b b') :
    Alike Q (if p then a else b) (if p then a' else b') := by
  split <;> assumption

end Res.Alike

/-- The same for a `switch` in which no label may match. -/
def Option.Alike {α α' : Type} (Q : α → α' → Prop) : Option (Res α) → Option (Res α') → Prop
  | none, none => True
  | some a, some b => Res.Alike Q a b
  | _, _ => False

theorem Option.Alike.ite {α α' : Type} {Q : α → α' → Prop} {p : Prop} [Decidable p] {a b : Option (Res α)}
    {a' b' : Option (Res α')} (h : Option.Alike Q a a') (h' : Option.Alike Q b b') :
    Option.Alike Q (if p then a else b) (if p then a' else b') := by
  split <;> assumption

/-- Two sorts of buffers and when they answer alike. -/
structure Bisim (β γ : Type) [ReadBuffer β] [ReadBuffer γ] where
  R : β → γ → Prop
  size : ∀ {b c}, R b c → ReadBuffer.getSize b = ReadBuffer.getSize c
  pop : ∀ {b c}, R b c → Res.Alike (fun p q => p.1 = q.1 ∧ R p.2 q.2) (ReadBuffer.pop b) (ReadBuffer.pop c)
  advance : ∀ {b c} (n : Nat), R b c →
    Res.Alike (fun p q => p.1 = q.1 ∧ R p.2 q.2) (ReadBuffer.advanceN b n) (ReadBuffer.advanceN c n)

namespace Bisim
variable {β γ : Type} [ReadBuffer β] [ReadBuffer γ] (S : Bisim β γ)

/-- The same first component and buffers that answer alike. -/
def Two {α : Type} (p : α × β) (q : α × γ) : Prop := p.1 = q.1 ∧ S.R p.2 q.2

/-- The same error and object and buffers that answer alike. -/
def Out {σ : Type} (p : Error × β × σ) (q : Error × γ × σ) : Prop := p.1 = q.1 ∧ S.R p.2.1 q.2.1 ∧ p.2.2 = q.2.2

/-- Sections of buffers that answer alike. -/
def sect : Bisim (Section β) (Section γ) where
  R s s' := S.R s.buffer s'.buffer ∧ s.size = s'.size
  size h := h.2
  pop {s s'} h := by
    show Res.Alike _ (Section.pop s) (Section.pop s')
    unfold Section.pop
    rw [h.2]
    refine .ite (.bind (S.pop h.1) fun p q hq => ?_) ⟨rfl, h⟩
    exact ⟨hq.1, hq.2, rfl⟩
  advance {s s'} n h := by
    show Res.Alike _ (Section.advanceN s n) (Section.advanceN s' n)
    unfold Section.advanceN
    rw [h.2]
    refine .ite (.bind (S.advance _ h.1) fun p q hq => ?_) ⟨rfl, h⟩
    exact ⟨hq.1, hq.2, rfl⟩

variable {b : β} {c : γ}

theorem new (h : S.R b c) (n : Nat) : S.sect.R (Section.new b n) (Section.new c n) :=
  ⟨h, by simp only [Section.new, S.size h]⟩

theorem varintLoop {w : Nat} (n i : Nat) (v : BitVec w) (h : S.R b c) :
    Res.Alike S.Two (deserializeVarintLoop n i v b) (deserializeVarintLoop n i v c) := by
  induction n generalizing i v b c with
  | zero => trivial
  | succ n ih =>
    unfold deserializeVarintLoop
    refine .bind (S.pop h) fun p q hq => ?_
    obtain ⟨r, b⟩ := p
    obtain ⟨r', c⟩ := q
    obtain ⟨rfl, hq⟩ : r = r' ∧ S.R b c := hq
    cases r with
    | none => exact ⟨rfl, hq⟩
    | some x => exact .ite (ih _ _ hq) ⟨rfl, hq⟩

theorem varint (w : Nat) (h : S.R b c) : Res.Alike S.Two (deserializeVarint w b) (deserializeVarint w c) := by
  unfold deserializeVarint
  refine .bind (S.varintLoop _ _ _ h) fun p q hq => ?_
  obtain ⟨r, b⟩ := p
  obtain ⟨r', c⟩ := q
  obtain ⟨rfl, hq⟩ : r = r' ∧ S.R b c := hq
  cases r with
  | none => exact ⟨rfl, hq⟩
  | some x => exact .ite ⟨rfl, hq⟩ ⟨rfl, hq⟩

theorem tag (h : S.R b c) : Res.Alike S.Two (deserializeTag b) (deserializeTag c) := by
  unfold deserializeTag
  refine .bind (S.varint _ h) fun p q hq => ?_
  obtain ⟨r, b⟩ := p
  obtain ⟨r', c⟩ := q
  obtain ⟨rfl, hq⟩ : r = r' ∧ S.R b c := hq
  cases r with
  | error e => exact ⟨rfl, hq⟩
  | ok x =>
    dsimp only
    split <;> exact ⟨rfl, hq⟩

theorem fixedLoop {w : Nat} (n i : Nat) (v : BitVec w) (h : S.R b c) :
    Res.Alike S.Two (deserializeFixedLoop n i v b) (deserializeFixedLoop n i v c) := by
  induction n generalizing i v b c with
  | zero => exact ⟨rfl, h⟩
  | succ n ih =>
    unfold deserializeFixedLoop
    refine .bind (S.pop h) fun p q hq => ?_
    obtain ⟨r, b⟩ := p
    obtain ⟨r', c⟩ := q
    obtain ⟨rfl, hq⟩ : r = r' ∧ S.R b c := hq
    cases r with
    | none => exact ⟨rfl, hq⟩
    | some x => exact ih _ _ hq

theorem fixed (w : Nat) (h : S.R b c) : Res.Alike S.Two (deserializeFixed w b) (deserializeFixed w c) := by
  unfold deserializeFixed
  refine .bind (S.fixedLoop _ _ _ h) fun p q hq => ?_
  obtain ⟨r, b⟩ := p
  obtain ⟨r', c⟩ := q
  obtain ⟨rfl, hq⟩ : r = r' ∧ S.R b c := hq
  cases r <;> exact ⟨rfl, hq⟩

theorem mapped {α δ : Type} {f : Except Error α → Except Error δ} {a : Res (Except Error α × β)}
    {a' : Res (Except Error α × γ)} (h : Res.Alike S.Two a a') :
    Res.Alike S.Two (a >>= fun p => pure (f p.1, p.2)) (a' >>= fun p => pure (f p.1, p.2)) :=
  .bind h fun _ _ hq => ⟨congrArg f hq.1, hq.2⟩

theorem bool (h : S.R b c) : Res.Alike S.Two (deserializeBool b) (deserializeBool c) := by
  unfold deserializeBool
  refine .bind (S.pop h) fun p q hq => ?_
  obtain ⟨r, b⟩ := p
  obtain ⟨r', c⟩ := q
  obtain ⟨rfl, hq⟩ : r = r' ∧ S.R b c := hq
  cases r <;> exact ⟨rfl, hq⟩

theorem decode (s : ScalarTy) (h : S.R b c) : Res.Alike S.Two (s.decode b) (s.decode c) := by
  cases s <;> first | exact S.varint _ h | exact S.fixed _ h | exact S.bool h | exact S.mapped (S.varint _ h)

theorem scalar (s : ScalarTy) (old : s.Val) (h : S.R b c) : Res.Alike S.Out (s.deserialize b old) (s.deserialize c old) := by
  unfold ScalarTy.deserialize
  refine .bind (S.decode s h) fun p q hq => ?_
  obtain ⟨r, b⟩ := p
  obtain ⟨r', c⟩ := q
  obtain ⟨rfl, hq⟩ : r = r' ∧ S.R b c := hq
  cases r <;> exact ⟨rfl, hq, rfl⟩

theorem readLoop (n : Nat) (x : StrObj) (h : S.R b c) :
    Res.Alike (fun p q => S.R p.1 q.1 ∧ p.2 = q.2) (StrObj.readLoop n b x) (StrObj.readLoop n c x) := by
  induction n generalizing x b c with
  | zero => exact ⟨h, rfl⟩
  | succ n ih =>
    unfold StrObj.readLoop
    refine .bind (S.pop h) fun p q hq => ?_
    obtain ⟨r, b⟩ := p
    obtain ⟨r', c⟩ := q
    obtain ⟨rfl, hq⟩ : r = r' ∧ S.R b c := hq
    cases r with
    | none => exact ⟨hq, rfl⟩
    | some x => exact .same fun d => ih _ hq

theorem str (cap : Nat) (x : StrObj) (h : S.R b c) :
    Res.Alike S.Out (StrObj.deserialize cap b x) (StrObj.deserialize cap c x) := by
  unfold StrObj.deserialize
  refine .bind (S.varint _ h) fun p q hq => ?_
  obtain ⟨r, b⟩ := p
  obtain ⟨r', c⟩ := q
  obtain ⟨rfl, hq⟩ : r = r' ∧ S.R b c := hq
  cases r with
  | error e => exact ⟨rfl, hq, rfl⟩
  | ok v =>
    refine .ite (.bind (S.readLoop _ _ hq) fun p q hq => ?_) ⟨rfl, hq, rfl⟩
    obtain ⟨b, x⟩ := p
    obtain ⟨c, x'⟩ := q
    obtain ⟨hq, rfl⟩ : S.R b c ∧ x = x' := hq
    exact .ite ⟨rfl, hq, rfl⟩ ⟨rfl, hq, rfl⟩

theorem skip (wt : WireType) (h : S.R b c) : Res.Alike S.Two (skipUnknownField b wt) (skipUnknownField c wt) := by
  have two : ∀ {α : Type} {a : Res (Except Error α × β)} {a' : Res (Except Error α × γ)}, Res.Alike S.Two a a' →
      Res.Alike S.Two (a >>= fun p => pure (errOf p.1, p.2)) (a' >>= fun p => pure (errOf p.1, p.2)) :=
    fun h => .bind h fun _ _ hq => ⟨congrArg errOf hq.1, hq.2⟩
  cases wt with
  | varint => exact two (S.varint _ h)
  | fixed64 => exact two (S.fixed _ h)
  | fixed32 => exact two (S.fixed _ h)
  | startGroup => exact ⟨rfl, h⟩
  | endGroup => exact ⟨rfl, h⟩
  | lengthDelimited =>
    show Res.Alike _ (skipLengthDelimited b) (skipLengthDelimited c)
    unfold skipLengthDelimited
    refine .bind (S.varint _ h) fun p q hq => ?_
    obtain ⟨r, b⟩ := p
    obtain ⟨r', c⟩ := q
    obtain ⟨rfl, hq⟩ : r = r' ∧ S.R b c := hq
    cases r with
    | error e => exact ⟨rfl, hq⟩
    | ok v => exact .bind (S.advance _ hq) fun _ _ hq => ⟨rfl, hq.2⟩

end Bisim

/-- Decoding with this class uses the buffer only through its interface. -/
structure FieldClass.Opaque (C : FieldClass) : Prop where
  des : ∀ {β γ : Type} [ReadBuffer β] [ReadBuffer γ] (S : Bisim β γ) (n : Nat) {b : β} {c : γ} (x : C.State), S.R b c →
    Res.Alike S.Out (C.deserialize n b x) (C.deserialize n c x)
  check : ∀ {β γ : Type} [ReadBuffer β] [ReadBuffer γ] (S : Bisim β γ) (n : Nat) (wt : WireType) {b : β} {c : γ}
    (x : C.State), S.R b c → Res.Alike S.Out (C.deserializeCheckType n b wt x) (C.deserializeCheckType n c wt x)

/-- The same for the fields of a message. -/
def FieldsClass.Opaque (F : FieldsClass) : Prop :=
  ∀ {β γ : Type} [ReadBuffer β] [ReadBuffer γ] (S : Bisim β γ) (n id : Nat) (wt : WireType) {b : β} {c : γ} (p : Presence)
    (s : F.State), S.R b c → Option.Alike S.Out (F.dispatch n id wt b p s) (F.dispatch n id wt c p s)

def AltsClass.Opaque (A : AltsClass) : Prop :=
  ∀ {β γ : Type} [ReadBuffer β] [ReadBuffer γ] (S : Bisim β γ) (n which : Nat) (wt : WireType) {b : β} {c : γ}
    (u : Option A.U), S.R b c → Res.Alike S.Out (A.deserialize n which b wt u) (A.deserialize n which c wt u)

def OneofsClass.Opaque (O : OneofsClass) : Prop :=
  ∀ {β γ : Type} [ReadBuffer β] [ReadBuffer γ] (S : Bisim β γ) (n id : Nat) (wt : WireType) {b : β} {c : γ}
    (s : O.State), S.R b c → Option.Alike S.Out (O.dispatch n id wt b s) (O.dispatch n id wt c s)

theorem tagLoop_alike {σ β γ : Type} [ReadBuffer β] [ReadBuffer γ] (S : Bisim β γ)
    {f : Nat → WireType → β → σ → Res (Error × β × σ)} {g : Nat → WireType → γ → σ → Res (Error × γ × σ)}
    (h : ∀ n wt b c s, S.R b c → Res.Alike S.Out (f n wt b s) (g n wt c s)) (n : Nat) {b : β} {c : γ} (s : σ)
    (hR : S.R b c) : Res.Alike S.Out (tagLoop f n b s) (tagLoop g n c s) := by
  induction n generalizing b c s with
  | zero => trivial
  | succ n ih =>
    unfold tagLoop
    refine .bind (S.tag hR) fun p q hq => ?_
    obtain ⟨r, b⟩ := p
    obtain ⟨r', c⟩ := q
    obtain ⟨rfl, hq⟩ : r = r' ∧ S.R b c := hq
    cases r with
    | error e => exact ⟨rfl, hq, rfl⟩
    | ok v =>
      refine .bind (h _ _ _ _ _ hq) fun p q hq => ?_
      obtain ⟨e, b, s⟩ := p
      obtain ⟨e', c, s'⟩ := q
      obtain ⟨rfl, hq, rfl⟩ : e = e' ∧ S.R b c ∧ s = s' := hq
      exact .ite (ih _ hq) ⟨rfl, hq, rfl⟩

theorem messageClass_opaque {k : Nat} {F : FieldsClass} {O : OneofsClass} (hF : F.Opaque) (hO : O.Opaque) :
    (messageClass k F O).Opaque := by
  have hd : ∀ {β γ : Type} [ReadBuffer β] [ReadBuffer γ] (S : Bisim β γ) (n : Nat) {b : β} {c : γ}
      (x : MsgObj F.State O.State), S.R b c → Res.Alike S.Out (x.deserialize F O n b) (x.deserialize F O n c) := by
    intro β γ _ _ S n b c x h
    refine tagLoop_alike S (fun id wt b c s h => ?_) n x h
    have h1 := hF S n id wt s.presence s.fields h
    have h2 := hO S n id wt s.oneofs h
    unfold MsgObj.step
    revert h1
    generalize F.dispatch n id wt b s.presence s.fields = r1
    generalize F.dispatch n id wt c s.presence s.fields = r2
    intro h1
    match r1, r2, h1 with
    | some a, some a', h1 =>
      refine .bind h1 fun p q hq => ?_
      obtain ⟨e, b, p, t⟩ := p
      obtain ⟨e', c, q⟩ := q
      obtain ⟨rfl, hq, rfl⟩ : e = e' ∧ S.R b c ∧ (p, t) = q := hq
      exact ⟨rfl, hq, rfl⟩
    | none, none, _ =>
      dsimp only
      revert h2
      generalize O.dispatch n id wt b s.oneofs = r1
      generalize O.dispatch n id wt c s.oneofs = r2
      intro h2
      match r1, r2, h2 with
      | some a, some a', h2 =>
        refine .bind h2 fun p q hq => ?_
        obtain ⟨e, b, t⟩ := p
        obtain ⟨e', c, t'⟩ := q
        obtain ⟨rfl, hq, rfl⟩ : e = e' ∧ S.R b c ∧ t = t' := hq
        exact ⟨rfl, hq, rfl⟩
      | none, none, _ => exact .ite ⟨rfl, h, rfl⟩ (.bind (S.skip wt h) fun p q hq => ⟨hq.1, hq.2, rfl⟩)
  refine ⟨hd, fun {β γ _ _} S n wt {b c} x h => ?_⟩
  show Res.Alike S.Out (x.deserializeCheckType F O n b wt) (x.deserializeCheckType F O n c wt)
  unfold MsgObj.deserializeCheckType
  refine .ite (.bind (S.varint _ h) fun p q hq => ?_) ⟨rfl, h, rfl⟩
  obtain ⟨r, b⟩ := p
  obtain ⟨r', c⟩ := q
  obtain ⟨rfl, hq⟩ : r = r' ∧ S.R b c := hq
  cases r with
  | error e => exact ⟨rfl, hq, rfl⟩
  | ok v => exact .bind (hd S.sect n x (S.new hq _)) fun _ _ hq => ⟨hq.1, hq.2.1.1, hq.2.2⟩

theorem packedLoop_alike {E : FieldClass} (hE : E.Opaque) (cap : Nat) {β γ : Type} [ReadBuffer β] [ReadBuffer γ]
    (S : Bisim β γ) (n k : Nat) (e : Error) (v : E.State) {b : β} {c : γ} (x : RepObj E.State) (h : S.R b c) :
    Res.Alike S.Out (RepObj.deserializePackedLoop cap n k e v b x) (RepObj.deserializePackedLoop cap n k e v c x) := by
  induction k generalizing e v b c x with
  | zero => trivial
  | succ k ih =>
    unfold RepObj.deserializePackedLoop
    refine .ite (.same fun r => .ite (.bind (hE.des S n _ h) fun p q hq => ?_) ⟨rfl, h, rfl⟩) ⟨rfl, h, rfl⟩
    obtain ⟨e, b, v⟩ := p
    obtain ⟨e', c, v'⟩ := q
    obtain ⟨rfl, hq, rfl⟩ : e = e' ∧ S.R b c ∧ v = v' := hq
    exact ih _ _ _ hq

theorem repeatedClass_opaque {E : FieldClass} (hE : E.Opaque) (cap : Nat) : (repeatedClass E cap).Opaque := by
  have elem : ∀ {β γ : Type} [ReadBuffer β] [ReadBuffer γ] (S : Bisim β γ) (n i : Nat) {b : β} {c : γ}
      (x : RepObj E.State), S.R b c →
      Res.Alike S.Out (RepObj.deserializeElem cap n i b x) (RepObj.deserializeElem cap n i c x) := by
    intro β γ _ _ S n i b c x h
    unfold RepObj.deserializeElem
    refine .same fun v => .bind (hE.des S n _ h) fun p q hq => ?_
    obtain ⟨e, b, v⟩ := p
    obtain ⟨e', c, v'⟩ := q
    obtain ⟨rfl, hq, rfl⟩ : e = e' ∧ S.R b c ∧ v = v' := hq
    exact .same fun d => ⟨rfl, hq, rfl⟩
  have hd : ∀ {β γ : Type} [ReadBuffer β] [ReadBuffer γ] (S : Bisim β γ) (n : Nat) {b : β} {c : γ}
      (x : RepObj E.State), S.R b c → Res.Alike S.Out (x.deserialize cap n b) (x.deserialize cap n c) := by
    intro β γ _ _ S n b c x h
    unfold RepObj.deserialize
    refine .ite ?_ ?_
    · unfold RepObj.deserializePacked
      refine .bind (S.varint _ h) fun p q hq => ?_
      obtain ⟨r, b⟩ := p
      obtain ⟨r', c⟩ := q
      obtain ⟨rfl, hq⟩ : r = r' ∧ S.R b c := hq
      dsimp only
      refine .bind (hE.des S.sect n _ (S.new hq _)) fun p q hq => ?_
      obtain ⟨e, b, v⟩ := p
      obtain ⟨e', c, v'⟩ := q
      obtain ⟨rfl, hq, rfl⟩ : e = e' ∧ S.sect.R b c ∧ v = v' := hq
      refine .bind (packedLoop_alike hE cap S.sect n n _ _ x hq) fun p q hq => ?_
      obtain ⟨e, b, v⟩ := p
      obtain ⟨e', c, v'⟩ := q
      obtain ⟨rfl, hq, rfl⟩ : e = e' ∧ S.sect.R b c ∧ v = v' := hq
      exact .ite ⟨rfl, hq.1, rfl⟩ ⟨rfl, hq.1, rfl⟩
    · unfold RepObj.deserializeUnpacked
      refine .ite (.ite (.bind (S.varint _ h) fun p q hq => ?_) (elem S n _ x h)) ⟨rfl, h, rfl⟩
      obtain ⟨r, b⟩ := p
      obtain ⟨r', c⟩ := q
      obtain ⟨rfl, hq⟩ : r = r' ∧ S.R b c := hq
      cases r with
      | error e => exact ⟨rfl, hq, rfl⟩
      | ok v => exact .bind (elem S.sect n _ x (S.new hq _)) fun _ _ hq => ⟨hq.1, hq.2.1.1, hq.2.2⟩
  exact ⟨hd, fun {_ _ _ _} S n wt {b c} x h => Res.Alike.ite (hd S n x h) ⟨rfl, h, rfl⟩⟩

theorem FieldsClass.plain_opaque (num : Nat) {C : FieldClass} {rest : FieldsClass} (hC : C.Opaque) (hr : rest.Opaque) :
    (FieldsClass.plain num C rest).Opaque := by
  intro β γ _ _ S n id wt b c p (s : C.State × rest.State) h
  refine Option.Alike.ite (Res.Alike.bind (hC.check S n wt _ h) fun _ _ hq => ⟨hq.1, hq.2.1, ?_⟩) ?_
  · rw [hq.2.2]
  generalize hx : rest.dispatch n id wt b p s.2 = x
  generalize hy : rest.dispatch n id wt c p s.2 = y
  have hr := hr S n id wt p s.2 h
  rw [hx, hy] at hr
  match x, y, hr with
  | none, none, _ => trivial
  | some _, some _, hr =>
    exact Res.Alike.bind hr fun _ _ hq => ⟨hq.1, hq.2.1, congrArg (fun r : Presence × rest.State => (r.1, s.1, r.2)) hq.2.2⟩

theorem FieldsClass.optional_opaque (num idx : Nat) {C : FieldClass} {rest : FieldsClass} (hC : C.Opaque)
    (hr : rest.Opaque) : (FieldsClass.optional num idx C rest).Opaque := by
  intro β γ _ _ S n id wt b c p (s : C.State × rest.State) h
  refine Option.Alike.ite (Res.Alike.same fun p => Res.Alike.bind (hC.check S n wt _ h) fun _ _ hq => ⟨hq.1, hq.2.1, ?_⟩) ?_
  · rw [hq.2.2]
  generalize hx : rest.dispatch n id wt b p s.2 = x
  generalize hy : rest.dispatch n id wt c p s.2 = y
  have hr := hr S n id wt p s.2 h
  rw [hx, hy] at hr
  match x, y, hr with
  | none, none, _ => trivial
  | some _, some _, hr =>
    exact Res.Alike.bind hr fun _ _ hq => ⟨hq.1, hq.2.1, congrArg (fun r : Presence × rest.State => (r.1, s.1, r.2)) hq.2.2⟩

theorem AltsClass.cons_opaque (num : Nat) {C : FieldClass} {rest : AltsClass} (hC : C.Opaque) (hr : rest.Opaque) :
    (AltsClass.cons num C rest).Opaque := by
  intro β γ _ _ S n which wt b c (u : Option (C.State ⊕ rest.U)) h
  refine Res.Alike.ite (.same fun x => .bind (hC.check S n wt _ h) fun _ _ hq => ⟨hq.1, hq.2.1, ?_⟩)
    (.bind (hr S n which wt _ h) fun _ _ hq => ⟨hq.1, hq.2.1, ?_⟩)
  · rw [hq.2.2]
  · rw [hq.2.2]

theorem OneofsClass.cons_opaque {A : AltsClass} {rest : OneofsClass} (hA : A.Opaque) (hr : rest.Opaque) :
    (OneofsClass.cons A rest).Opaque := by
  intro β γ _ _ S n id wt b c (s : OneofObj A.U × rest.State) h
  have hobj : Res.Alike S.Out (A.deserializeObj n id b wt s.1) (A.deserializeObj n id c wt s.1) := by
    unfold AltsClass.deserializeObj
    refine .same fun o => .bind (hA S n _ wt _ h) fun p q hq => ?_
    obtain ⟨e, b, v⟩ := p
    obtain ⟨e', c, v'⟩ := q
    obtain ⟨rfl, hq, rfl⟩ : e = e' ∧ S.R b c ∧ v = v' := hq
    exact .ite (.same fun o => ⟨rfl, hq, rfl⟩) ⟨rfl, hq, rfl⟩
  refine Option.Alike.ite (Res.Alike.bind hobj fun _ _ hq => ⟨hq.1, hq.2.1, ?_⟩) ?_
  · rw [hq.2.2]
  generalize hx : rest.dispatch n id wt b s.2 = x
  generalize hy : rest.dispatch n id wt c s.2 = y
  have hr := hr S n id wt s.2 h
  rw [hx, hy] at hr
  match x, y, hr with
  | none, none, _ => trivial
  | some _, some _, hr => exact Res.Alike.bind hr fun _ _ hq => ⟨hq.1, hq.2.1, by rw [hq.2.2]⟩

mutual
theorem ElemTy.opaque : (t : ElemTy) → t.cls.Opaque
  | .scalar s => ⟨fun S _ _ _ x h => S.scalar s x h, fun S _ _ _ _ x h => .ite (S.scalar s x h) ⟨rfl, h, rfl⟩⟩
  | .str cap => ⟨fun S _ _ _ x h => S.str cap x h, fun S _ _ _ _ x h => .ite (S.str cap x h) ⟨rfl, h, rfl⟩⟩
  | .msg fs os => messageClass_opaque (Fields.opaque fs 0) (Oneofs.opaque os)
theorem Fields.opaque : (fs : Fields) → (idx : Nat) → (fs.cls idx).Opaque
  | .nil, _ => fun _ _ _ _ _ _ _ _ _ => trivial
  | .plain num t rest, idx => FieldsClass.plain_opaque num t.opaque (Fields.opaque rest idx)
  | .optional num t rest, idx => FieldsClass.optional_opaque num idx t.opaque (Fields.opaque rest (idx + 1))
  | .repeated num cap t rest, idx =>
    FieldsClass.plain_opaque num (repeatedClass_opaque t.opaque cap) (Fields.opaque rest idx)
theorem Alts.opaque : (a : Alts) → a.cls.Opaque
  | .nil => fun _ _ _ _ _ _ _ h => ⟨rfl, h, rfl⟩
  | .cons num t rest => AltsClass.cons_opaque num t.opaque (Alts.opaque rest)
theorem Oneofs.opaque : (os : Oneofs) → os.cls.Opaque
  | .nil => fun _ _ _ _ _ _ _ _ => trivial
  | .cons a rest => OneofsClass.cons_opaque (Alts.opaque a) (Oneofs.opaque rest)
end

/-- `ReadBufferFixedSize` buffers of any sizes with the same bytes stored and the same read position; what is in the array
behind the bytes stored may differ. -/
def ReadFixed.bisim : Bisim ReadFixed ReadFixed where
  R b c := b.write = c.write ∧ b.read = c.read ∧ b.data.take b.write = c.data.take c.write
  size h := h.1
  pop {b c} h := by
    show Res.Alike _ (ReadFixed.pop b) (ReadFixed.pop c)
    obtain ⟨cap, d, w, r⟩ := b
    obtain ⟨cap', d', w', r'⟩ := c
    obtain ⟨h1, h2, h3⟩ : w = w' ∧ r = r' ∧ d.take w = d'.take w' := h
    subst h1 h2
    unfold ReadFixed.pop
    dsimp only
    by_cases hr : w > r
    · rw [if_pos hr, if_pos hr]
      have e : d[r]? = d'[r]? := by
        have := congrArg (fun l => l[r]?) h3
        simpa [List.getElem?_take, hr] using this
      have e : arrayGet d r = arrayGet d' r := by
        unfold arrayGet
        rw [e]
      rw [e]
      exact .same fun x => ⟨rfl, rfl, rfl, h3⟩
    · rw [if_neg hr, if_neg hr]
      exact ⟨rfl, rfl, rfl, h3⟩
  advance {b c} n h := by
    show Res.Alike _ (ReadFixed.advanceN b n) (ReadFixed.advanceN c n)
    obtain ⟨cap, d, w, r⟩ := b
    obtain ⟨cap', d', w', r'⟩ := c
    obtain ⟨h1, h2, h3⟩ : w = w' ∧ r = r' ∧ d.take w = d'.take w' := h
    subst h1 h2
    unfold ReadFixed.advanceN
    exact .ite ⟨rfl, rfl, rfl, h3⟩ ⟨rfl, rfl, rfl, h3⟩

end EP
