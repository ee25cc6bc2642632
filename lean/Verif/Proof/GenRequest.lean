import Verif.Model.GenRequest
import Verif.Proof.Lookup
import Verif.Proof.Files

/-!
# The generator as a whole
-/

namespace EP.Gen

/-! ## Sorting keeps the messages -/

theorem mem_sortedMsgs {order : List Str} {ns : Str} {ms : List MsgDesc} {x : MsgDesc} :
    x ∈ sorted order ns ms ↔ ∃ m ∈ ms, sortMsg order ns m = x := by
  unfold sorted
  rw [(sortHere_perm _ _ _).mem_iff, sortMsgs_eq, List.mem_map]

theorem sortMsg_nested (order : List Str) (ns : Str) (m : MsgDesc) :
    (sortMsg order ns m).nested = sorted order (dot ns m.name) m.nested := by cases m; rfl

theorem sortMsg_enums (order : List Str) (ns : Str) (m : MsgDesc) : (sortMsg order ns m).enums = m.enums := by
  cases m; rfl

theorem At.sort {ns : Str} {ms : List MsgDesc} {scope : Str} {m : MsgDesc} (h : At ns ms scope m) (order : List Str) :
    At ns (sorted order ns ms) scope (sortMsg order scope m) := by
  induction h with
  | here h => exact .here (mem_sortedMsgs.mpr ⟨_, h, rfl⟩)
  | @inside ns ms c scope m hc _ ih =>
    refine .inside (mem_sortedMsgs.mpr ⟨_, hc, rfl⟩) ?_
    rw [sortMsg_name, sortMsg_nested]
    exact ih

theorem At.unsort {order : List Str} {ns : Str} {ms' : List MsgDesc} {scope : Str} {m' : MsgDesc} (h : At ns ms' scope m') :
    ∀ ms, ms' = sorted order ns ms → ∃ m, At ns ms scope m ∧ sortMsg order scope m = m' := by
  induction h with
  | here h =>
    rintro ms rfl
    obtain ⟨m, hm, e⟩ := mem_sortedMsgs.mp h
    exact ⟨m, .here hm, e⟩
  | @inside ns ms' c scope m' hc _ ih =>
    rintro ms rfl
    obtain ⟨c', hc', rfl⟩ := mem_sortedMsgs.mp hc
    rw [sortMsg_name, sortMsg_nested] at ih
    obtain ⟨m, hm, e⟩ := ih c'.nested rfl
    exact ⟨m, .inside hc' hm, e⟩

/-- The same file, with the messages in another order. -/
structure Resorted (d d' : FileDesc) : Prop where
  package : d'.package = d.package
  enums : d'.enums = d.enums
  order : d.order = .ok d'.messages

namespace Resorted
variable {d d' : FileDesc} (h : Resorted d d')
include h

theorem at_of {scope : Str} {m : MsgDesc} (hm : At d.package d.messages scope m) :
    ∃ m', At d'.package d'.messages scope m' ∧ m'.name = m.name ∧ m'.fields = m.fields ∧ m'.oneofs = m.oneofs ∧
      m'.enums = m.enums := by
  obtain ⟨order, e⟩ := order_sorted h.order
  refine ⟨_, ?_, (sortMsg_same order scope m).1, (sortMsg_same order scope m).2.1, (sortMsg_same order scope m).2.2,
    sortMsg_enums order scope m⟩
  rw [h.package, e]
  exact hm.sort order

theorem of_at {scope : Str} {m' : MsgDesc} (hm : At d'.package d'.messages scope m') :
    ∃ m, At d.package d.messages scope m ∧ m'.name = m.name ∧ m'.fields = m.fields ∧ m'.oneofs = m.oneofs ∧
      m'.enums = m.enums := by
  obtain ⟨order, e⟩ := order_sorted h.order
  rw [h.package] at hm
  obtain ⟨m, hm', rfl⟩ := hm.unsort _ e
  exact ⟨m, hm', (sortMsg_same order scope m).1, (sortMsg_same order scope m).2.1, (sortMsg_same order scope m).2.2,
    sortMsg_enums order scope m⟩

end Resorted

/-- `openReq` has taken `f` to `f'`. -/
structure Opened (f f' : ReqFile) : Prop where
  req : f'.req = f.req
  syntaxOk : openFile f.req = .ok f.req
  made : makeMsgs f.desc.package f.desc.messages = .ok ()
  desc : Resorted f.desc f'.desc

theorem openReq_ok {f f' : ReqFile} (h : openReq f = .ok f') : Opened f f' := by
  unfold openReq at h
  cases h1 : openFile f.req with
  | error e => rw [h1] at h; exact nomatch h
  | ok x =>
    have hx : x = f.req := by
      unfold openFile at h1
      split at h1
      · exact nomatch h1
      · injection h1 with h1; exact h1.symm
    subst hx
    cases h2 : makeMsgs f.desc.package f.desc.messages with
    | error e => rw [h1, h2] at h; exact nomatch h
    | ok u =>
      cases h3 : f.desc.order with
      | error e => rw [h1, h2, h3] at h; exact nomatch h
      | ok ms =>
        rw [h1, h2, h3] at h
        injection h with h
        subst h
        exact ⟨rfl, h1, h2, rfl, rfl, h3⟩

/-- `openReq` of all files. -/
def openAll : List ReqFile → Except GenError (List ReqFile)
  | [] => .ok []
  | f :: fs => do
    let f' ← openReq f
    let fs' ← openAll fs
    pure (f' :: fs')

theorem openAll_cons {f : ReqFile} {fs r : List ReqFile} (h : openAll (f :: fs) = .ok r) :
    ∃ f' fs', openReq f = .ok f' ∧ openAll fs = .ok fs' ∧ r = f' :: fs' := by
  unfold openAll at h
  cases h1 : openReq f with
  | error e => rw [h1] at h; exact nomatch h
  | ok f' =>
    cases h2 : openAll fs with
    | error e => rw [h1, h2] at h; exact nomatch h
    | ok fs' =>
      rw [h1, h2] at h
      injection h with h
      exact ⟨f', fs', rfl, rfl, h.symm⟩

theorem openAll_append {r' : List ReqFile} : ∀ {l l' : List ReqFile} {r : List ReqFile}, openAll l = .ok r → openAll l' = .ok r' →
    openAll (l ++ l') = .ok (r ++ r')
  | [], _, r, h, h' => by injection h with h; subst h; exact h'
  | f :: l, l', r, h, h' => by
    obtain ⟨f1, r1, h1, h2, rfl⟩ := openAll_cons h
    rw [List.cons_append, openAll, h1, openAll_append h2 h']
    rfl

theorem openAll_mem : ∀ {l r : List ReqFile}, openAll l = .ok r → ∀ f ∈ l, ∃ f' ∈ r, Opened f f'
  | [], _, _, _, hf => nomatch hf
  | f :: l, r, h, g, hg => by
    obtain ⟨f1, r1, h1, h2, rfl⟩ := openAll_cons h
    rcases List.mem_cons.mp hg with rfl | hg
    · exact ⟨f1, List.mem_cons_self, openReq_ok h1⟩
    · obtain ⟨g', hg', ho⟩ := openAll_mem h2 g hg
      exact ⟨g', List.mem_cons_of_mem _ hg', ho⟩

theorem mem_openAll : ∀ {l r : List ReqFile}, openAll l = .ok r → ∀ f' ∈ r, ∃ f ∈ l, Opened f f'
  | [], r, h, _, hf => by injection h with h; subst h; exact nomatch hf
  | f :: l, r, h, g, hg => by
    obtain ⟨f1, r1, h1, h2, rfl⟩ := openAll_cons h
    rcases List.mem_cons.mp hg with rfl | hg
    · exact ⟨f, List.mem_cons_self, openReq_ok h1⟩
    · obtain ⟨g', hg', ho⟩ := mem_openAll h2 g hg
      exact ⟨g', List.mem_cons_of_mem _ hg', ho⟩

theorem openAll_req : ∀ {l r : List ReqFile}, openAll l = .ok r → r.map (·.req) = l.map (·.req)
  | [], r, h => by injection h with h; subst h; rfl
  | f :: l, r, h => by
    obtain ⟨f1, r1, h1, h2, rfl⟩ := openAll_cons h
    rw [List.map_cons, List.map_cons, (openReq_ok h1).req, openAll_req h2]

theorem openAll_order : ∀ {l r : List ReqFile}, openAll l = .ok r →
    orderAll (l.map (·.desc)) = .ok (unsorted (r.map (·.desc)))
  | [], r, h => by injection h with h; subst h; rfl
  | f :: l, r, h => by
    obtain ⟨f1, r1, h1, h2, rfl⟩ := openAll_cons h
    have := (openReq_ok h1).desc
    rw [List.map_cons, orderAll, this.order, openAll_order h2]
    show Except.ok ((f.desc.package, f1.desc.messages) :: _) = .ok ((f1.desc.package, f1.desc.messages) :: _)
    rw [this.package]
    rfl

/-! ## Which files -/

theorem except_bind_ok {α β : Type} {x : Except GenError α} {f : α → Except GenError β} {b : β} (h : x.bind f = .ok b) :
    ∃ a, x = .ok a ∧ f a = .ok b := by
  cases x with
  | error e => exact nomatch h
  | ok a => exact ⟨a, rfl, h⟩

/-- What the loop treats as a file of the user. -/
def ReqFile.mine (f : ReqFile) : Bool := !contains optionsFile f.req.name && !contains googleFile f.req.name

theorem collectReq_cons {f : ReqFile} {l : List ReqFile} {r : List ReqFile × Bool × Option ReqFile}
    (h : collectReq (f :: l) = .ok r) : ∃ mine files wanted google,
      (if !contains optionsFile f.req.name && !contains googleFile f.req.name then (openReq f).map some else .ok none) = .ok mine ∧
      collectReq l = .ok (files, wanted, google) ∧
      r = (mine.toList ++ files, mine.any (fun f => f.req.dependency.contains googleFile) || wanted,
        google.or (if contains googleFile f.req.name then some f else none)) := by
  unfold collectReq at h
  by_cases hm : (!contains optionsFile f.req.name && !contains googleFile f.req.name) = true
  all_goals
    first | rw [if_pos hm] at h | rw [if_neg hm] at h
    obtain ⟨mine, h1, h⟩ := except_bind_ok h
    obtain ⟨⟨files, wanted, google⟩, h2, h⟩ := except_bind_ok h
    injection h with h
    refine ⟨mine, files, wanted, google, ?_, h2, h.symm⟩
  · rw [if_pos hm]; exact h1
  · rw [if_neg hm]; exact h1

theorem collectReq_ok : ∀ {l files : List ReqFile} {wanted : Bool} {google : Option ReqFile},
    collectReq l = .ok (files, wanted, google) →
    openAll (l.filter ReqFile.mine) = .ok files ∧
    wanted = ((l.filter ReqFile.mine).any fun f => f.req.dependency.contains googleFile) ∧
    google = (l.filter fun f => contains googleFile f.req.name).getLast?
  | [], files, wanted, google, h => by
    injection h with h
    obtain ⟨rfl, rfl, rfl⟩ : [] = files ∧ false = wanted ∧ none = google := by
      injection h with h1 h2; injection h2 with h2 h3; exact ⟨h1, h2, h3⟩
    exact ⟨rfl, rfl, rfl⟩
  | f :: l, files, wanted, google, h => by
    obtain ⟨mine, files', wanted', google', h1, h2, h⟩ := collectReq_cons h
    obtain ⟨i1, i2, i3⟩ := collectReq_ok h2
    have hg : google = ((f :: l).filter fun f => contains googleFile f.req.name).getLast? := by
      have : google = google'.or (if contains googleFile f.req.name then some f else none) := by
        injection h with _ h; injection h with _ h
      rw [this, i3, List.filter_cons]
      split
      · rw [List.getLast?_cons]
        cases (l.filter fun f => contains googleFile f.req.name).getLast? <;> rfl
      · exact Option.or_none
    have hf : files = mine.toList ++ files' := by injection h with h _
    have hw : wanted = (mine.any (fun f => f.req.dependency.contains googleFile) || wanted') := by
      injection h with _ h; injection h with h _
    refine ⟨?_, ?_, hg⟩
    all_goals
      rw [List.filter_cons]
      by_cases hm : (!contains optionsFile f.req.name && !contains googleFile f.req.name) = true
    · have hm' : f.mine = true := hm
      rw [if_pos hm] at h1
      rw [if_pos hm']
      cases ho : openReq f with
      | error e => rw [ho] at h1; exact nomatch h1
      | ok f' =>
        rw [ho] at h1
        injection h1 with h1
        subst h1
        rw [openAll, ho, i1, hf]
        rfl
    · have hm' : ¬ f.mine = true := hm
      rw [if_neg hm] at h1
      rw [if_neg hm']
      injection h1 with h1
      subst h1
      rw [i1, hf]; rfl
    · have hm' : f.mine = true := hm
      rw [if_pos hm] at h1
      rw [if_pos hm']
      cases ho : openReq f with
      | error e => rw [ho] at h1; exact nomatch h1
      | ok f' =>
        rw [ho] at h1
        injection h1 with h1
        subst h1
        rw [List.any_cons, ← i2, hw]
        show (f'.req.dependency.contains googleFile || wanted') = _
        rw [(openReq_ok ho).req]
    · have hm' : ¬ f.mine = true := hm
      rw [if_neg hm] at h1
      rw [if_neg hm']
      injection h1 with h1
      subst h1
      rw [← i2, hw]; rfl

/-- The names of the files tell the generator which they are. -/
structure PlainRequest (request : List ReqFile) : Prop where
  options : ∀ f ∈ request, "embedded_proto_options.proto".toList <:+: f.req.name → IsOptions f.req.name
  google : ∀ f ∈ request, "google/protobuf/descriptor.proto".toList <:+: f.req.name →
    f.req.name = "google/protobuf/descriptor.proto".toList

theorem PlainRequest.filter_user {request : List ReqFile} (hp : PlainRequest request) :
    request.filter ReqFile.mine = request.filter fun f => decide f.User := by
  refine List.filter_congr fun f hf => ?_
  rw [Bool.eq_iff_iff, decide_eq_true_iff]
  unfold ReqFile.mine ReqFile.User
  rw [Bool.and_eq_true, Bool.not_eq_true', Bool.not_eq_true', ← Bool.not_eq_true, ← Bool.not_eq_true, contains_iff, contains_iff]
  refine and_congr (not_congr ⟨hp.options f hf, ?_⟩) (not_congr ⟨hp.google f hf, fun e => e ▸ List.infix_rfl⟩)
  rintro (e | ⟨r, e⟩)
  · exact e ▸ List.infix_rfl
  · exact e ▸ ⟨r ++ ['/'], [], by rw [List.append_nil, List.append_assoc]; rfl⟩

theorem PlainRequest.filter_google {request : List ReqFile} (hp : PlainRequest request) :
    (request.filter fun f => contains googleFile f.req.name) = request.filter fun f => f.req.name == googleFile := by
  refine List.filter_congr fun f hf => ?_
  rw [Bool.eq_iff_iff, contains_iff, beq_iff_eq]
  exact ⟨hp.google f hf, fun e => e ▸ List.infix_rfl⟩

theorem filter_name_length {l : List ReqFile} {n : Str} (h : (l.map (·.req.name)).Nodup) :
    (l.filter fun f => f.req.name == n).length ≤ 1 := by
  induction l with
  | nil => exact Nat.zero_le _
  | cons f l ih =>
    obtain ⟨h1, h2⟩ := List.nodup_cons.mp h
    rw [List.filter_cons]
    split
    · rename_i hf
      have : (l.filter fun f => f.req.name == n) = [] := by
        refine List.filter_eq_nil_iff.mpr fun g hg e => h1 (List.mem_map.mpr ⟨g, hg, ?_⟩)
        rw [beq_iff_eq] at hf e
        exact e.trans hf.symm
      rw [this]; exact Nat.le_refl _
    · exact ih h2

theorem fileDefs_needed {request files : List ReqFile} (hp : PlainRequest request) (hn : (request.map (·.req.name)).Nodup)
    (h : fileDefs request = .ok files) : openAll (needed request) = .ok files := by
  unfold fileDefs at h
  obtain ⟨⟨fs, wanted, google⟩, h1, h⟩ := except_bind_ok h
  obtain ⟨i1, i2, i3⟩ := collectReq_ok h1
  rw [hp.filter_user] at i1 i2
  rw [hp.filter_google] at i3
  unfold needed
  dsimp only at h
  have hl := filter_name_length (n := googleFile) hn
  have e2 : (wanted = true) ↔ (((request.filter fun f => decide f.User).any fun f =>
    f.req.dependency.contains "google/protobuf/descriptor.proto".toList) = true) := by rw [i2]; rfl
  cases hw : wanted with
  | false =>
    rw [if_neg (mt e2.mpr (by simp [hw])), List.nil_append, i1]
    rw [hw] at h
    exact h
  | true =>
    rw [if_pos (e2.mp hw)]
    change openAll ((request.filter fun f => f.req.name == googleFile) ++ _) = _
    rcases hf : request.filter (fun f => f.req.name == googleFile) with _ | ⟨g, _ | ⟨g2, rest⟩⟩
    · rw [hf] at i3
      subst i3 hw
      rw [hf, List.nil_append, i1]
      exact h
    · rw [hf] at i3
      subst i3 hw
      obtain ⟨g', h2, h⟩ := except_bind_ok h
      injection h with h
      subst h
      rw [hf, List.singleton_append, openAll, show openReq g = .ok g' from h2, i1]
      rfl
    · rw [hf] at hl
      exact absurd hl (by simp)

theorem collectReq_collect : ∀ {l files : List ReqFile} {wanted : Bool} {google : Option ReqFile},
    collectReq l = .ok (files, wanted, google) →
    collect (l.map (·.req)) = .ok (files.map (·.req), wanted, google.map (·.req))
  | [], files, wanted, google, h => by
    injection h with h
    injection h with h1 h2
    injection h2 with h2 h3
    subst h1 h2 h3
    rfl
  | f :: l, files, wanted, google, h => by
    obtain ⟨mine, files', wanted', google', h1, h2, h⟩ := collectReq_cons h
    have ih := collectReq_collect h2
    injection h with e1 e2
    injection e2 with e2 e3
    subst e1 e2 e3
    rw [List.map_cons, collect, ih]
    have e4 : (if !contains optionsFile f.req.name && !contains googleFile f.req.name then (openFile f.req).map some else .ok none) =
        (.ok (mine.map (·.req)) : Except GenError _) ∧ ∀ f', mine = some f' → f'.req = f.req := by
      by_cases hm : (!contains optionsFile f.req.name && !contains googleFile f.req.name) = true
      · rw [if_pos hm] at h1 ⊢
        cases ho : openReq f with
        | error e => rw [ho] at h1; exact nomatch h1
        | ok f' =>
          rw [ho] at h1
          injection h1 with h1
          subst h1
          refine ⟨?_, fun f'' e => Option.some.inj e ▸ (openReq_ok ho).req⟩
          rw [(openReq_ok ho).syntaxOk]
          show Except.ok (some f.req) = .ok (some f'.req)
          rw [(openReq_ok ho).req]
      · rw [if_neg hm] at h1 ⊢
        injection h1 with h1
        subst h1
        exact ⟨rfl, fun _ e => nomatch e⟩
    replace e4 := e4.1
    have fin : (Except.ok ((mine.map (·.req)).toList ++ files'.map (·.req),
        (mine.map (·.req)).any (fun f => f.dependency.contains googleFile) || wanted',
        (google'.map (·.req)).or (if contains googleFile f.req.name then some f.req else none)) : Except GenError _) =
      .ok ((mine.toList ++ files').map (·.req), mine.any (fun f => f.req.dependency.contains googleFile) || wanted',
        (google'.or (if contains googleFile f.req.name then some f else none)).map (·.req)) := by
      congr 1
      refine Prod.ext ?_ (Prod.ext ?_ ?_)
      · cases mine <;> simp
      · cases mine <;> rfl
      · cases google' <;> cases contains googleFile f.req.name <;> rfl
    by_cases hm : (!contains optionsFile f.req.name && !contains googleFile f.req.name) = true
    · rw [if_pos hm] at e4 ⊢
      rw [e4]
      exact fin
    · rw [if_neg hm] at e4 ⊢
      rw [e4]
      exact fin

theorem fileDefs_definitions {request files : List ReqFile} (h : fileDefs request = .ok files) :
    fileDefinitions (request.map (·.req)) = .ok (files.map (·.req)) := by
  unfold fileDefs at h
  obtain ⟨⟨fs, wanted, google⟩, h1, h⟩ := except_bind_ok h
  unfold fileDefinitions
  rw [collectReq_collect h1]
  cases wanted with
  | false => injection h with h; subst h; rfl
  | true =>
    cases google with
    | none => injection h with h; subst h; rfl
    | some g =>
      obtain ⟨g', h2, h⟩ := except_bind_ok h
      injection h with h
      subst h
      show (do pure ((← openFile g.req) :: fs.map (·.req)) : Except GenError (List ProtoReq)) = _
      rw [(openReq_ok h2).syntaxOk]
      show Except.ok _ = Except.ok _
      rw [List.map_cons, (openReq_ok h2).req]

/-! ## Template parameters -/

theorem registerRounds_false (files : List (Str × List MsgDesc)) : ∀ (n : Nat) (st : RegState),
    (registerRounds files n (st, false)).2 = false
  | 0, _ => rfl
  | n + 1, st => by
    unfold registerRounds
    dsimp only
    rw [Bool.and_false, if_neg (by simp)]
    exact registerRounds_false files n _

/-- Only the first round counts. -/
theorem register_eq (files : List (Str × List MsgDesc)) : register files = templates files := by
  unfold register templates registerRounds
  dsimp only
  rw [Bool.and_true]
  cases h : (regFiles files .init).2 with
  | true => rfl
  | false =>
    have h1 : (if false = true then ((regFiles files .init).1, true)
        else registerRounds files 2 ((regFiles files .init).1, false)) =
      registerRounds files 2 ((regFiles files .init).1, false) := if_neg (by simp)
    rw [h1, registerRounds_false, if_neg (by simp), if_neg (by simp)]

theorem needs_congr {D D' : Str → MsgDesc → Prop}
    (h : ∀ own f, (∃ m, D own m ∧ f ∈ m.fields) → ∃ m, D' own m ∧ f ∈ m.fields) :
    ∀ {own : Str} {p : Path}, Needs D own p → Needs D' own p
  | own, .length f, ⟨m, h1, h2, h3⟩ => by
    obtain ⟨m', h1', h2'⟩ := h own f ⟨m, h1, h2⟩
    exact ⟨m', h1', h2', h3⟩
  | own, .count f, ⟨m, h1, h2, h3⟩ => by
    obtain ⟨m', h1', h2'⟩ := h own f ⟨m, h1, h2⟩
    exact ⟨m', h1', h2', h3⟩
  | own, .inside f p, ⟨m, h1, h2, h3, h4, h5⟩ => by
    obtain ⟨m', h1', h2'⟩ := h own f ⟨m, h1, h2⟩
    exact ⟨m', h1', h2', h3, h4, needs_congr h h5⟩

/-! ## Rendering -/

theorem renderClass_ok {P : Str → List Str} {defs : FType → List (List Str)} {ns : Str} {m : MsgDesc} {c : OutClass}
    (h : renderClass P defs ns m = .ok c) : ∃ types, c.name = m.name ∧ renderClasses P defs (dot ns m.name) m.nested = .ok c.nested ∧
      mkMessage (dot ns m.name) m.fields m.oneofs = .ok c.message ∧
      memberTypes (fun p => P (nameOf p)) defs (dot ns m.name) (c.message.fields ++ c.message.oneofs.flatMap (·.fields)) = .ok types ∧
      c = .mk m.name (P (dot ns m.name)) m.enums c.nested c.message types := by
  cases m with
  | mk name fields oneofs enums nested =>
    unfold renderClass at h
    obtain ⟨inner, h1, h⟩ := except_bind_ok h
    obtain ⟨g, h2, h⟩ := except_bind_ok h
    obtain ⟨types, h3, h⟩ := except_bind_ok h
    injection h with h
    subst h
    exact ⟨types, rfl, h1, h2, h3, rfl⟩

theorem renderClasses_cons {P : Str → List Str} {defs : FType → List (List Str)} {ns : Str} {m : MsgDesc} {ms : List MsgDesc}
    {r : List OutClass} (h : renderClasses P defs ns (m :: ms) = .ok r) :
    ∃ c cs, renderClass P defs ns m = .ok c ∧ renderClasses P defs ns ms = .ok cs ∧ r = c :: cs := by
  unfold renderClasses at h
  obtain ⟨c, h1, h⟩ := except_bind_ok h
  obtain ⟨cs, h2, h⟩ := except_bind_ok h
  injection h with h
  exact ⟨c, cs, h1, h2, h.symm⟩

theorem renderClasses_mem {P : Str → List Str} {defs : FType → List (List Str)} {ns : Str} :
    ∀ {ms : List MsgDesc} {r : List OutClass}, renderClasses P defs ns ms = .ok r →
      (∀ m ∈ ms, ∃ c ∈ r, renderClass P defs ns m = .ok c) ∧ ∀ c ∈ r, ∃ m ∈ ms, renderClass P defs ns m = .ok c
  | [], r, h => by
    injection h with h
    subst h
    exact ⟨fun _ h => (nomatch h), fun _ h => nomatch h⟩
  | m :: ms, r, h => by
    obtain ⟨c, cs, h1, h2, rfl⟩ := renderClasses_cons h
    obtain ⟨i1, i2⟩ := renderClasses_mem h2
    refine ⟨fun x hx => ?_, fun x hx => ?_⟩
    · rcases List.mem_cons.mp hx with rfl | hx
      · exact ⟨c, List.mem_cons_self, h1⟩
      · obtain ⟨y, hy, e⟩ := i1 x hx
        exact ⟨y, List.mem_cons_of_mem _ hy, e⟩
    · rcases List.mem_cons.mp hx with rfl | hx
      · exact ⟨m, List.mem_cons_self, h1⟩
      · obtain ⟨y, hy, e⟩ := i2 x hx
        exact ⟨y, List.mem_cons_of_mem _ hy, e⟩

theorem At.out {P : Str → List Str} {defs : FType → List (List Str)} {ns : Str} {ms : List MsgDesc} {scope : Str} {m : MsgDesc}
    (h : At ns ms scope m) : ∀ {cs : List OutClass}, renderClasses P defs ns ms = .ok cs →
      ∃ c, OutAt ns cs scope c ∧ renderClass P defs scope m = .ok c := by
  induction h with
  | here hm =>
    intro cs e
    obtain ⟨c, hc, e⟩ := (renderClasses_mem e).1 _ hm
    exact ⟨c, .here hc, e⟩
  | inside hd _ ih =>
    intro cs e
    obtain ⟨d, hd, e⟩ := (renderClasses_mem e).1 _ hd
    obtain ⟨_, hn, hr, _⟩ := renderClass_ok e
    obtain ⟨c, hc, e⟩ := ih hr
    exact ⟨c, .inside hd (hn ▸ hc), e⟩

theorem OutAt.at {P : Str → List Str} {defs : FType → List (List Str)} {ns : Str} {cs : List OutClass} {scope : Str} {c : OutClass}
    (h : OutAt ns cs scope c) : ∀ {ms : List MsgDesc}, renderClasses P defs ns ms = .ok cs →
      ∃ m, At ns ms scope m ∧ renderClass P defs scope m = .ok c := by
  induction h with
  | here hm =>
    intro ms e
    obtain ⟨m, hm, e⟩ := (renderClasses_mem e).2 _ hm
    exact ⟨m, .here hm, e⟩
  | inside hd _ ih =>
    intro ms e
    obtain ⟨d, hd, e⟩ := (renderClasses_mem e).2 _ hd
    obtain ⟨_, hn, hr, _⟩ := renderClass_ok e
    obtain ⟨m, hm, e⟩ := ih (hn ▸ hr)
    exact ⟨m, .inside hd (hn ▸ hm), e⟩

mutual
theorem renderClass_defines {P : Str → List Str} {defs : FType → List (List Str)} {ns : Str} : ∀ {m : MsgDesc} {c : OutClass},
    renderClass P defs ns m = .ok c → c.defines ns = m.header ns
  | .mk name fields oneofs enums nested, c, h => by
    obtain ⟨types, _, hr, _, _, e⟩ := renderClass_ok h
    have ih := renderClasses_defines (ms := nested) hr
    rw [e, OutClass.defines, MsgDesc.header]
    exact congrArg (fun x => _ ++ x ++ _) ih
theorem renderClasses_defines {P : Str → List Str} {defs : FType → List (List Str)} {ns : Str} : ∀ {ms : List MsgDesc} {cs : List OutClass},
    renderClasses P defs ns ms = .ok cs → defined ns cs = headers ns ms
  | [], cs, h => by injection h with h; subst h; rfl
  | m :: ms, cs, h => by
    obtain ⟨c, cs, h1, h2, rfl⟩ := renderClasses_cons h
    rw [defined, headers, renderClass_defines h1, renderClasses_defines h2]
end

theorem renderFile_ok {P : Str → List Str} {defs : FType → List (List Str)} {f : ReqFile} {o : OutFile}
    (h : renderFile P defs f = .ok o) : o.header = headerOf f.req ∧ o.package = f.desc.package ∧ o.enums = f.desc.enums ∧
      renderClasses P defs f.desc.package f.desc.messages = .ok o.classes := by
  unfold renderFile at h
  obtain ⟨cs, h1, h⟩ := except_bind_ok h
  injection h with h
  subst h
  exact ⟨rfl, rfl, rfl, h1⟩

theorem renderFiles_ok {P : Str → List Str} {defs : FType → List (List Str)} : ∀ {fs : List ReqFile},
    (renderFiles P defs fs).2 = none →
      (renderFiles P defs fs).1.map (·.header) = fs.map (fun f => headerOf f.req) ∧
      (∀ f ∈ fs, ∃ o ∈ (renderFiles P defs fs).1, renderFile P defs f = .ok o) ∧
      ∀ o ∈ (renderFiles P defs fs).1, ∃ f ∈ fs, renderFile P defs f = .ok o
  | [], _ => ⟨rfl, fun _ h => (nomatch h), fun _ h => nomatch h⟩
  | f :: fs, h => by
    unfold renderFiles at h ⊢
    cases h1 : renderFile P defs f with
    | error e => rw [h1] at h; exact nomatch h
    | ok o =>
      rw [h1] at h
      obtain ⟨i1, i2, i3⟩ := renderFiles_ok h
      dsimp only
      refine ⟨by rw [List.map_cons, List.map_cons, i1, (renderFile_ok h1).1], fun x hx => ?_, fun x hx => ?_⟩
      · rcases List.mem_cons.mp hx with rfl | hx
        · exact ⟨o, List.mem_cons_self, h1⟩
        · obtain ⟨y, hy, e⟩ := i2 x hx
          exact ⟨y, List.mem_cons_of_mem _ hy, e⟩
      · rcases List.mem_cons.mp hx with rfl | hx
        · exact ⟨f, List.mem_cons_self, h1⟩
        · obtain ⟨y, hy, e⟩ := i3 x hx
          exact ⟨y, List.mem_cons_of_mem _ hy, e⟩

mutual
theorem OutClass.outAt_of_all (ns : Str) : ∀ (c : OutClass), ∀ p ∈ c.all ns, ∃ scope, OutAt ns [c] scope p.2 ∧ p.1 = dot scope p.2.name
  | .mk name params enums nested message types, p, h => by
    rw [OutClass.all] at h
    rcases List.mem_append.mp h with h | h
    · obtain ⟨scope, h1, h2⟩ := outAt_of_outAll (dot ns name) nested p h
      exact ⟨scope, .inside List.mem_cons_self h1, h2⟩
    · obtain rfl := List.mem_singleton.mp h
      exact ⟨ns, .here List.mem_cons_self, rfl⟩
theorem outAt_of_outAll (ns : Str) : ∀ (cs : List OutClass), ∀ p ∈ outAll ns cs, ∃ scope, OutAt ns cs scope p.2 ∧ p.1 = dot scope p.2.name
  | [], _, h => nomatch h
  | c :: cs, p, h => by
    have mono : ∀ {l l' : List OutClass} {scope x}, (∀ y ∈ l, y ∈ l') → OutAt ns l scope x → OutAt ns l' scope x := by
      intro l l' scope x hs h
      cases h with
      | here h => exact .here (hs _ h)
      | inside h h' => exact .inside (hs _ h) h'
    rw [outAll] at h
    rcases List.mem_append.mp h with h | h
    · obtain ⟨scope, h1, h2⟩ := OutClass.outAt_of_all ns c p h
      exact ⟨scope, mono (fun y hy => List.mem_singleton.mp hy ▸ List.mem_cons_self) h1, h2⟩
    · obtain ⟨scope, h1, h2⟩ := outAt_of_outAll ns cs p h
      exact ⟨scope, mono (fun y hy => List.mem_cons_of_mem _ hy) h1, h2⟩
end

theorem memberTypes_mem {T : List Str → List Str} {defs : FType → List (List Str)} {own : Str} :
    ∀ {gs : List GField} {r : List (FieldDesc × List Str)}, memberTypes T defs own gs = .ok r →
      ∀ g ∈ gs, g.shape ≠ .recursive → g.desc.type = .message ∨ g.desc.type = .enum →
        ∃ text, (g.desc, text) ∈ r ∧ typeText T defs (pathOf own) g.desc = .ok text
  | [], _, _, _, hg, _, _ => nomatch hg
  | x :: gs, r, h, g, hg, hs, ht => by
    unfold memberTypes at h
    split at h
    · rename_i hx
      obtain ⟨text, h1, h⟩ := except_bind_ok h
      obtain ⟨rest, h2, h⟩ := except_bind_ok h
      injection h with h
      subst h
      rcases List.mem_cons.mp hg with rfl | hg
      · exact ⟨text, List.mem_cons_self, h1⟩
      · obtain ⟨text', h3, h4⟩ := memberTypes_mem h2 g hg hs ht
        exact ⟨text', List.mem_cons_of_mem _ h3, h4⟩
    · rename_i hx
      rcases List.mem_cons.mp hg with rfl | hg
      · refine absurd ?_ hx
        rw [Bool.and_eq_true, Bool.or_eq_true, beq_iff_eq, beq_iff_eq, bne_iff_ne]
        exact ⟨hs, ht⟩
      · exact memberTypes_mem h g hg hs ht

/-! ## What is accepted -/

mutual
theorem makeMsg_total (ns : Str) : ∀ (m : MsgDesc), (∀ scope x, At ns [m] scope x → FieldsValid x.fields x.oneofs) →
    makeMsg ns m = .ok ()
  | .mk name fields oneofs enums nested, h => by
    have h1 := makeMsgs_total (dot ns name) nested fun scope x hx => h scope x (.inside List.mem_cons_self hx)
    obtain ⟨g, h2, _⟩ := mkMessage_spec (own := dot ns name) (h ns _ (.here List.mem_cons_self))
    unfold makeMsg
    rw [h1, show mkMessage (dot ns name) fields oneofs = .ok g from h2]
    rfl
theorem makeMsgs_total (ns : Str) : ∀ (ms : List MsgDesc), (∀ scope x, At ns ms scope x → FieldsValid x.fields x.oneofs) →
    makeMsgs ns ms = .ok ()
  | [], _ => rfl
  | m :: ms, h => by
    unfold makeMsgs
    rw [makeMsg_total ns m fun scope x hx => h scope x (hx.mono fun y hy => List.mem_singleton.mp hy ▸ List.mem_cons_self),
      makeMsgs_total ns ms fun scope x hx => h scope x (hx.mono fun y hy => List.mem_cons_of_mem _ hy)]
    rfl
end

theorem openReq_total {f : ReqFile} (h1 : f.req.syntaxName ≠ "proto2".toList)
    (h2 : ∀ scope x, At f.desc.package f.desc.messages scope x → FieldsValid x.fields x.oneofs)
    (h3 : ∃ ms, f.desc.order = .ok ms) : ∃ f', openReq f = .ok f' := by
  obtain ⟨ms, h3⟩ := h3
  unfold openReq
  rw [show openFile f.req = .ok f.req from if_neg h1, makeMsgs_total _ _ h2, h3]
  exact ⟨_, rfl⟩

theorem collectReq_total : ∀ {l : List ReqFile}, (∀ f ∈ l.filter ReqFile.mine, ∃ f', openReq f = .ok f') →
    ∃ r, collectReq l = .ok r
  | [], _ => ⟨_, rfl⟩
  | f :: l, h => by
    have hsub : ∀ g ∈ l.filter ReqFile.mine, g ∈ (f :: l).filter ReqFile.mine := fun g hg =>
      List.mem_filter.mpr ⟨List.mem_cons_of_mem _ (List.mem_filter.mp hg).1, (List.mem_filter.mp hg).2⟩
    obtain ⟨⟨a, b, c⟩, ih⟩ := collectReq_total (l := l) fun g hg => h g (hsub g hg)
    unfold collectReq
    rw [ih]
    by_cases hm : (!contains optionsFile f.req.name && !contains googleFile f.req.name) = true
    · rw [if_pos hm]
      obtain ⟨f', e⟩ := h f (List.mem_filter.mpr ⟨List.mem_cons_self, hm⟩)
      rw [e]
      exact ⟨_, rfl⟩
    · rw [if_neg hm]
      exact ⟨_, rfl⟩

theorem fileDefs_total {request : List ReqFile} (hp : PlainRequest request)
    (h : ∀ f ∈ needed request, ∃ f', openReq f = .ok f') : ∃ files, fileDefs request = .ok files := by
  obtain ⟨⟨files, wanted, google⟩, e⟩ := collectReq_total (l := request) fun f hf => by
    rw [hp.filter_user] at hf
    exact h f (List.mem_append_right _ hf)
  obtain ⟨_, i2, i3⟩ := collectReq_ok e
  rw [hp.filter_user] at i2
  rw [hp.filter_google] at i3
  unfold fileDefs
  rw [e]
  cases wanted with
  | false => exact ⟨_, rfl⟩
  | true =>
    cases google with
    | none => exact ⟨_, rfl⟩
    | some g =>
      have hg : g ∈ needed request := by
        have i2 : ((request.filter fun f => decide f.User).any fun f =>
          f.req.dependency.contains "google/protobuf/descriptor.proto".toList) = true := i2.symm
        unfold needed
        rw [if_pos i2]
        exact List.mem_append_left _ (List.mem_of_getLast? i3.symm)
      obtain ⟨g', e'⟩ := h g hg
      refine ⟨g' :: files, ?_⟩
      show (openReq g >>= fun x => pure (x :: files)) = _
      rw [e']
      rfl

theorem matchFields_total {defs : FType → List (List Str)} {own : Str} : ∀ {gs : List GField},
    (∀ g ∈ gs, g.desc.type = .message ∨ g.desc.type = .enum → ∃ d, matchType (defs g.desc.type) g.desc.typeName = .ok d) →
    matchFields defs own gs = .ok ()
  | [], _ => rfl
  | g :: gs, h => by
    have ih := matchFields_total (defs := defs) (own := own) (gs := gs) fun x hx => h x (List.mem_cons_of_mem _ hx)
    unfold matchFields
    by_cases hc : (g.shape != .recursive && (g.desc.type == .message || g.desc.type == .enum)) = true
    · rw [if_pos hc]
      rw [Bool.and_eq_true, Bool.or_eq_true, beq_iff_eq, beq_iff_eq] at hc
      obtain ⟨d, e⟩ := h g List.mem_cons_self hc.2
      rw [e]
      exact ih
    · rw [if_neg hc]
      exact ih

mutual
theorem matchMsg_total {defs : FType → List (List Str)} (ns : Str) : ∀ (m : MsgDesc),
    (∀ scope x, At ns [m] scope x → ∀ g ∈ members (dot scope x.name) x, g.desc.type = .message ∨ g.desc.type = .enum →
      ∃ d, matchType (defs g.desc.type) g.desc.typeName = .ok d) → matchMsg defs ns m = .ok ()
  | .mk name fields oneofs enums nested, h => by
    have h1 := matchMsgs_total (defs := defs) (dot ns name) nested fun scope x hx => h scope x (.inside List.mem_cons_self hx)
    have h2 := matchFields_total (defs := defs) (own := dot ns name) (h ns _ (.here List.mem_cons_self))
    unfold matchMsg
    rw [h1]
    exact h2
theorem matchMsgs_total {defs : FType → List (List Str)} (ns : Str) : ∀ (ms : List MsgDesc),
    (∀ scope x, At ns ms scope x → ∀ g ∈ members (dot scope x.name) x, g.desc.type = .message ∨ g.desc.type = .enum →
      ∃ d, matchType (defs g.desc.type) g.desc.typeName = .ok d) → matchMsgs defs ns ms = .ok ()
  | [], _ => rfl
  | m :: ms, h => by
    unfold matchMsgs
    rw [matchMsg_total ns m fun scope x hx => h scope x (hx.mono fun y hy => List.mem_singleton.mp hy ▸ List.mem_cons_self),
      matchMsgs_total ns ms fun scope x hx => h scope x (hx.mono fun y hy => List.mem_cons_of_mem _ hy)]
    rfl
end

theorem matchFiles_total {defs : FType → List (List Str)} : ∀ {fs : List FileDesc},
    (∀ f ∈ fs, ∀ scope x, At f.package f.messages scope x → ∀ g ∈ members (dot scope x.name) x,
      g.desc.type = .message ∨ g.desc.type = .enum → ∃ d, matchType (defs g.desc.type) g.desc.typeName = .ok d) →
    matchFiles defs fs = .ok ()
  | [], _ => rfl
  | f :: fs, h => by
    unfold matchFiles
    rw [matchMsgs_total _ _ (h f List.mem_cons_self), matchFiles_total fun g hg => h g (List.mem_cons_of_mem _ hg)]
    rfl

theorem memberTypes_total {T : List Str → List Str} {defs : FType → List (List Str)} {own : Str} : ∀ {gs : List GField},
    (∀ g ∈ gs, g.desc.type = .message ∨ g.desc.type = .enum → ∃ text, typeText T defs (pathOf own) g.desc = .ok text) →
    ∃ r, memberTypes T defs own gs = .ok r
  | [], _ => ⟨_, rfl⟩
  | g :: gs, h => by
    obtain ⟨r, ih⟩ := memberTypes_total (gs := gs) fun x hx => h x (List.mem_cons_of_mem _ hx)
    unfold memberTypes
    by_cases hc : (g.shape != .recursive && (g.desc.type == .message || g.desc.type == .enum)) = true
    · rw [if_pos hc]
      rw [Bool.and_eq_true, Bool.or_eq_true, beq_iff_eq, beq_iff_eq] at hc
      obtain ⟨d, e⟩ := h g List.mem_cons_self hc.2
      rw [e, ih]
      exact ⟨_, rfl⟩
    · rw [if_neg hc]
      exact ⟨r, ih⟩

/-- The text for every type in a message is found. -/
def Typed (P : Str → List Str) (defs : FType → List (List Str)) (scope : Str) (x : MsgDesc) : Prop :=
  FieldsValid x.fields x.oneofs ∧ ∀ g ∈ members (dot scope x.name) x, g.desc.type = .message ∨ g.desc.type = .enum →
    ∃ text, typeText (fun p => P (nameOf p)) defs (pathOf (dot scope x.name)) g.desc = .ok text

mutual
theorem renderClass_total {P : Str → List Str} {defs : FType → List (List Str)} (ns : Str) : ∀ (m : MsgDesc),
    (∀ scope x, At ns [m] scope x → Typed P defs scope x) → ∃ c, renderClass P defs ns m = .ok c
  | .mk name fields oneofs enums nested, h => by
    obtain ⟨inner, h1⟩ := renderClasses_total (P := P) (defs := defs) (dot ns name) nested fun scope x hx =>
      h scope x (.inside List.mem_cons_self hx)
    obtain ⟨h2, h3⟩ := h ns _ (.here List.mem_cons_self)
    obtain ⟨g, h4, _⟩ := mkMessage_spec (own := dot ns name) h2
    unfold members at h3
    have h4 : mkMessage (dot ns name) fields oneofs = .ok g := h4
    have h3 : ∀ g ∈ (match mkMessage (dot ns name) fields oneofs with
      | .ok g => g.fields ++ g.oneofs.flatMap GOneof.fields
      | .error _ => []), g.desc.type = .message ∨ g.desc.type = .enum →
        ∃ text, typeText (fun p => P (nameOf p)) defs (pathOf (dot ns name)) g.desc = .ok text := h3
    rw [h4] at h3
    obtain ⟨types, h5⟩ := memberTypes_total h3
    unfold renderClass
    rw [h1, h4]
    show ∃ c, (do
      let types ← memberTypes (fun p => P (nameOf p)) defs (dot ns name) (g.fields ++ g.oneofs.flatMap (·.fields))
      pure (.mk name (P (dot ns name)) enums inner g types) : Except GenError OutClass) = .ok c
    rw [h5]
    exact ⟨_, rfl⟩
theorem renderClasses_total {P : Str → List Str} {defs : FType → List (List Str)} (ns : Str) : ∀ (ms : List MsgDesc),
    (∀ scope x, At ns ms scope x → Typed P defs scope x) → ∃ cs, renderClasses P defs ns ms = .ok cs
  | [], _ => ⟨_, rfl⟩
  | m :: ms, h => by
    obtain ⟨c, h1⟩ := renderClass_total ns m fun scope x hx =>
      h scope x (hx.mono fun y hy => List.mem_singleton.mp hy ▸ List.mem_cons_self)
    obtain ⟨cs, h2⟩ := renderClasses_total ns ms fun scope x hx => h scope x (hx.mono fun y hy => List.mem_cons_of_mem _ hy)
    unfold renderClasses
    rw [h1, h2]
    exact ⟨_, rfl⟩
end

theorem renderFiles_total {P : Str → List Str} {defs : FType → List (List Str)} : ∀ {fs : List ReqFile},
    (∀ f ∈ fs, ∀ scope x, At f.desc.package f.desc.messages scope x → Typed P defs scope x) →
    (renderFiles P defs fs).2 = none
  | [], _ => rfl
  | f :: fs, h => by
    obtain ⟨cs, h1⟩ := renderClasses_total _ _ (h f List.mem_cons_self)
    have ih := renderFiles_total (fs := fs) fun g hg => h g (List.mem_cons_of_mem _ hg)
    unfold renderFiles renderFile
    rw [h1]
    exact ih

/-! ## Scopes and full names -/

theorem nameOf_comps : ∀ s : Str, nameOf (comps s) = '.' :: s
  | [] => rfl
  | c :: s => by
    have ih := nameOf_comps s
    unfold comps
    by_cases hc : c = '.'
    · rw [if_pos hc, hc]
      show '.' :: ([] ++ nameOf (comps s)) = _
      rw [ih]; rfl
    · rw [if_neg hc]
      cases e : comps s with
      | nil => exact absurd e (comps_ne_nil s)
      | cons x xs =>
        rw [e] at ih
        have ih : '.' :: x ++ nameOf xs = '.' :: s := ih
        show '.' :: (c :: x) ++ nameOf xs = '.' :: c :: s
        injection ih with _ ih
        rw [← ih]; rfl

theorem nameOf_pathOf {t : Str} (h : t.head? = some '.') : nameOf (pathOf t) = t := by
  cases t with
  | nil => exact nomatch h
  | cons c s =>
    obtain rfl : c = '.' := Option.some.inj h
    exact nameOf_comps s

theorem nameOf_concat (p : List Str) (x : Str) : nameOf (p ++ [x]) = dot (nameOf p) x := by
  unfold nameOf dot
  rw [List.flatMap_append]
  simp

theorem pathOf_nameOf : ∀ {p : List Str}, (∀ x ∈ p, '.' ∉ x) → pathOf (nameOf p) = p := by
  intro p
  generalize hn : p.length = n
  induction n generalizing p with
  | zero => intro _; rw [List.length_eq_zero_iff.mp hn]; rfl
  | succ n ih =>
    intro h
    rcases List.eq_nil_or_concat p with rfl | ⟨q, x, rfl⟩
    · exact nomatch hn
    · rw [List.concat_eq_append] at *
      rw [nameOf_concat, pathOf_dot (h x (by simp)), ih (by simpa using hn) fun y hy => h y (List.mem_append_left _ hy)]

theorem mem_scopeGet (t : List Str → List Str) : ∀ (o l : List Str) (e : Str × List Str), e ∈ scopeGet t o l →
    ∃ i, 0 < i ∧ i ≤ l.length ∧ e.2 = t (o ++ l.take i)
  | _, [], _, h => nomatch h
  | o, x :: l, e, h => by
    rcases List.mem_cons.mp h with rfl | h
    · exact ⟨1, Nat.one_pos, by simp, rfl⟩
    · obtain ⟨i, _, h2, h3⟩ := mem_scopeGet t (o ++ [x]) l e h
      refine ⟨i + 1, Nat.succ_pos _, Nat.succ_le_succ h2, ?_⟩
      rw [h3, List.append_assoc]
      rfl

/-- An enum in no class template has a text. -/
theorem typeText_total {T : List Str → List Str} {defs : FType → List (List Str)} {own d : List Str} {f : FieldDesc}
    (h : matchType (defs f.type) f.typeName = .ok d)
    (ht : f.type = .enum → ∀ i, 0 < i → i ≤ d.length → T (d.take i) = []) : ∃ text, typeText T defs own f = .ok text := by
  unfold typeText
  rw [h]
  show ∃ text, (if f.type = .enum && (reducedScope T own d).any (fun s => !s.2.isEmpty) then
    Except.error GenError.templateParameters else Except.ok ((reducedScope T own d).map (·.1))) = .ok text
  by_cases he : f.type = .enum
  · have : (reducedScope T own d).any (fun s => !s.2.isEmpty) = false := by
      refine List.any_eq_false.mpr fun e hm => ?_
      unfold reducedScope at hm
      obtain ⟨i, h0, h1, h2⟩ := mem_scopeGet T [] d e (List.mem_of_mem_drop hm)
      rw [h2, List.nil_append, ht he i h0 h1]
      decide
    rw [this, Bool.and_false, if_neg (by simp)]
    exact ⟨_, rfl⟩
  · rw [if_neg (by simp [he])]
    exact ⟨_, rfl⟩

theorem Ordered.fresh {files : List (Str × List MsgDesc)} (hc : Ordered files) {P : Str → List Str} (hP : Gen.templates files = .ok P)
    {own : Str} (h : own ∉ allClasses files) : P own = [] := by
  unfold Gen.templates at hP
  dsimp only at hP
  rw [if_pos hc.registered.2] at hP
  injection hP with hP
  subst hP
  have := hc.registered.1.fresh own fun p hp e => h (e ▸ by rw [← allDefs_fst]; exact List.mem_map_of_mem hp)
  cases (allClasses files).length with
  | zero => rfl
  | succ n => rw [params, this]; rfl

/-! ## Messages and enums have different names -/

theorem shuffle {α : Type} {h1 h2 a1 a2 c1 c2 : List α} (p1 : h1.Perm (a1 ++ c1)) (p2 : h2.Perm (a2 ++ c2)) :
    (h1 ++ h2).Perm ((a1 ++ a2) ++ (c1 ++ c2)) := by
  refine (p1.append p2).trans ?_
  rw [List.append_assoc, List.append_assoc]
  refine List.Perm.append_left a1 ?_
  rw [← List.append_assoc, ← List.append_assoc]
  exact List.perm_append_comm.append_right c2

mutual
theorem enums_classes (ns : Str) : ∀ m : MsgDesc, (m.header ns).Perm (m.allEnums ns ++ m.classes ns)
  | .mk name fields oneofs enums nested => by
    rw [MsgDesc.header, MsgDesc.allEnums, MsgDesc.classes]
    have ih := enums_classesList (dot ns name) nested
    rw [← List.append_assoc]
    refine List.Perm.append_right _ ?_
    rw [List.append_assoc]
    exact ih.append_left _
theorem enums_classesList (ns : Str) : ∀ ms : List MsgDesc, (headers ns ms).Perm (allEnums ns ms ++ classes ns ms)
  | [] => .refl _
  | m :: ms => by
    rw [headers, allEnums, classes]
    exact shuffle (enums_classes ns m) (enums_classesList ns ms)
end

theorem names_perm : ∀ ds : List FileDesc,
    (ds.flatMap fun f => f.header f.messages).Perm (filesEnums ds ++ allClasses (unsorted ds))
  | [] => .refl _
  | d :: ds => by
    have ih := names_perm ds
    rw [List.flatMap_cons]
    have e : filesEnums (d :: ds) = (d.enums.map (dot d.package) ++ allEnums d.package d.messages) ++ filesEnums ds := by
      unfold filesEnums
      rw [List.flatMap_cons]
    rw [e]
    show List.Perm _ (_ ++ (classes d.package d.messages ++ allClasses (unsorted ds)))
    refine shuffle ?_ ih
    unfold FileDesc.header
    rw [List.append_assoc]
    exact (enums_classesList _ _).append_left _

end EP.Gen
