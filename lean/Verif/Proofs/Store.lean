/-
Lemmas about the stored graph.
-/
import Verif.Spec.Store
import Verif.Proofs.Args
import Verif.Proofs.Crash
namespace GC
namespace Store
open Text

theorem isFile_iff {fs : FS} {p : FPath} : isFile (fs p) = true ↔ FileAt fs p := by
  unfold isFile FileAt
  cases h : fs p with
  | none => simp
  | some n => cases n <;> simp

theorem isPrefixOf_iff {p q : FPath} : p.isPrefixOf q = true ↔ p <+: q := List.isPrefixOf_iff_prefix

/-- The file system after `touch (d ++ [x])`. -/
def touched (d : FPath) (x : Text) (fs : FS) : FS := fun q =>
  if q = d ++ [x] then
    match fs q with
    | some (.file c) => some (.file c)
    | _ => some (.file [])
  else if q.isPrefixOf d then some .dir else fs q

theorem not_prefix_self_snoc (d : FPath) (x : Text) : ¬ d ++ [x] <+: d := by
  intro h
  have := h.length_le
  simp only [List.length_append, List.length_singleton] at this
  omega

theorem createDirAll_ok {d : FPath} {fs : FS} (h : DirPossible fs d) :
    createDirAll d fs = ((fun q => if q.isPrefixOf d then some .dir else fs q), .ok ()) := by
  unfold createDirAll
  rw [if_neg]
  simp only [List.any_eq_true, not_exists, not_and]
  intro k _ hk
  exact h _ (List.take_prefix k d) (isFile_iff.1 hk)

theorem createDirAll_fail {d : FPath} {fs : FS} (h : ¬ DirPossible fs d) : createDirAll d fs = (fs, .error .notADirectory) := by
  unfold createDirAll
  rw [if_pos]
  unfold DirPossible at h
  simp only [not_forall, not_not] at h
  obtain ⟨q, hq, hf⟩ := h
  simp only [List.any_eq_true]
  refine ⟨q.length, ?_, ?_⟩
  · have := hq.length_le
    simp only [List.mem_range]; omega
  · rw [List.prefix_iff_eq_take.1 hq] at hf
    exact isFile_iff.2 (by simpa using hf)

theorem touch_ok {d : FPath} {x : Text} {fs : FS} (hd : DirPossible fs d) (hx : fs (d ++ [x]) ≠ some .dir) :
    touch (d ++ [x]) fs = (touched d x fs, .ok ()) := by
  have hn : (d ++ [x]).isPrefixOf d = false := by
    rw [Bool.eq_false_iff, Ne, isPrefixOf_iff]
    exact not_prefix_self_snoc d x
  unfold touch
  rw [List.dropLast_concat, createDirAll_ok hd]
  simp only [openCreate, hn, Bool.false_eq_true, if_false]
  cases h : fs (d ++ [x]) with
  | none =>
    simp only [List.dropLast_concat]
    rw [if_pos (isPrefixOf_iff.2 (List.prefix_refl d))]
    refine congrArg (·, Except.ok ()) (funext fun q => ?_)
    unfold FS.set touched
    by_cases hq : q = d ++ [x]
    · subst hq; simp [h]
    · simp [hq]
  | some n =>
    cases n with
    | dir => exact absurd h hx
    | file c =>
      refine congrArg (·, Except.ok ()) (funext fun q => ?_)
      unfold touched
      by_cases hq : q = d ++ [x]
      · subst hq; simp only [hn, if_true, h]; simp
      · simp [hq]

theorem FS.WF.dir_of_prefix {fs : FS} (hw : fs.WF) {p q : FPath} (h : p <+: q) (hne : p ≠ q) (hq : fs q ≠ none) :
    fs p = some .dir := by
  induction q using List.reverseRecOn with
  | nil => exact absurd (List.prefix_nil.1 h) hne
  | append_singleton q x ih =>
    have hq' := hw.2 q x hq
    by_cases he : p = q
    · subst he; exact hq'
    · apply ih
      · rcases List.prefix_concat_iff.1 h with h | h
        · exact absurd h hne
        · exact h
      · exact he
      · rw [hq']; simp

theorem touch_fail {d : FPath} {x : Text} {fs : FS} (hw : fs.WF) (h : ¬ (DirPossible fs d ∧ fs (d ++ [x]) ≠ some .dir)) :
    ∃ e, touch (d ++ [x]) fs = (fs, .error e) := by
  by_cases hd : DirPossible fs d
  · have hx : fs (d ++ [x]) = some .dir := by
      by_contra hx
      exact h ⟨hd, hx⟩
    have hall : (fun q => if q.isPrefixOf d then some .dir else fs q) = fs := by
      funext q
      by_cases hq : q <+: d
      · rw [if_pos (isPrefixOf_iff.2 hq)]
        exact (hw.dir_of_prefix (hq.trans (List.prefix_append d [x])) (by rintro rfl; exact not_prefix_self_snoc d x hq)
          (by rw [hx]; simp)).symm
      · rw [if_neg (by rw [isPrefixOf_iff]; exact hq)]
    unfold touch
    rw [List.dropLast_concat, createDirAll_ok hd, hall]
    simp only [openCreate, hx]
    exact ⟨_, rfl⟩
  · unfold touch
    rw [List.dropLast_concat, createDirAll_fail hd]
    have hnd : fs d ≠ some .dir := by
      intro hdir
      apply hd
      rintro q hq ⟨c, hc⟩
      by_cases he : q = d
      · subst he; rw [hdir] at hc; cases hc
      · rw [hw.dir_of_prefix hq he (by rw [hdir]; simp)] at hc; cases hc
    have hnone : fs (d ++ [x]) = none := by
      by_contra hne
      exact hnd (hw.2 d x hne)
    simp only [openCreate, hnone, List.dropLast_concat]
    cases he : fs d with
    | none => exact ⟨_, rfl⟩
    | some n =>
      cases n with
      | dir => exact absurd he hnd
      | file c => exact ⟨_, rfl⟩

theorem touched_self {d : FPath} {x : Text} {fs : FS} : FileAt (touched d x fs) (d ++ [x]) := by
  unfold touched FileAt
  simp only [if_true]
  split <;> exact ⟨_, rfl⟩

theorem touched_prefix {d : FPath} {x : Text} {fs : FS} {q : FPath} (h : q <+: d) : touched d x fs q = some .dir := by
  unfold touched
  rw [if_neg (by rintro rfl; exact not_prefix_self_snoc d x h), if_pos (isPrefixOf_iff.2 h)]

theorem touched_other {d : FPath} {x : Text} {fs : FS} {q : FPath} (h : q ≠ d ++ [x]) (h' : ¬ q <+: d) :
    touched d x fs q = fs q := by
  unfold touched
  rw [if_neg h, if_neg (by rw [isPrefixOf_iff]; exact h')]

theorem lock_ok {root : FPath} {fs : FS} (h : Lockable root fs) :
    ∃ fs1, lock root fs = (fs1, .ok ()) ∧ LockedFrom root fs fs1 := by
  refine ⟨touched root lockFile fs, touch_ok h.1 h.2, touched_self, fun q hq => touched_prefix hq, ?_⟩
  intro q h1 h2
  exact touched_other h1 h2

theorem removeFile_ok {p : FPath} {fs : FS} (h : FileAt fs p) : removeFile p fs = (fs.set p none, .ok ()) := by
  obtain ⟨c, h⟩ := h
  unfold removeFile
  rw [h]

theorem FS.set_self (fs : FS) (p : FPath) (n : Option Node) : fs.set p n p = n := by simp [FS.set]

theorem FS.set_other (fs : FS) {p q : FPath} (n : Option Node) (h : q ≠ p) : fs.set p n q = fs q := by simp [FS.set, h]

theorem withLock_ok {α : Type} {root : FPath} {block : FS → Io α} {fs : FS} (h : Lockable root fs) :
    ∃ fs1, LockedFrom root fs fs1 ∧ (FileAt (block fs1).1 (lockPath root) →
      withLock root block fs = ((block fs1).1.set (lockPath root) none, (block fs1).2)) ∧
      (¬ FileAt (block fs1).1 (lockPath root) → ∃ e, withLock root block fs = ((block fs1).1, .error e)) := by
  obtain ⟨fs1, h1, h2⟩ := lock_ok h
  refine ⟨fs1, h2, ?_, ?_⟩
  · intro hf
    unfold withLock
    rw [h1]
    simp only [unlock]
    rw [removeFile_ok hf]
  · intro hf
    unfold withLock
    rw [h1]
    simp only [unlock, removeFile]
    cases he : (block fs1).1 (lockPath root) with
    | none => exact ⟨_, rfl⟩
    | some n =>
      cases n with
      | dir => exact ⟨_, rfl⟩
      | file c => exact absurd ⟨c, he⟩ hf

theorem lockFile_ne : lockFile ≠ graphRootDir := by decide

theorem lock_ne_command (root : FPath) : commandPath root ≠ lockPath root := by
  intro h
  have := congrArg List.length h
  simp [commandPath, lockPath] at this

theorem lock_not_under_graph (root : FPath) : ¬ rootPath root <+: lockPath root := by
  intro h
  have := h.eq_of_length (by simp [rootPath, lockPath])
  have := List.append_cancel_left this
  exact lockFile_ne (List.cons.inj this).1.symm

theorem not_prefix_command {root : FPath} {q : FPath} (h : rootPath root <+: q) : ¬ q <+: root := by
  intro h'
  have := (h.trans h').length_le
  simp only [rootPath, List.length_append, List.length_singleton] at this
  omega

theorem root_prefix_command (root : FPath) : rootPath root <+: commandPath root := List.prefix_append _ _

theorem Ready.lockable {root : FPath} {fs : FS} (h : Ready root fs) : Lockable root fs := by
  refine ⟨?_, h.2.2⟩
  rintro q hq ⟨c, hc⟩
  rw [h.1 q (hq.trans (List.prefix_append root _))] at hc
  cases hc

theorem LockedFrom.content {root : FPath} {fs fs1 : FS} (h : LockedFrom root fs fs1) {q : FPath} (hq : rootPath root <+: q) :
    fs1 q = fs q := by
  refine h.2.2 q ?_ (not_prefix_command hq)
  rintro rfl
  exact lock_not_under_graph root hq

/-- `apply_graph_commands` on an initialised graph. -/
theorem applyGraphCommands_ready {root : FPath} {fs : FS} {c : Text} (h : Ready root fs) (hc : Content root fs c)
    (cs : List GraphCommand) :
    ∃ fs', applyGraphCommands root cs fs = (fs', .ok ()) ∧ Content root fs' (Format.Gcmd.addCommands c cs) ∧ Ready root fs' ∧
      fs' (lockPath root) = none ∧ ∀ q, q ≠ lockPath root → q ≠ commandPath root → fs' q = fs q := by
  obtain ⟨fs1, h1, h2, _⟩ := withLock_ok (block := addCommandsTo (commandPath root) cs) h.lockable
  have hcmd : fs1 (commandPath root) = some (.file c) := by
    rw [h1.content (root_prefix_command root)]; exact hc
  have hblock : addCommandsTo (commandPath root) cs fs1 =
      (fs1.set (commandPath root) (some (.file (c ++ Format.Gcmd.commandsText cs))), .ok ()) := by
    unfold addCommandsTo openAppend
    rw [hcmd]
    simp only [appendText, hcmd]
  rw [hblock] at h2
  have hlk : FileAt (fs1.set (commandPath root) (some (.file (c ++ Format.Gcmd.commandsText cs)))) (lockPath root) := by
    obtain ⟨d, hd⟩ := h1.1
    exact ⟨d, by rw [FS.set_other _ _ (lock_ne_command root).symm]; exact hd⟩
  have hpre : ∀ q, q <+: rootPath root → q ≠ lockPath root := by
    rintro q hq rfl
    have := hq.eq_of_length (by simp [rootPath, lockPath])
    have := List.append_cancel_left this
    exact lockFile_ne (List.cons.inj this).1
  have hpre' : ∀ q, q <+: rootPath root → q ≠ commandPath root := by
    rintro q hq rfl
    have := hq.length_le
    simp [rootPath, commandPath] at this
  have hval : ∀ q, q ≠ lockPath root → q ≠ commandPath root →
      ((fs1.set (commandPath root) (some (.file (c ++ Format.Gcmd.commandsText cs)))).set (lockPath root) none) q = fs q := by
    intro q hq1 hq2
    rw [FS.set_other _ _ hq1, FS.set_other _ _ hq2]
    by_cases hr : q <+: root
    · rw [h1.2.1 q hr, h.1 q (hr.trans (List.prefix_append root _))]
    · exact h1.2.2 q hq1 hr
  refine ⟨_, h2 hlk, ?_, ⟨?_, ?_, ?_⟩, FS.set_self _ _ _, hval⟩
  · unfold Content
    rw [FS.set_other _ _ (lock_ne_command root)]
    exact FS.set_self _ _ _
  · intro q hq
    rw [hval q (hpre q hq) (hpre' q hq)]
    exact h.1 q hq
  · exact ⟨_, by rw [FS.set_other _ _ (lock_ne_command root)]; exact FS.set_self _ _ _⟩
  · rw [FS.set_self]; simp

theorem loadGraph_content {nd : Char → Bool} {root : FPath} {fs : FS} {c : Text} (h : Content root fs c) {g : DirectedGraph} :
    loadGraph nd root fs = .done (.ok g) ↔ Format.Gcmd.read nd c = .done (.ok g) := by
  unfold loadGraph
  rw [h]
  simp only
  rw [Run.bind_eq_done]
  constructor
  · rintro ⟨r, hr, h⟩
    cases r with
    | error e => cases h
    | ok g' => cases h; exact hr
  · intro hr
    exact ⟨_, hr, rfl⟩

/-- What a step of gc-add / gc-delete does on an initialised graph. -/
def StepCommands (vals : Option (List Text)) (mk : List VertexId → Run (List GraphCommand)) (cs : List GraphCommand) : Prop :=
  (vals = none ∧ cs = []) ∨ ∃ vs, Given vals vs ∧ mk vs = .done cs

/-- The states differ only in the command file, which got `cs` appended, and in the lock file. -/
def Appended (root : FPath) (cs : List GraphCommand) (fs fs' : FS) : Prop :=
  Ready root fs' ∧ (∀ c, Content root fs c → Content root fs' (Format.Gcmd.addCommands c cs)) ∧
  ∀ q, q ≠ lockPath root → q ≠ commandPath root → fs' q = fs q

theorem Appended.trans {root : FPath} {cs ds : List GraphCommand} {a b c : FS} (h1 : Appended root cs a b) (h2 : Appended root ds b c) :
    Appended root (cs ++ ds) a c := by
  refine ⟨h2.1, ?_, ?_⟩
  · intro x hx
    have := h2.2.1 _ (h1.2.1 x hx)
    simpa [Format.Gcmd.addCommands, Format.Gcmd.commandsText, List.flatMap_append, List.append_assoc] using this
  · intro q hq hq'
    rw [h2.2.2 q hq hq', h1.2.2 q hq hq']

theorem Ready.content {root : FPath} {fs : FS} (h : Ready root fs) : ∃ c, Content root fs c := h.2.1

theorem mutateStep_success {root : FPath} {vals : Option (List Text)} {mk : List VertexId → Run (List GraphCommand)} {fs : FS} :
    (mutateStep root vals mk fs).2 = .success ↔ ∃ cs, StepCommands vals mk cs := by
  unfold mutateStep StepCommands Given
  cases vals with
  | none => simp
  | some l =>
    simp only [Option.some.injEq, reduceCtorEq, false_and, false_or]
    constructor
    · intro h
      split at h
      · rename_i cs hcs
        obtain ⟨vs, h1, h2⟩ := Run.bind_eq_done.1 hcs
        refine ⟨cs, vs, ⟨l, rfl, ?_⟩, h2⟩
        cases hp : Args.parseVertexIdList l with
        | none => rw [hp] at h1; cases h1
        | some ws => rw [hp] at h1; cases h1; exact parseVertexIdList_iff.1 hp
      · cases h
    · rintro ⟨cs, vs, ⟨l', rfl, hl⟩, hm⟩
      rw [parseVertexIdList_iff.2 hl, Run.unwrap_some, Run.bind_done, hm]

theorem mutateStep_panic {root : FPath} {vals : Option (List Text)} {mk : List VertexId → Run (List GraphCommand)} {fs : FS}
    (h : (mutateStep root vals mk fs).2 = .panic) : (mutateStep root vals mk fs).1 = fs := by
  unfold mutateStep at h ⊢
  cases vals with
  | none => cases h
  | some l =>
    simp only at h ⊢
    split at h
    · cases h
    · rfl

theorem mutateStep_ready {root : FPath} {vals : Option (List Text)} {mk : List VertexId → Run (List GraphCommand)} {fs : FS}
    {cs : List GraphCommand} (h : Ready root fs) (hs : StepCommands vals mk cs) :
    Appended root cs fs (mutateStep root vals mk fs).1 := by
  rcases hs with ⟨rfl, rfl⟩ | ⟨vs, ⟨l, rfl, hl⟩, hm⟩
  · refine ⟨h, fun c hc => ?_, fun _ _ _ => rfl⟩
    have e : Format.Gcmd.addCommands c [] = c := List.append_nil c
    rw [e]
    exact hc
  · unfold mutateStep
    simp only
    rw [parseVertexIdList_iff.2 hl, Run.unwrap_some, Run.bind_done, hm]
    simp only
    obtain ⟨c, hc⟩ := h.content
    obtain ⟨fs', h1, h2, h3, _, h5⟩ := applyGraphCommands_ready h hc cs
    rw [h1]
    refine ⟨h3, fun c' hc' => ?_, h5⟩
    have : c' = c := by
      unfold Content at hc hc'
      rw [hc] at hc'
      cases hc'
      rfl
    subst this
    exact h2

theorem andThen_success {r : FS × Exit} {f : FS → FS × Exit} :
    (andThen r f).2 = .success ↔ r.2 = .success ∧ (f r.1).2 = .success := by
  unfold andThen
  obtain ⟨fs, e⟩ := r
  cases e <;> simp

theorem andThen_of_success {r : FS × Exit} {f : FS → FS × Exit} (h : r.2 = .success) : andThen r f = f r.1 := by
  unfold andThen
  obtain ⟨fs, e⟩ := r
  cases h
  rfl

/-- `add_edges` and `add_vertices` commands only. -/
def OnlyAdds (cs : List GraphCommand) : Prop := ∀ c ∈ cs, (∃ v, c = .AddVertex v) ∨ ∃ a b, c = .AddEdge a b

theorem run_adds {cs : List GraphCommand} (h : OnlyAdds cs) (G : SetGraph) :
    (∀ e : Edge, (G.run cs).E e ↔ G.E e ∨ .AddEdge e.src e.dst ∈ cs) ∧
    (∀ v, (G.run cs).V v ↔ G.V v ∨ .AddVertex v ∈ cs ∨ ∃ w, .AddEdge v w ∈ cs ∨ .AddEdge w v ∈ cs) := by
  induction cs generalizing G with
  | nil => simp [SetGraph.run]
  | cons c cs ih =>
    have ih := ih (fun x hx => h x (by simp [hx])) (G.step c)
    have e : G.run (c :: cs) = (G.step c).run cs := rfl
    rw [e]
    constructor
    · intro x
      rw [ih.1 x]
      rcases h c (by simp) with ⟨v, rfl⟩ | ⟨a, b, rfl⟩
      · simp [SetGraph.step]
      · cases x
        simp [SetGraph.step, or_assoc]
    · intro v
      rw [ih.2 v]
      rcases h c (by simp) with ⟨u, rfl⟩ | ⟨a, b, rfl⟩
      · simp [SetGraph.step, or_assoc]
      · simp only [SetGraph.step, List.mem_cons, GraphCommand.AddEdge.injEq, reduceCtorEq, false_or]
        constructor
        · rintro ((h | rfl | rfl) | h | ⟨w, h | h⟩)
          · exact .inl h
          · exact .inr (.inr ⟨b, .inl (.inl ⟨rfl, rfl⟩)⟩)
          · exact .inr (.inr ⟨a, .inr (.inl ⟨rfl, rfl⟩)⟩)
          · exact .inr (.inl h)
          · exact .inr (.inr ⟨w, .inl (.inr h)⟩)
          · exact .inr (.inr ⟨w, .inr (.inr h)⟩)
        · rintro (h | h | ⟨w, (⟨rfl, rfl⟩ | h) | (⟨rfl, rfl⟩ | h)⟩)
          · exact .inl (.inl h)
          · exact .inr (.inl h)
          · exact .inl (.inr (.inl rfl))
          · exact .inr (.inr ⟨w, .inl h⟩)
          · exact .inl (.inr (.inr rfl))
          · exact .inr (.inr ⟨w, .inr h⟩)

theorem mem_edgeCommands {ps : List (VertexId × VertexId)} {x y : VertexId} :
    .AddEdge x y ∈ edgeCommands ps ↔ (x, y) ∈ ps := by
  simp [edgeCommands]

theorem mem_edgeCommands_reverse {r : Bool} {ps : List (VertexId × VertexId)} {x y : VertexId} :
    .AddEdge x y ∈ edgeCommands (Args.reverseIfNeeded r ps) ↔ (r = false ∧ (x, y) ∈ ps) ∨ (r = true ∧ (y, x) ∈ ps) := by
  rw [mem_edgeCommands]
  cases r <;> simp [Args.reverseIfNeeded]

theorem onlyAdds_edgeCommands (ps : List (VertexId × VertexId)) : OnlyAdds (edgeCommands ps) := by
  intro c hc
  simp only [edgeCommands, List.mem_map] at hc
  obtain ⟨p, _, rfl⟩ := hc
  exact .inr ⟨_, _, rfl⟩

theorem not_mem_edgeCommands {ps : List (VertexId × VertexId)} {v : VertexId} : .AddVertex v ∉ edgeCommands ps := by
  simp [edgeCommands]

theorem OnlyAdds.append {a b : List GraphCommand} (ha : OnlyAdds a) (hb : OnlyAdds b) : OnlyAdds (a ++ b) := by
  intro c hc
  rcases List.mem_append.1 hc with h | h
  · exact ha c h
  · exact hb c h

theorem Given.unique {o : Option (List Text)} {vs ws : List VertexId} (h1 : Given o vs) (h2 : Given o ws) : vs = ws := by
  obtain ⟨l, rfl, h1⟩ := h1
  obtain ⟨l', h, h2⟩ := h2
  cases h
  have a := parseVertexIdList_iff.2 h1
  rw [parseVertexIdList_iff.2 h2] at a
  cases a
  rfl

theorem loadGraph_built {nd : Char → Bool} {root : FPath} {fs : FS} {g : DirectedGraph}
    (h : loadGraph nd root fs = .done (.ok g)) : Built g ∧ ∃ c, Content root fs c ∧ Format.Gcmd.read nd c = .done (.ok g) := by
  have hc : ∃ c, Content root fs c := by
    unfold loadGraph at h
    unfold Content
    cases he : fs (commandPath root) with
    | none => rw [he] at h; cases h
    | some n =>
      cases n with
      | dir => rw [he] at h; cases h
      | file c => exact ⟨c, rfl⟩
  obtain ⟨c, hc⟩ := hc
  have hr := (loadGraph_content hc).1 h
  refine ⟨?_, c, hc, hr⟩
  unfold Format.Gcmd.read Format.read at hr
  obtain ⟨r, _, hr⟩ := Run.bind_eq_done.1 hr
  cases r with
  | error e => cases hr
  | ok cs => cases hr; exact Built.new.applyCommands cs

end Store
end GC
