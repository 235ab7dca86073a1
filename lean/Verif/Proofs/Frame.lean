/- Commands on a graph leave everything but its own paths alone, and look at nothing else. -/
import Verif.Spec.Frame
import Verif.Proofs.Faults
namespace GC
namespace Store
open Text Faults

variable {nd : Char → Bool} {root : FPath} {fs fs' fs1 fs0 : FS}

theorem own_iff {r q : FPath} : Own r q ↔ q = lockPath r ∨ rootPath r <+: q := Iff.rfl

theorem OnlyOwn.refl (r : FPath) (fs : FS) : OnlyOwn r fs fs := fun _ => .inr (.inl rfl)

theorem OnlyOwn.trans (h1 : OnlyOwn root fs fs1) (h2 : OnlyOwn root fs1 fs') : OnlyOwn root fs fs' := by
  intro q
  rcases h1 q with h | h | ⟨ha, hb, hc⟩
  · exact .inl h
  · rcases h2 q with h' | h' | ⟨ha', hb', hc'⟩
    · exact .inl h'
    · exact .inr (.inl (h'.trans h))
    · exact .inr (.inr ⟨ha', h ▸ hb', hc'⟩)
  · rcases h2 q with h' | h' | ⟨_, hb', _⟩
    · exact .inl h'
    · exact .inr (.inr ⟨ha, hb, h'.trans hc⟩)
    · rw [hc] at hb'; cases hb'

theorem OnlyOwn.of_own (h : OnlyOwn root fs0 fs) (ho : ∀ q, ¬ Own root q → fs' q = fs q) : OnlyOwn root fs0 fs' :=
  h.trans fun q => by
    by_cases hq : Own root q
    · exact .inl hq
    · exact .inr (.inl (ho q hq))

theorem OnlyOwn.of_at (h : OnlyOwn root fs0 fs) {p : FPath} (hp : Own root p) (ho : ∀ q, q ≠ p → fs' q = fs q) : OnlyOwn root fs0 fs' :=
  h.of_own fun q hq => ho q (by rintro rfl; exact hq hp)

theorem own_lock (root : FPath) : Own root (lockPath root) := .inl rfl
theorem own_root (root : FPath) : Own root (rootPath root) := .inr (List.prefix_refl _)
theorem own_command (root : FPath) : Own root (commandPath root) := .inr (root_prefix_command root)

theorem OnlyOwn.createDirAll (h : OnlyOwn root fs0 fs) {d : FPath} (hd : d <+: rootPath root) : OnlyOwn root fs0 (createDirAll d fs).1 := by
  by_cases hp : DirPossible fs d
  · refine h.trans fun q => ?_
    rw [createDirAll_ok hp]
    dsimp only
    by_cases hq : q <+: d
    · rcases prefix_graph (hq.trans hd) with rfl | hr
      · exact .inl (own_root root)
      · rw [if_pos (isPrefixOf_iff.2 hq)]
        cases hx : fs q with
        | none => exact .inr (.inr ⟨hr, rfl, rfl⟩)
        | some n =>
          cases n with
          | dir => exact .inr (.inl rfl)
          | file c => exact absurd ⟨c, hx⟩ (hp q hq)
    · rw [if_neg (by rwa [isPrefixOf_iff])]
      exact .inr (.inl rfl)
  · rw [createDirAll_fail hp]
    exact h

theorem OnlyOwn.openCreate (h : OnlyOwn root fs0 fs) {p : FPath} (hp : Own root p) : OnlyOwn root fs0 (openCreate p fs).1 :=
  h.of_at hp (openCreate_other _ _).1

theorem OnlyOwn.appendText (h : OnlyOwn root fs0 fs) (t : Text) : OnlyOwn root fs0 (appendText (commandPath root) t fs) := by
  unfold Store.appendText
  split
  · exact h.of_at (own_command root) fun q hq => FS.set_other _ _ hq
  · exact h

theorem OnlyOwn.createTruncate (h : OnlyOwn root fs0 fs) : OnlyOwn root fs0 (createTruncate (commandPath root) fs).1 := by
  unfold Store.createTruncate
  split
  · exact h.of_at (own_command root) fun q hq => FS.set_other _ _ hq
  · exact h
  · split
    · exact h.of_at (own_command root) fun q hq => FS.set_other _ _ hq
    · exact h
    · exact h

theorem OnlyOwn.unlock (h : OnlyOwn root fs0 fs) : OnlyOwn root fs0 (unlock root fs).1 := by
  unfold Store.unlock removeFile
  split
  · exact h.of_at (own_lock root) fun q hq => FS.set_other _ _ hq
  · exact h
  · exact h

theorem OnlyOwn.removeKilled (h : OnlyOwn root fs0 fs) (hk : RemoveDirKilled (rootPath root) fs fs') : OnlyOwn root fs0 fs' :=
  h.of_own fun q hq => (hk.1 q).resolve_right fun h => hq (.inr h.1)

theorem OnlyOwn.touchLock (fs fs' : FS) (r : Except IoError Unit) (h : OnlyOwn root fs0 fs) (hk : Touch (lockPath root) fs fs' r) :
    OnlyOwn root fs0 fs' := by
  obtain ⟨fs1, h1, h2⟩ := hk
  have hu : OnlyOwn root fs0 fs1 := by
    rcases h1 with rfl | ⟨d, hd, rfl⟩
    · exact h
    · rw [lockPath_dropLast] at hd
      exact h.createDirAll (hd.trans (List.prefix_append _ _))
  rcases h2.cases with rfl | rfl
  · exact hu
  · exact hu.openCreate (own_lock root)

theorem OnlyOwn.touchCommand (fs fs' : FS) (r : Except IoError Unit) (h : OnlyOwn root fs0 fs) (hk : Touch (commandPath root) fs fs' r) :
    OnlyOwn root fs0 fs' := by
  obtain ⟨fs1, h1, h2⟩ := hk
  have hu : OnlyOwn root fs0 fs1 := by
    rcases h1 with rfl | ⟨d, hd, rfl⟩
    · exact h
    · rw [commandPath_dropLast] at hd
      exact h.createDirAll hd
  rcases h2.cases with rfl | rfl
  · exact hu
  · exact hu.openCreate (own_command root)

theorem OnlyOwn.applied (fs fs' : FS) (cs : List GraphCommand) (r : Except IoError Unit) (h : OnlyOwn root fs0 fs)
    (hk : ApplyGraphCommands root cs fs fs' r) : OnlyOwn root fs0 fs' :=
  WithLock.induct OnlyOwn.touchLock (fun _ h => h.unlock)
    (fun _ _ _ h hk => OpenAndWrite.induct (fun fs h => by rw [openAppend_fst]; exact h) (fun _ t h => h.appendText t) h hk) h hk

theorem OnlyOwn.saved {g : DirectedGraph} (fs fs' : FS) (r : Except IoError Unit) (h : OnlyOwn root fs0 fs)
    (hk : SaveGraph root g fs fs' r) : OnlyOwn root fs0 fs' :=
  OpenAndWrite.induct (fun _ h => h.createTruncate) (fun _ t h => h.appendText t) h hk

theorem OnlyOwn.cleaned (fs fs' : FS) (r : Except IoError Unit) (h : OnlyOwn root fs0 fs) (hk : Clean root fs fs' r) :
    OnlyOwn root fs0 fs' := by
  refine WithLock.induct OnlyOwn.touchLock (fun _ h => h.unlock) (fun fs fs' r h hk => ?_) h hk
  rcases hk with hk | ⟨hk, _⟩
  · have := h.removeKilled (removeDirAll_killed (rootPath root) fs)
    rw [hk] at this
    exact this
  · exact h.removeKilled hk

theorem OnlyOwn.executed {cmd : Cmd} {e : Exit} (h : OnlyOwn root fs0 fs) (hk : Exec nd root cmd fs fs' e) : OnlyOwn root fs0 fs' := by
  cases cmd with
  | init => exact Expect.induct OnlyOwn.touchCommand _ _ _ h hk
  | add a => exact GcAdd.induct OnlyOwn.applied h hk
  | delete v x => exact GcDelete.induct OnlyOwn.applied h hk
  | build order =>
    obtain ⟨l, _, hk⟩ := hk
    split at hk
    · exact Expect.induct OnlyOwn.saved _ _ _ h hk
    · rw [hk.1]; exact h
  | clean force answer =>
    change GcClean root force answer fs fs' e at hk
    unfold GcClean at hk
    split at hk
    · rw [hk.1]; exact h
    · exact Expect.induct OnlyOwn.cleaned _ _ _ h hk
  | random g order force answer =>
    change GcRandom order root force answer g fs fs' e at hk
    unfold GcRandom at hk
    split at hk
    · rw [hk.1]; exact h
    · refine Then.induct (Expect.induct OnlyOwn.cleaned) (fun _ _ _ h => ?_) h hk
      exact Then.induct (Expect.induct OnlyOwn.touchCommand) (Expect.induct OnlyOwn.saved) h

theorem OnlyOwn.exec (h : OnlyOwn root fs0 fs) (cmd : Cmd) : OnlyOwn root fs0 (exec nd root cmd fs).1 := h.executed (exec_may nd root cmd fs)

/-! ### Killed commands -/

theorem OnlyOwn.touchKilled_lock (h : OnlyOwn root fs0 fs) (hk : TouchKilled (lockPath root) fs fs') : OnlyOwn root fs0 fs' := by
  rcases hk with rfl | ⟨d, hd, rfl⟩ | rfl
  · exact h
  · rw [lockPath_dropLast] at hd
    exact h.createDirAll (hd.trans (List.prefix_append _ _))
  · unfold lockPath
    rw [touch_eq]
    exact (h.createDirAll (List.prefix_append root _)).openCreate (own_lock root)

theorem OnlyOwn.touchKilled_command (h : OnlyOwn root fs0 fs) (hk : TouchKilled (commandPath root) fs fs') : OnlyOwn root fs0 fs' := by
  rcases hk with rfl | ⟨d, hd, rfl⟩ | rfl
  · exact h
  · rw [commandPath_dropLast] at hd
    exact h.createDirAll hd
  · show OnlyOwn root fs0 (touch (rootPath root ++ [commandsFile]) fs).1
    rw [touch_eq]
    exact (h.createDirAll (List.prefix_refl (rootPath root))).openCreate (own_command root)

theorem OnlyOwn.apply (h : OnlyOwn root fs0 fs) (cs : List GraphCommand) : OnlyOwn root fs0 (applyGraphCommands root cs fs).1 :=
  withLock_induct (fun _ _ h hk => OnlyOwn.touchKilled_lock h hk) (fun _ h => h.unlock)
    (fun _ h => by rw [addCommandsTo_eq]; exact h.appendText _) h

theorem OnlyOwn.applyKilled (h : OnlyOwn root fs0 fs) {cs : List GraphCommand} (hk : ApplyKilled root cs fs fs') : OnlyOwn root fs0 fs' :=
  withLockKilled_induct (fun _ _ h hk => OnlyOwn.touchKilled_lock h hk) (fun _ h => h.unlock)
    (fun _ h => by rw [addCommandsTo_eq]; exact h.appendText _) (fun _ _ h ⟨t, _, e⟩ => e ▸ h.appendText t) h hk

theorem OnlyOwn.clean (h : OnlyOwn root fs0 fs) : OnlyOwn root fs0 (clean root fs).1 :=
  withLock_induct (fun _ _ h hk => OnlyOwn.touchKilled_lock h hk) (fun _ h => h.unlock) (fun _ h => h.removeKilled (removeDirAll_killed _ _)) h

theorem OnlyOwn.cleanKilled (h : OnlyOwn root fs0 fs) (hk : CleanKilled root fs fs') : OnlyOwn root fs0 fs' :=
  withLockKilled_induct (fun _ _ h hk => OnlyOwn.touchKilled_lock h hk) (fun _ h => h.unlock)
    (fun _ h => h.removeKilled (removeDirAll_killed _ _)) (fun _ _ h hk => h.removeKilled hk) h hk

theorem OnlyOwn.saveKilled (h : OnlyOwn root fs0 fs) {g : DirectedGraph} (hk : SaveKilled root g fs fs') : OnlyOwn root fs0 fs' := by
  rcases hk with rfl | ⟨t, _, rfl⟩
  · exact h
  · exact h.createTruncate.appendText t

theorem OnlyOwn.killed (h : OnlyOwn root fs0 fs) {cmd : Cmd} (hk : Killed nd root cmd fs fs') : OnlyOwn root fs0 fs' := by
  cases cmd with
  | init => exact h.touchKilled_command hk
  | add a => exact gcAddKilled_induct (fun _ cs h => OnlyOwn.apply h cs) (fun _ _ _ h hk => OnlyOwn.applyKilled h hk) h hk
  | delete v e => exact gcDeleteKilled_induct (fun _ cs h => OnlyOwn.apply h cs) (fun _ _ _ h hk => OnlyOwn.applyKilled h hk) h hk
  | build order =>
    rcases hk with rfl | ⟨g, _, hk⟩
    · exact h
    · exact h.saveKilled hk
  | clean force answer =>
    rcases hk with rfl | ⟨_, hk⟩
    · exact h
    · exact h.cleanKilled hk
  | random g order force answer =>
    rcases hk with rfl | ⟨_, hk⟩
    · exact h
    · rcases hk with hk | ⟨_, hk⟩
      · exact h.cleanKilled hk
      · have h1 : OnlyOwn root fs0 (expectOk (Store.clean root fs)).1 := by rw [expectOk_fst]; exact h.clean
        rcases hk with hk | ⟨_, hk⟩
        · exact h1.touchKilled_command hk
        · refine OnlyOwn.saveKilled ?_ hk
          show OnlyOwn root fs0 (expectOk (Store.init root _)).1
          rw [expectOk_fst]
          exact h1.touchKilled_command (.inr (.inr rfl))

/-! ### Paths of other graphs -/

theorem Apart.symm {r r' : FPath} (h : Apart r r') : Apart r' r := ⟨h.1.symm, h.2.2, h.2.1⟩

theorem prefix_or {r q r' : FPath} {a : Text} (h : r ++ [a] <+: q) (h' : q <+: r') : r ++ [a] <+: r' := h.trans h'

/-- A path of one graph is no path of another one. -/
theorem Apart.own {r r' q : FPath} (h : Apart r r') (hq : Own r q) : ¬ Own r' q := by
  have key : ∀ (a b : Text) (s s' : FPath), s ≠ s' → ¬ s ++ [a] <+: s' → ¬ s' ++ [b] <+: s → s ++ [a] <+: q → s' ++ [b] <+: q → False := by
    intro a b s s' hne h1 h2 ha hb
    have e : ∀ (u v : FPath) (x y : Text), u ++ [x] <+: v ++ [y] → u ++ [x] <+: v ∨ u = v := by
      intro u v x y hh
      rcases List.prefix_concat_iff.1 hh with hh | hh
      · exact .inr (List.append_inj' hh rfl).1
      · exact .inl hh
    rcases List.prefix_or_prefix_of_prefix ha hb with hh | hh
    · rcases e _ _ _ _ hh with hh | hh
      · exact h1 hh
      · exact hne hh
    · rcases e _ _ _ _ hh with hh | hh
      · exact h2 hh
      · exact hne hh.symm
  have toP : ∀ s, Own s q → ∃ a, s ++ [a] <+: q ∧ ∀ t, s ++ [a] <+: t → Inside s t := by
    rintro s (rfl | hs)
    · exact ⟨_, List.prefix_refl _, fun _ => .inl⟩
    · exact ⟨_, hs, fun _ => .inr⟩
  intro hq'
  obtain ⟨a, ha, ia⟩ := toP _ hq
  obtain ⟨b, hb, ib⟩ := toP _ hq'
  exact key a b r r' h.1 (fun x => h.2.1 (ia _ x)) (fun x => h.2.2 (ib _ x)) ha hb

/-- A path of one graph is not on the way to the directory of another one. -/
theorem Apart.own_way {r r' q : FPath} (h : Apart r r') (hq : Own r q) : ¬ q <+: r' := by
  intro hr
  rcases hq with rfl | hq
  · exact h.2.1 (.inl hr)
  · exact h.2.1 (.inr (hq.trans hr))

theorem OnlyOwn.own_eq {r r' q : FPath} (h : OnlyOwn r' fs fs') (ha : Apart r r') (hq : Own r q) : fs' q = fs q := by
  rcases h q with h | h | h
  · exact absurd h (ha.own hq)
  · exact h
  · exact absurd h.1 (ha.own_way hq)

theorem wayFree_iff {r : FPath} : WayFree fs r ↔ DirPossible fs r :=
  ⟨fun h q hq ⟨c, hc⟩ => h q hq c hc, fun h q hq c hc => h q hq ⟨c, hc⟩⟩

theorem OnlyOwn.dirPossible {r r' : FPath} (h : OnlyOwn r' fs fs') (ha : r = r' ∨ Apart r r') (hd : DirPossible fs r) : DirPossible fs' r := by
  rintro q hq ⟨c, hc⟩
  rcases h q with h | h | h
  · rcases ha with rfl | ha
    · rcases h with rfl | h
      · exact prefix_root_ne_lock hq rfl
      · have := (h.trans hq).length_le
        rw [List.length_append] at this
        exact Nat.not_succ_le_self _ this
    · exact ha.symm.own_way h hq
  · exact hd q hq ⟨c, h ▸ hc⟩
  · rw [h.2.2] at hc; cases hc

/-! ### Commands look only at their own paths -/

/-- The same files of the graph, and no regular file is in the way to the directory. -/
def Agree (r : FPath) (fs fs' : FS) : Prop := (∀ q, Own r q → fs' q = fs q) ∧ DirPossible fs r ∧ DirPossible fs' r

variable {ga gb : FS}

theorem Agree.set (h : Agree root ga gb) {p : FPath} (hp : ¬ p <+: root) (n : Option Node) : Agree root (ga.set p n) (gb.set p n) := by
  refine ⟨fun q hq => ?_, ?_, ?_⟩
  · unfold FS.set
    split
    · rfl
    · exact h.1 q hq
  · rintro q hq ⟨c, hc⟩
    rw [FS.set_other _ _ (by rintro rfl; exact hp hq)] at hc
    exact h.2.1 q hq ⟨c, hc⟩
  · rintro q hq ⟨c, hc⟩
    rw [FS.set_other _ _ (by rintro rfl; exact hp hq)] at hc
    exact h.2.2 q hq ⟨c, hc⟩

theorem own_not_way {q : FPath} (hq : Own root q) : ¬ q <+: root := by
  intro hr
  rcases hq with rfl | h
  · exact prefix_root_ne_lock hr rfl
  · have := (h.trans hr).length_le
    rw [List.length_append] at this
    exact Nat.not_succ_le_self _ this

theorem Agree.createDirAll_way (h : Agree root ga gb) : Agree root (createDirAll root ga).1 (createDirAll root gb).1 ∧
    (createDirAll root ga).1 root = some .dir ∧ (createDirAll root gb).1 root = some .dir := by
  rw [createDirAll_ok h.2.1, createDirAll_ok h.2.2]
  refine ⟨⟨fun q hq => ?_, ?_, ?_⟩, if_pos (isPrefixOf_iff.2 (List.prefix_refl _)), if_pos (isPrefixOf_iff.2 (List.prefix_refl _))⟩
  · dsimp only
    split
    · rfl
    · exact h.1 q hq
  · rintro q hq ⟨c, hc⟩
    cases hc.symm.trans (if_pos (isPrefixOf_iff.2 hq))
  · rintro q hq ⟨c, hc⟩
    cases hc.symm.trans (if_pos (isPrefixOf_iff.2 hq))

theorem dirPossible_graph : DirPossible fs (rootPath root) ↔ DirPossible fs root ∧ ¬ FileAt fs (rootPath root) := by
  constructor
  · exact fun h => ⟨fun q hq => h q (hq.trans (List.prefix_append _ _)), h _ (List.prefix_refl _)⟩
  · rintro ⟨h1, h2⟩ q hq
    rcases prefix_graph hq with rfl | hq
    · exact h2
    · exact h1 q hq

theorem Agree.createDirAll_graph (h : Agree root ga gb) : Agree root (createDirAll (rootPath root) ga).1 (createDirAll (rootPath root) gb).1 := by
  have hf : FileAt gb (rootPath root) ↔ FileAt ga (rootPath root) := by
    unfold FileAt
    rw [h.1 _ (own_root root)]
  by_cases hp : FileAt ga (rootPath root)
  · rw [createDirAll_fail fun x => (dirPossible_graph.1 x).2 hp, createDirAll_fail fun x => (dirPossible_graph.1 x).2 (hf.2 hp)]
    exact h
  · rw [createDirAll_ok (dirPossible_graph.2 ⟨h.2.1, hp⟩), createDirAll_ok (dirPossible_graph.2 ⟨h.2.2, fun x => hp (hf.1 x)⟩)]
    refine ⟨fun q hq => ?_, ?_, ?_⟩
    · dsimp only
      split
      · rfl
      · exact h.1 q hq
    · rintro q hq ⟨c, hc⟩
      cases hc.symm.trans (if_pos (isPrefixOf_iff.2 (hq.trans (List.prefix_append _ _))))
    · rintro q hq ⟨c, hc⟩
      cases hc.symm.trans (if_pos (isPrefixOf_iff.2 (hq.trans (List.prefix_append _ _))))

/-- Two results that are equal, in states that agree. -/
def Same {α : Type} (r : FPath) (x y : FS × α) : Prop := Agree r x.1 y.1 ∧ y.2 = x.2

theorem Agree.openCreate (h : Agree root ga gb) {p : FPath} (hp : Own root p) (hd : gb p.dropLast = ga p.dropLast) :
    Same root (openCreate p ga) (openCreate p gb) := by
  unfold Store.openCreate
  rw [h.1 p hp, hd]
  split
  · exact ⟨h, rfl⟩
  · exact ⟨h, rfl⟩
  · split
    · exact ⟨h.set (own_not_way hp) _, rfl⟩
    · exact ⟨h, rfl⟩
    · exact ⟨h, rfl⟩

theorem Agree.createTruncate (h : Agree root ga gb) : Same root (createTruncate (commandPath root) ga) (createTruncate (commandPath root) gb) := by
  unfold Store.createTruncate
  rw [h.1 _ (own_command root), commandPath_dropLast, h.1 _ (own_root root)]
  split
  · exact ⟨h.set (own_not_way (own_command root)) _, rfl⟩
  · exact ⟨h, rfl⟩
  · split
    · exact ⟨h.set (own_not_way (own_command root)) _, rfl⟩
    · exact ⟨h, rfl⟩
    · exact ⟨h, rfl⟩

theorem Agree.appendText (h : Agree root ga gb) (t : Text) :
    Agree root (appendText (commandPath root) t ga) (appendText (commandPath root) t gb) := by
  unfold Store.appendText
  rw [h.1 _ (own_command root)]
  split
  · exact h.set (own_not_way (own_command root)) _
  · exact h

theorem Agree.unlock (h : Agree root ga gb) : Same root (unlock root ga) (unlock root gb) := by
  unfold Store.unlock removeFile
  rw [h.1 _ (own_lock root)]
  split
  · exact ⟨h.set (own_not_way (own_lock root)) _, rfl⟩
  · exact ⟨h, rfl⟩
  · exact ⟨h, rfl⟩

theorem Agree.removeDirAll (h : Agree root ga gb) : Same root (removeDirAll (rootPath root) ga) (removeDirAll (rootPath root) gb) := by
  unfold Store.removeDirAll
  rw [h.1 _ (own_root root)]
  split
  · refine ⟨⟨fun q hq => ?_, ?_, ?_⟩, rfl⟩
    · dsimp only
      split
      · rfl
      · exact h.1 q hq
    · rintro q hq ⟨c, hc⟩
      dsimp only at hc
      split at hc
      · cases hc
      · exact h.2.1 q hq ⟨c, hc⟩
    · rintro q hq ⟨c, hc⟩
      dsimp only at hc
      split at hc
      · cases hc
      · exact h.2.2 q hq ⟨c, hc⟩
  · exact ⟨h, rfl⟩
  · exact ⟨h, rfl⟩

theorem Agree.lock (h : Agree root ga gb) : Same root (lock root ga) (lock root gb) := by
  unfold Store.lock lockPath
  rw [touch_eq, touch_eq]
  obtain ⟨h1, ha, hb⟩ := h.createDirAll_way
  refine h1.openCreate (own_lock root) ?_
  rw [List.dropLast_concat, ha, hb]

theorem Agree.init (h : Agree root ga gb) : Same root (init root ga) (init root gb) := by
  show Same root (touch (rootPath root ++ [commandsFile]) ga) (touch (rootPath root ++ [commandsFile]) gb)
  rw [touch_eq, touch_eq]
  have h1 := h.createDirAll_graph
  refine h1.openCreate (own_command root) ?_
  rw [List.dropLast_concat]
  exact h1.1 _ (own_root root)

theorem Agree.withLock {α : Type} {block : FS → Io α} (hb : ∀ ga gb, Agree root ga gb → Same root (block ga) (block gb))
    (h : Agree root ga gb) : Same root (withLock root block ga) (withLock root block gb) := by
  unfold Store.withLock
  obtain ⟨h1, e1⟩ := h.lock
  generalize Store.lock root ga = x at h1 e1
  generalize Store.lock root gb = y at h1 e1
  obtain ⟨xa, xe⟩ := x
  obtain ⟨ya, ye⟩ := y
  dsimp only at h1 e1
  subst e1
  cases ye with
  | error e => exact ⟨h1, rfl⟩
  | ok u =>
    obtain ⟨h2, e2⟩ := hb _ _ h1
    dsimp only
    generalize block xa = x at h2 e2
    generalize block ya = y at h2 e2
    obtain ⟨xb, xr⟩ := x
    obtain ⟨yb, yr⟩ := y
    dsimp only at h2 e2
    subst e2
    obtain ⟨h3, e3⟩ := h2.unlock
    dsimp only
    generalize Store.unlock root xb = x at h3 e3
    generalize Store.unlock root yb = y at h3 e3
    obtain ⟨xc, xe⟩ := x
    obtain ⟨yc, ye⟩ := y
    dsimp only at h3 e3
    subst e3
    cases ye <;> exact ⟨h3, rfl⟩

theorem Agree.clean (h : Agree root ga gb) : Same root (clean root ga) (clean root gb) := h.withLock fun _ _ h => h.removeDirAll

theorem Agree.apply (h : Agree root ga gb) (cs : List GraphCommand) :
    Same root (applyGraphCommands root cs ga) (applyGraphCommands root cs gb) := by
  refine h.withLock fun ga gb h => ⟨?_, ?_⟩
  · rw [addCommandsTo_eq, addCommandsTo_eq]
    exact h.appendText _
  · unfold addCommandsTo openAppend
    rw [h.1 _ (own_command root)]
    split <;> rename_i hx <;> split at hx <;> cases hx <;> rfl

theorem Agree.save (h : Agree root ga gb) (g : DirectedGraph) : Same root (saveGraphAsCommands root g ga) (saveGraphAsCommands root g gb) := by
  unfold saveGraphAsCommands
  obtain ⟨h1, e1⟩ := h.createTruncate
  generalize Store.createTruncate (commandPath root) ga = x at h1 e1
  generalize Store.createTruncate (commandPath root) gb = y at h1 e1
  obtain ⟨xa, xe⟩ := x
  obtain ⟨ya, ye⟩ := y
  dsimp only at h1 e1
  subst e1
  cases ye with
  | error e => exact ⟨h1, rfl⟩
  | ok u => exact ⟨Agree.appendText h1 _, rfl⟩

theorem Same.expectOk {x y : Io Unit} (h : Same root x y) : Same root (expectOk x) (expectOk y) := by
  obtain ⟨xa, xe⟩ := x
  obtain ⟨ya, ye⟩ := y
  obtain ⟨h, e⟩ := h
  dsimp only at h e
  subst e
  cases ye <;> exact ⟨h, rfl⟩

theorem Same.andThen {x y : FS × Exit} {f g : FS → FS × Exit} (h : Same root x y) (hf : ∀ ga gb, Agree root ga gb → Same root (f ga) (g gb)) :
    Same root (andThen x f) (andThen y g) := by
  obtain ⟨xa, xe⟩ := x
  obtain ⟨ya, ye⟩ := y
  obtain ⟨h, e⟩ := h
  dsimp only at h e
  subst e
  cases ye with
  | success => exact hf _ _ h
  | panic => exact ⟨h, rfl⟩

theorem Agree.mutateStep (o : Option (List Text)) (mk : List VertexId → Run (List GraphCommand)) (ga gb : FS) (h : Agree root ga gb) :
    Same root (mutateStep root o mk ga) (mutateStep root o mk gb) := by
  unfold Store.mutateStep
  split
  · exact ⟨h, rfl⟩
  · split
    · exact ⟨(h.apply _).1, rfl⟩
    · exact ⟨h, rfl⟩

theorem Agree.exec (h : Agree root ga gb) (cmd : Cmd) : Same root (exec nd root cmd ga) (exec nd root cmd gb) := by
  cases cmd with
  | init => exact h.init.expectOk
  | add a =>
    show Same root (gcAdd root a ga) (gcAdd root a gb)
    unfold gcAdd
    refine (Agree.mutateStep _ _ _ _ h).andThen fun _ _ h => ?_
    refine (Agree.mutateStep _ _ _ _ h).andThen fun _ _ h => ?_
    refine (Agree.mutateStep _ _ _ _ h).andThen fun _ _ h => ?_
    refine (Agree.mutateStep _ _ _ _ h).andThen fun _ _ h => ?_
    refine (Agree.mutateStep _ _ _ _ h).andThen fun _ _ h => ?_
    exact Agree.mutateStep _ _ _ _ h
  | delete v e =>
    show Same root (gcDelete root v e ga) (gcDelete root v e gb)
    unfold gcDelete
    exact (Agree.mutateStep _ _ _ _ h).andThen fun _ _ h => Agree.mutateStep _ _ _ _ h
  | build order =>
    show Same root (gcBuild nd order root ga) (gcBuild nd order root gb)
    unfold gcBuild
    rw [loadGraph_congr (h.1 _ (own_command root))]
    split
    · exact (h.save _).expectOk
    · exact ⟨h, rfl⟩
  | clean force answer =>
    show Same root (gcClean root force answer ga) (gcClean root force answer gb)
    unfold gcClean
    split
    · exact ⟨h, rfl⟩
    · exact h.clean.expectOk
  | random g order force answer =>
    show Same root (Random.finish order root force answer ga (some g)) (Random.finish order root force answer gb (some g))
    unfold Random.finish
    dsimp only
    split
    · exact ⟨h, rfl⟩
    · unfold Random.replaceGraph
      refine h.clean.expectOk.andThen fun _ _ h => ?_
      refine h.init.expectOk.andThen fun _ _ h => ?_
      exact (h.save _).expectOk

/-- A command in another directory. -/
theorem Agree.other {r : FPath} (h : Agree root ga gb) (ha : Apart root r) (cmd : Cmd) : Agree root ga (Store.exec nd r cmd gb).1 := by
  have ho : OnlyOwn r gb (Store.exec nd r cmd gb).1 := (OnlyOwn.refl r gb).exec cmd
  exact ⟨fun q hq => (ho.own_eq ha hq).trans (h.1 q hq), h.2.1, ho.dirPossible (.inr ha) h.2.2⟩

theorem Agree.sessions (l : List (FPath × Cmd)) (hl : ∀ p ∈ l, p.1 = root ∨ Apart root p.1) (h : Agree root ga gb) :
    Agree root (session nd root (ofDir root l) ga).1 (sessions nd l gb).1 ∧
    ofDir root (sessions nd l gb).2 = (session nd root (ofDir root l) ga).2 := by
  induction l generalizing ga gb with
  | nil => exact ⟨h, rfl⟩
  | cons p l ih =>
    obtain ⟨r, cmd⟩ := p
    have hl' := fun p hp => hl p (List.mem_cons_of_mem _ hp)
    unfold Store.sessions
    dsimp only
    by_cases hr : r = root
    · subst hr
      obtain ⟨h1, e1⟩ := h.exec (nd := nd) cmd
      obtain ⟨h2, e2⟩ := ih hl' h1
      have eo : ofDir r ((r, cmd) :: l) = cmd :: ofDir r l := by simp [ofDir]
      rw [eo]
      unfold session
      refine ⟨h2, ?_⟩
      dsimp only
      rw [← e2, ← e1]
      simp [ofDir]
    · have ha : Apart root r := (hl (r, cmd) (List.mem_cons_self ..)).resolve_left hr
      obtain ⟨h2, e2⟩ := ih hl' (h.other (nd := nd) ha cmd)
      have eo : ofDir root ((r, cmd) :: l) = ofDir root l := by simp [ofDir, hr]
      rw [eo]
      refine ⟨h2, ?_⟩
      rw [← e2]
      simp [ofDir, hr]

end Store
end GC
