/- States left behind by killed commands. -/
import Verif.Model.Crash
import Verif.Proofs.History
import Verif.Proofs.Crash
namespace GC
namespace Store
open Text Format

/-- Whatever was killed, gc-clean and gc-init can work: no regular file is in the way of `.graph`, the names `commands` and `lock` do not belong
to directories, and nothing is below a missing `.graph`. -/
def Usable (root : FPath) (fs : FS) : Prop :=
  DirPossible fs (rootPath root) ∧ fs (commandPath root) ≠ some .dir ∧ fs (lockPath root) ≠ some .dir ∧
  (fs (rootPath root) = none → ∀ q, rootPath root <+: q → fs q = none)

/-- Usable, and nothing elsewhere differs from `fs0`. -/
def UsableFrom (root : FPath) (fs0 fs : FS) : Prop := Usable root fs ∧ Elsewhere root fs0 fs

variable {nd : Char → Bool} {root : FPath} {fs fs' fs1 fs0 : FS}

theorem Ready.usable (h : Ready root fs) : Usable root fs := by
  obtain ⟨h1, ⟨c, h2⟩, h3⟩ := h
  refine ⟨?_, by rw [h2]; simp, h3, fun hn => ?_⟩
  · rintro q hq ⟨d, hd⟩
    rw [h1 q hq] at hd
    cases hd
  · rw [h1 _ (List.prefix_refl _)] at hn
    cases hn

theorem Fresh.usable (h : Fresh root fs) : Usable root fs := by
  refine ⟨?_, by rw [h.command]; simp, h.2.2, fun _ => h.2.1⟩
  rintro q hq ⟨d, hd⟩
  rcases prefix_graph hq with rfl | hq
  · rw [h.2.1 _ (List.prefix_refl _)] at hd; cases hd
  · exact h.1 q hq ⟨d, hd⟩

theorem Holds.usable {S : Option SetGraph} (h : Holds nd root fs S) : Usable root fs := by
  cases S with
  | none => exact Fresh.usable h
  | some G => exact Ready.usable h.1

theorem Usable.dirPossible (h : Usable root fs) : DirPossible fs root := fun q hq => h.1 q (hq.trans (List.prefix_append _ _))

theorem Usable.lockable (h : Usable root fs) : Lockable root fs := ⟨h.dirPossible, h.2.2.1⟩

/-- A directory prefix of `.graph` is created. -/
theorem Usable.createDirAll (h : Usable root fs) {d : FPath} (hd : d <+: rootPath root) : Usable root (createDirAll d fs).1 := by
  have hp : DirPossible fs d := fun q hq => h.1 q (hq.trans hd)
  have hval : ∀ q, ¬ q <+: d → (Store.createDirAll d fs).1 q = fs q := by
    intro q hq
    rw [createDirAll_ok hp]
    exact if_neg (by rwa [isPrefixOf_iff])
  have hval' : ∀ q, q <+: d → (Store.createDirAll d fs).1 q = some .dir := by
    intro q hq
    rw [createDirAll_ok hp]
    exact if_pos (isPrefixOf_iff.2 hq)
  have hc : ¬ commandPath root <+: d := fun hq => prefix_graph_ne_command (hq.trans hd) rfl
  have hl : ¬ lockPath root <+: d := fun hq => prefix_graph_ne_lock (hq.trans hd) rfl
  refine ⟨?_, ?_, ?_, ?_⟩
  · rintro q hq ⟨c, hc⟩
    by_cases hqd : q <+: d
    · rw [hval' q hqd] at hc; cases hc
    · rw [hval q hqd] at hc; exact h.1 q hq ⟨c, hc⟩
  · rw [hval _ hc]; exact h.2.1
  · rw [hval _ hl]; exact h.2.2.1
  · intro hn q hq
    by_cases hr : rootPath root <+: d
    · rw [hval' _ hr] at hn; cases hn
    · rw [hval _ hr] at hn
      rw [hval q (fun hq' => hr (hq.trans hq'))]
      exact h.2.2.2 hn q hq

/-- Changing only the lock file keeps everything. -/
theorem Usable.of_lock (h : Usable root fs) (hl : fs' (lockPath root) ≠ some .dir) (ho : ∀ q, q ≠ lockPath root → fs' q = fs q) :
    Usable root fs' := by
  refine ⟨?_, by rw [ho _ (lock_ne_command root)]; exact h.2.1, hl, ?_⟩
  · rintro q hq ⟨c, hc⟩
    rw [ho q (prefix_graph_ne_lock hq)] at hc
    exact h.1 q hq ⟨c, hc⟩
  · intro hn q hq
    have hne : ∀ q, rootPath root <+: q → q ≠ lockPath root := by
      rintro q hq rfl
      exact lock_not_under_graph root hq
    rw [ho _ (hne _ (List.prefix_refl _))] at hn
    rw [ho q (hne q hq)]
    exact h.2.2.2 hn q hq

/-- Changing only the command file, to a file, when `.graph` exists. -/
theorem Usable.of_command (h : Usable root fs) (hg : fs (rootPath root) ≠ none) (hl : fs' (commandPath root) ≠ some .dir)
    (ho : ∀ q, q ≠ commandPath root → fs' q = fs q) : Usable root fs' := by
  refine ⟨?_, hl, by rw [ho _ (lock_ne_command root).symm]; exact h.2.2.1, ?_⟩
  · rintro q hq ⟨c, hc⟩
    rw [ho q (prefix_graph_ne_command hq)] at hc
    exact h.1 q hq ⟨c, hc⟩
  · intro hn
    rw [ho _ (prefix_graph_ne_command (List.prefix_refl _))] at hn
    exact absurd hn hg

theorem Usable.removeKilled (h : Usable root fs) (hk : RemoveDirKilled (rootPath root) fs fs') : Usable root fs' := by
  refine ⟨?_, ?_, ?_, ?_⟩
  · rintro q hq ⟨c, hc⟩
    rcases hk.1 q with e | ⟨_, e⟩
    · rw [e] at hc; exact h.1 q hq ⟨c, hc⟩
    · rw [e] at hc; cases hc
  · rcases hk.1 (commandPath root) with e | ⟨_, e⟩ <;> rw [e]
    · exact h.2.1
    · simp
  · rcases hk.1 (lockPath root) with e | ⟨_, e⟩ <;> rw [e]
    · exact h.2.2.1
    · simp
  · intro hn q hq
    by_cases hr : fs (rootPath root) = none
    · rcases hk.1 q with e | ⟨_, e⟩
      · rw [e]; exact h.2.2.2 hr q hq
      · exact e
    · exact hk.2 _ _ hq hr hn

theorem Elsewhere.refl (root : FPath) (fs : FS) : Elsewhere root fs fs := fun _ _ _ => .inl rfl

theorem Elsewhere.trans {a b c : FS} (h1 : Elsewhere root a b) (h2 : Elsewhere root b c) : Elsewhere root a c := by
  intro q hq hq'
  rcases h1 q hq hq' with e1 | ⟨p1, n1, d1⟩
  · rcases h2 q hq hq' with e2 | ⟨p2, n2, d2⟩
    · exact .inl (e2.trans e1)
    · exact .inr ⟨p2, e1 ▸ n2, d2⟩
  · rcases h2 q hq hq' with e2 | ⟨p2, n2, d2⟩
    · exact .inr ⟨p1, n1, e2.trans d1⟩
    · exact .inr ⟨p1, n1, d2⟩

theorem UsableFrom.createDirAll (h : UsableFrom root fs0 fs) {d : FPath} (hd : d <+: rootPath root) :
    UsableFrom root fs0 (createDirAll d fs).1 := by
  refine ⟨h.1.createDirAll hd, h.2.trans fun q hq hq' => ?_⟩
  have hp : DirPossible fs d := fun q hq => h.1.1 q (hq.trans hd)
  rw [createDirAll_ok hp]
  by_cases hqd : q <+: d
  · have e : (fun q => if q.isPrefixOf d then some Node.dir else fs q) q = some .dir := if_pos (isPrefixOf_iff.2 hqd)
    have hr : q <+: root := by
      rcases prefix_graph (hqd.trans hd) with rfl | h
      · exact absurd (List.prefix_refl _) hq'
      · exact h
    cases hx : fs q with
    | none => exact .inr ⟨hr, rfl, e⟩
    | some n =>
      cases n with
      | dir => exact .inl e
      | file c => exact absurd ⟨c, hx⟩ (hp q hqd)
  · left
    exact if_neg (by rwa [isPrefixOf_iff])

theorem UsableFrom.of_lock (h : UsableFrom root fs0 fs) (hl : fs' (lockPath root) ≠ some .dir) (ho : ∀ q, q ≠ lockPath root → fs' q = fs q) :
    UsableFrom root fs0 fs' := ⟨h.1.of_lock hl ho, h.2.trans fun q hq _ => .inl (ho q hq)⟩

theorem UsableFrom.of_command (h : UsableFrom root fs0 fs) (hg : fs (rootPath root) ≠ none) (hl : fs' (commandPath root) ≠ some .dir)
    (ho : ∀ q, q ≠ commandPath root → fs' q = fs q) : UsableFrom root fs0 fs' :=
  ⟨h.1.of_command hg hl ho, h.2.trans fun q _ hq => .inl (ho q (by rintro rfl; exact hq (root_prefix_command root)))⟩

theorem UsableFrom.removeKilled (h : UsableFrom root fs0 fs) (hk : RemoveDirKilled (rootPath root) fs fs') : UsableFrom root fs0 fs' :=
  ⟨h.1.removeKilled hk, h.2.trans fun q _ hq => .inl ((hk.1 q).resolve_right fun h => hq h.1)⟩

theorem touch_eq (d : FPath) (x : Text) (fs : FS) : touch (d ++ [x]) fs = openCreate (d ++ [x]) (createDirAll d fs).1 := by
  unfold touch
  rw [List.dropLast_concat]

theorem openCreate_other (p : FPath) (fs : FS) : (∀ q, q ≠ p → (openCreate p fs).1 q = fs q) ∧
    (fs p ≠ some .dir → (openCreate p fs).1 p ≠ some .dir) := by
  unfold openCreate
  split
  · exact ⟨fun _ _ => rfl, id⟩
  · exact ⟨fun _ _ => rfl, id⟩
  · split
    · exact ⟨fun q hq => FS.set_other _ _ hq, fun _ => by simp [FS.set]⟩
    · exact ⟨fun _ _ => rfl, id⟩
    · exact ⟨fun _ _ => rfl, id⟩

theorem UsableFrom.touch_lock (h : UsableFrom root fs0 fs) : UsableFrom root fs0 (touch (lockPath root) fs).1 := by
  unfold lockPath
  rw [touch_eq]
  have h1 := h.createDirAll (List.prefix_append root _)
  exact h1.of_lock ((openCreate_other _ _).2 h1.1.2.2.1) (openCreate_other _ _).1

theorem UsableFrom.touch_command (h : UsableFrom root fs0 fs) : UsableFrom root fs0 (touch (commandPath root) fs).1 := by
  show UsableFrom root fs0 (touch (rootPath root ++ [commandsFile]) fs).1
  rw [touch_eq]
  have h1 := h.createDirAll (List.prefix_refl (rootPath root))
  refine h1.of_command ?_ ((openCreate_other _ _).2 h1.1.2.1) (openCreate_other _ _).1
  rw [createDirAll_ok h.1.1]
  show (if (rootPath root).isPrefixOf (rootPath root) then some Node.dir else _) ≠ none
  rw [if_pos (isPrefixOf_iff.2 (List.prefix_refl _))]
  simp

theorem UsableFrom.appendText (h : UsableFrom root fs0 fs) (t : Text) : UsableFrom root fs0 (appendText (commandPath root) t fs) := by
  unfold Store.appendText
  split
  · rename_i c hc
    refine h.of_command ?_ (by simp [FS.set]) fun q hq => FS.set_other _ _ hq
    intro hn
    rw [h.1.2.2.2 hn _ (root_prefix_command root)] at hc
    cases hc
  · exact h

theorem UsableFrom.createTruncate (h : UsableFrom root fs0 fs) : UsableFrom root fs0 (createTruncate (commandPath root) fs).1 := by
  have hd : (commandPath root).dropLast = rootPath root := by
    show (rootPath root ++ [commandsFile]).dropLast = _
    rw [List.dropLast_concat]
  unfold Store.createTruncate
  rw [hd]
  split
  · rename_i c hc
    refine h.of_command ?_ (by simp [FS.set]) fun q hq => FS.set_other _ _ hq
    intro hn
    rw [h.1.2.2.2 hn _ (root_prefix_command root)] at hc
    cases hc
  · exact h
  · split
    · rename_i hdir
      exact h.of_command (by rw [hdir]; simp) (by simp [FS.set]) fun q hq => FS.set_other _ _ hq
    · exact h
    · exact h

theorem UsableFrom.unlock (h : UsableFrom root fs0 fs) : UsableFrom root fs0 (unlock root fs).1 := by
  unfold Store.unlock removeFile
  split
  · exact h.of_lock (by simp [FS.set]) fun q hq => FS.set_other _ _ hq
  · exact h
  · exact h

theorem removeDirAll_killed (p : FPath) (fs : FS) : RemoveDirKilled p fs (removeDirAll p fs).1 := by
  unfold removeDirAll
  split
  · refine ⟨fun q => ?_, fun q r hqr hq hq' => ?_⟩
    · by_cases hp : p.isPrefixOf q = true
      · right
        exact ⟨isPrefixOf_iff.1 hp, if_pos hp⟩
      · left
        exact if_neg hp
    · by_cases hp : p.isPrefixOf q = true
      · exact if_pos (isPrefixOf_iff.2 ((isPrefixOf_iff.1 hp).trans hqr))
      · exact absurd ((if_neg hp).symm.trans hq') hq
  · exact ⟨fun q => .inl rfl, fun q r _ hq hq' => absurd hq' hq⟩
  · exact ⟨fun q => .inl rfl, fun q r _ hq hq' => absurd hq' hq⟩

theorem UsableFrom.touchKilled_lock (h : UsableFrom root fs0 fs) (hk : TouchKilled (lockPath root) fs fs') : UsableFrom root fs0 fs' := by
  rcases hk with rfl | ⟨d, hd, rfl⟩ | rfl
  · exact h
  · refine h.createDirAll (hd.trans ?_)
    unfold lockPath
    rw [List.dropLast_concat]
    exact List.prefix_append _ _
  · exact h.touch_lock

theorem UsableFrom.touchKilled_command (h : UsableFrom root fs0 fs) (hk : TouchKilled (commandPath root) fs fs') : UsableFrom root fs0 fs' := by
  rcases hk with rfl | ⟨d, hd, rfl⟩ | rfl
  · exact h
  · refine h.createDirAll (hd.trans ?_)
    show (rootPath root ++ [commandsFile]).dropLast <+: rootPath root
    rw [List.dropLast_concat]
    exact List.prefix_refl _
  · exact h.touch_command

theorem withLock_fst {α : Type} (block : FS → Io α) (fs : FS) :
    (withLock root block fs).1 = (lock root fs).1 ∨ (withLock root block fs).1 = (unlock root (block (lock root fs).1).1).1 := by
  unfold withLock
  generalize lock root fs = r
  obtain ⟨fs1, e⟩ := r
  cases e with
  | error e => exact .inl rfl
  | ok u =>
    right
    dsimp only
    generalize hb : block fs1 = b
    obtain ⟨fs2, res⟩ := b
    dsimp only
    generalize unlock root fs2 = r
    obtain ⟨fs3, e⟩ := r
    cases e <;> rfl

/-- An invariant that holds while the lock is taken and released and in the block holds whenever the process is killed. -/
theorem withLock_induct {α : Type} {P : FS → Prop} {block : FS → Io α} (hlock : ∀ fs fs', P fs → TouchKilled (lockPath root) fs fs' → P fs')
    (hunlock : ∀ fs, P fs → P (unlock root fs).1) (hblock : ∀ fs, P fs → P (block fs).1) (h : P fs) : P (withLock root block fs).1 := by
  have hl : P (lock root fs).1 := hlock _ _ h (.inr (.inr rfl))
  rcases withLock_fst (root := root) block fs with e | e <;> rw [e]
  · exact hl
  · exact hunlock _ (hblock _ hl)

theorem withLockKilled_induct {α : Type} {P : FS → Prop} {block : FS → Io α} {bk : FS → FS → Prop}
    (hlock : ∀ fs fs', P fs → TouchKilled (lockPath root) fs fs' → P fs')
    (hunlock : ∀ fs, P fs → P (unlock root fs).1) (hblock : ∀ fs, P fs → P (block fs).1) (hbk : ∀ fs fs', P fs → bk fs fs' → P fs')
    (h : P fs) (hk : WithLockKilled root block bk fs fs') : P fs' := by
  rcases hk with hk | ⟨fs1, h1, hk⟩
  · exact hlock _ _ h hk
  · have hl : P fs1 := by
      have := hlock _ _ h (.inr (.inr (rfl : (touch (lockPath root) fs).1 = _)))
      unfold lock at h1
      rwa [h1] at this
    rcases hk with hk | rfl | rfl
    · exact hbk _ _ hl hk
    · exact hblock _ hl
    · exact withLock_induct hlock hunlock hblock h

theorem addCommandsTo_eq (p : FPath) (cs : List GraphCommand) (fs : FS) : (addCommandsTo p cs fs).1 = appendText p (Gcmd.commandsText cs) fs := by
  unfold addCommandsTo openAppend Store.appendText
  cases hx : fs p with
  | none => rfl
  | some n =>
    cases n with
    | dir => rfl
    | file c =>
      dsimp only
      rw [hx]

theorem UsableFrom.apply (h : UsableFrom root fs0 fs) (cs : List GraphCommand) : UsableFrom root fs0 (applyGraphCommands root cs fs).1 :=
  withLock_induct (fun _ _ h hk => UsableFrom.touchKilled_lock h hk) (fun _ h => h.unlock)
    (fun _ h => by rw [addCommandsTo_eq]; exact h.appendText _) h

theorem UsableFrom.applyKilled (h : UsableFrom root fs0 fs) {cs : List GraphCommand} (hk : ApplyKilled root cs fs fs') : UsableFrom root fs0 fs' :=
  withLockKilled_induct (fun _ _ h hk => UsableFrom.touchKilled_lock h hk) (fun _ h => h.unlock)
    (fun _ h => by rw [addCommandsTo_eq]; exact h.appendText _) (fun _ _ h ⟨t, _, e⟩ => e ▸ h.appendText t) h hk

theorem UsableFrom.clean (h : UsableFrom root fs0 fs) : UsableFrom root fs0 (clean root fs).1 :=
  withLock_induct (fun _ _ h hk => UsableFrom.touchKilled_lock h hk) (fun _ h => h.unlock) (fun _ h => h.removeKilled (removeDirAll_killed _ _)) h

theorem UsableFrom.cleanKilled (h : UsableFrom root fs0 fs) (hk : CleanKilled root fs fs') : UsableFrom root fs0 fs' :=
  withLockKilled_induct (fun _ _ h hk => UsableFrom.touchKilled_lock h hk) (fun _ h => h.unlock)
    (fun _ h => h.removeKilled (removeDirAll_killed _ _)) (fun _ _ h hk => h.removeKilled hk) h hk

theorem UsableFrom.save (h : UsableFrom root fs0 fs) (g : DirectedGraph) : UsableFrom root fs0 (saveGraphAsCommands root g fs).1 := by
  have h1 := h.createTruncate
  unfold saveGraphAsCommands
  generalize Store.createTruncate (commandPath root) fs = r at h1
  obtain ⟨fs1, e⟩ := r
  cases e with
  | error e => exact h1
  | ok u => exact UsableFrom.appendText h1 _

theorem UsableFrom.saveKilled (h : UsableFrom root fs0 fs) {g : DirectedGraph} (hk : SaveKilled root g fs fs') : UsableFrom root fs0 fs' := by
  rcases hk with rfl | ⟨t, _, rfl⟩
  · exact h
  · exact h.createTruncate.appendText t

/-- Invariants of killed gc-add and gc-delete. -/
theorem mutateKilled_induct {P : FS → Prop} (hk : ∀ fs fs' cs, P fs → ApplyKilled root cs fs fs' → P fs')
    {o : Option (List Text)} {mk : List VertexId → Run (List GraphCommand)} (h : P fs) (hm : MutateKilled root o mk fs fs') : P fs' := by
  rcases hm with rfl | ⟨l, cs, _, _, hm⟩
  · exact h
  · exact hk _ _ _ h hm

theorem stepKilled_induct {P : FS → Prop} (hP : ∀ fs cs, P fs → P (applyGraphCommands root cs fs).1)
    (hk : ∀ fs fs' cs, P fs → ApplyKilled root cs fs fs' → P fs') {rest : FS → FS → Prop} (hr : ∀ fs fs', P fs → rest fs fs' → P fs')
    {o : Option (List Text)} {mk : List VertexId → Run (List GraphCommand)} (fs fs' : FS) (h : P fs)
    (hm : StepKilled root o mk rest fs fs') : P fs' := by
  rcases hm with hm | ⟨_, hm⟩
  · exact mutateKilled_induct hk h hm
  · exact hr _ _ (mutateStep_induct hP _ _ h) hm

theorem gcAddKilled_induct {P : FS → Prop} (hP : ∀ fs cs, P fs → P (applyGraphCommands root cs fs).1)
    (hk : ∀ fs fs' cs, P fs → ApplyKilled root cs fs fs' → P fs') {a : AddArgs} (h : P fs) (hm : GcAddKilled root a fs fs') : P fs' := by
  unfold GcAddKilled at hm
  revert hm
  refine stepKilled_induct hP hk ?_ fs fs' h
  refine stepKilled_induct hP hk ?_
  refine stepKilled_induct hP hk ?_
  refine stepKilled_induct hP hk ?_
  refine stepKilled_induct hP hk ?_
  exact fun fs fs' h hm => mutateKilled_induct hk h hm

theorem gcDeleteKilled_induct {P : FS → Prop} (hP : ∀ fs cs, P fs → P (applyGraphCommands root cs fs).1)
    (hk : ∀ fs fs' cs, P fs → ApplyKilled root cs fs fs' → P fs') {v e : Option (List Text)} (h : P fs)
    (hm : GcDeleteKilled root v e fs fs') : P fs' := by
  unfold GcDeleteKilled at hm
  revert hm
  refine stepKilled_induct hP hk ?_ fs fs' h
  exact fun fs fs' h hm => mutateKilled_induct hk h hm

theorem expectOk_fst (r : Io Unit) : (expectOk r).1 = r.1 := by
  obtain ⟨fs, e⟩ := r
  cases e <;> rfl

theorem gcBuild_fst (order : DirectedGraph → DirectedGraph) (fs : FS) :
    (gcBuild nd order root fs).1 = fs ∨
    ∃ g, loadGraph nd root fs = .done (.ok g) ∧ (gcBuild nd order root fs).1 = (saveGraphAsCommands root (order g) fs).1 := by
  unfold gcBuild
  split
  · rename_i g hg
    exact .inr ⟨g, hg, expectOk_fst _⟩
  · exact .inl rfl

/-- Commands that only append or lock, and gc-build, gc-clean and gc-random. -/
theorem UsableFrom.exec (h : UsableFrom root fs0 fs) (cmd : Cmd) : UsableFrom root fs0 (exec nd root cmd fs).1 := by
  cases cmd with
  | init =>
    show UsableFrom root fs0 (expectOk _).1
    rw [expectOk_fst]
    exact h.touch_command
  | add a => exact gcAdd_induct (P := UsableFrom root fs0) (fun _ cs h => UsableFrom.apply h cs) a h
  | delete v e => exact gcDelete_induct (P := UsableFrom root fs0) (fun _ cs h => UsableFrom.apply h cs) v e h
  | build order =>
    show UsableFrom root fs0 (gcBuild nd order root fs).1
    rcases gcBuild_fst (nd := nd) (root := root) order fs with e | ⟨g, _, e⟩ <;> rw [e]
    · exact h
    · exact h.save _
  | clean force answer =>
    show UsableFrom root fs0 (gcClean root force answer fs).1
    unfold gcClean
    split
    · exact h
    · rw [expectOk_fst]; exact h.clean
  | random g order force answer =>
    show UsableFrom root fs0 (Random.finish order root force answer fs (some g)).1
    unfold Random.finish
    dsimp only
    split
    · exact h
    · unfold Random.replaceGraph
      refine andThen_induct (by rw [expectOk_fst]; exact h.clean) fun fs h => ?_
      refine andThen_induct (by rw [expectOk_fst]; exact UsableFrom.touch_command h) fun fs h => ?_
      rw [expectOk_fst]
      exact UsableFrom.save h _

theorem UsableFrom.killed (h : UsableFrom root fs0 fs) {cmd : Cmd} (hk : Killed nd root cmd fs fs') : UsableFrom root fs0 fs' := by
  cases cmd with
  | init => exact h.touchKilled_command hk
  | add a => exact gcAddKilled_induct (fun _ cs h => UsableFrom.apply h cs) (fun _ _ _ h hk => UsableFrom.applyKilled h hk) h hk
  | delete v e => exact gcDeleteKilled_induct (fun _ cs h => UsableFrom.apply h cs) (fun _ _ _ h hk => UsableFrom.applyKilled h hk) h hk
  | build order =>
    rcases hk with rfl | ⟨g, _, hk⟩
    · exact h
    · exact h.saveKilled hk
  | clean force answer =>
    rcases hk with rfl | ⟨_, hk⟩
    · exact h
    · exact h.cleanKilled hk
  | random g order force answer =>
    rcases hk with rfl | ⟨_, hk⟩
    · exact h
    · rcases hk with hk | ⟨_, hk⟩
      · exact h.cleanKilled hk
      · have h1 : UsableFrom root fs0 (expectOk (Store.clean root fs)).1 := by rw [expectOk_fst]; exact h.clean
        rcases hk with hk | ⟨_, hk⟩
        · exact h1.touchKilled_command hk
        · refine UsableFrom.saveKilled ?_ hk
          show UsableFrom root fs0 (expectOk (Store.init root _)).1
          rw [expectOk_fst]
          exact h1.touch_command

theorem UsableFrom.session {l : List (Cmd × Bool)} (h : UsableFrom root fs0 fs) (hs : CrashSession nd root l fs fs') : UsableFrom root fs0 fs' := by
  induction hs with
  | nil => exact h
  | ran _ ih => exact ih (h.exec _)
  | killed hk _ ih => exact ih (h.killed hk)

/-! ### gc-clean and gc-init afterwards -/

theorem Usable.clean_fresh (h : Usable root fs) :
    ∃ fs' e, Store.clean root fs = (fs', e) ∧ Fresh root fs' ∧ Untouched root fs fs' := by
  obtain ⟨fs1, h1, h2, _⟩ := withLock_ok (block := removeDirAll (rootPath root)) h.lockable
  have hdir : fs1 (rootPath root) = fs (rootPath root) := h1.content (List.prefix_refl _)
  have key : ∀ q, (removeDirAll (rootPath root) fs1).1 q = if rootPath root <+: q then none else fs1 q := by
    intro q
    unfold removeDirAll
    cases hx : fs1 (rootPath root) with
    | none =>
      dsimp only
      split
      · rename_i hq
        rw [h1.content hq]
        exact h.2.2.2 (hdir ▸ hx) q hq
      · rfl
    | some n =>
      cases n with
      | dir =>
        dsimp only
        by_cases hq : rootPath root <+: q
        · rw [if_pos hq, if_pos (isPrefixOf_iff.2 hq)]
        · rw [if_neg hq, if_neg (by rwa [isPrefixOf_iff])]
      | file c => exact absurd ⟨c, hdir ▸ hx⟩ (h.1 _ (List.prefix_refl _))
  have hlock : FileAt (removeDirAll (rootPath root) fs1).1 (lockPath root) := by
    unfold FileAt
    rw [key, if_neg (lock_not_under_graph root)]
    exact h1.1
  have hf := fresh_unlock h.dirPossible h1 (fs2 := (removeDirAll (rootPath root) fs1).1)
    (fun q hq => by rw [key, if_pos hq]) (fun q hq => by rw [key, if_neg hq])
  exact ⟨_, _, h2 hlock, hf.1, hf.2⟩

/-- gc-init keeps an existing command file and creates a missing one. -/
theorem Usable.init (h : Usable root fs) :
    ∃ fs', Store.init root fs = (fs', .ok ()) ∧ Ready root fs' ∧
      fs' (commandPath root) = some ((fs (commandPath root)).getD (.file [])) := by
  have he : Store.init root fs = (touched (rootPath root) commandsFile fs, .ok ()) := touch_ok h.1 h.2.1
  have hl : ∀ q, q ≠ commandPath root → ¬ q <+: rootPath root → touched (rootPath root) commandsFile fs q = fs q :=
    fun q h1 h2 => touched_other h1 h2
  refine ⟨_, he, ⟨fun q hq => touched_prefix hq, touched_self, ?_⟩, ?_⟩
  · rw [hl _ (lock_ne_command root).symm (fun hq => prefix_graph_ne_lock hq rfl)]
    exact h.2.2.1
  · show touched (rootPath root) commandsFile fs (rootPath root ++ [commandsFile]) = _
    unfold touched
    rw [if_pos rfl]
    have hc := h.2.1
    unfold commandPath at hc ⊢
    unfold rootPath
    cases hx : fs (root ++ [graphRootDir] ++ [commandsFile]) with
    | none => rfl
    | some n =>
      cases n with
      | dir => exact absurd hx hc
      | file c => rfl

/-! ### What the command file contains -/

theorem createDirAll_command (d : FPath) (hd : d <+: rootPath root) : (createDirAll d fs).1 (commandPath root) = fs (commandPath root) := by
  unfold createDirAll
  split
  · rfl
  · refine if_neg ?_
    rw [isPrefixOf_iff]
    exact fun hq => prefix_graph_ne_command (hq.trans hd) rfl

theorem touchKilled_lock_command (hk : TouchKilled (lockPath root) fs fs') : fs' (commandPath root) = fs (commandPath root) := by
  have hd : (lockPath root).dropLast = root := by unfold lockPath; rw [List.dropLast_concat]
  rcases hk with rfl | ⟨d, hd', rfl⟩ | rfl
  · rfl
  · rw [hd] at hd'
    exact createDirAll_command d (hd'.trans (List.prefix_append _ _))
  · unfold touch
    rw [hd, (openCreate_other _ _).1 _ (lock_ne_command root)]
    exact createDirAll_command root (List.prefix_append _ _)

theorem unlock_command (fs : FS) : (unlock root fs).1 (commandPath root) = fs (commandPath root) := by
  unfold unlock removeFile
  split
  · exact FS.set_other _ _ (lock_ne_command root)
  · rfl
  · rfl

theorem loadGraph_congr (h : fs' (commandPath root) = fs (commandPath root)) : loadGraph nd root fs' = loadGraph nd root fs := by
  unfold loadGraph
  rw [h]

theorem cleanKilled_command (hk : CleanKilled root fs fs') :
    fs' (commandPath root) = fs (commandPath root) ∨ fs' (commandPath root) = none := by
  refine withLockKilled_induct (P := fun x => x (commandPath root) = fs (commandPath root) ∨ x (commandPath root) = none)
    (fun _ _ h hk => ?_) (fun _ h => ?_) (fun x h => ?_) (fun _ _ h hk => ?_) (.inl rfl) hk
  · rw [touchKilled_lock_command hk]; exact h
  · rw [unlock_command]; exact h
  · rcases (removeDirAll_killed (rootPath root) x).1 (commandPath root) with e | ⟨_, e⟩
    · rw [e]; exact h
    · exact .inr e
  · rcases hk.1 (commandPath root) with e | ⟨_, e⟩
    · rw [e]; exact h
    · exact .inr e

theorem touchKilled_command_command (hk : TouchKilled (commandPath root) fs fs') :
    fs' (commandPath root) = fs (commandPath root) ∨ (fs (commandPath root) = none ∧ fs' (commandPath root) = some (.file [])) := by
  have hd : (commandPath root).dropLast = rootPath root := by
    show (rootPath root ++ [commandsFile]).dropLast = _
    rw [List.dropLast_concat]
  rcases hk with rfl | ⟨d, hd', rfl⟩ | rfl
  · exact .inl rfl
  · rw [hd] at hd'
    exact .inl (createDirAll_command d hd')
  · unfold touch
    rw [hd, ← createDirAll_command (fs := fs) (rootPath root) (List.prefix_refl _)]
    generalize (createDirAll (rootPath root) fs).1 = x
    unfold openCreate
    split
    · exact .inl rfl
    · exact .inl rfl
    · rename_i hx
      split
      · exact .inr ⟨hx, FS.set_self _ _ _⟩
      · exact .inl rfl
      · exact .inl rfl

/-! ### Killed additions -/

theorem Ready.of_lock (h : Ready root fs) (hl : fs' (lockPath root) ≠ some .dir) (ho : ∀ q, q ≠ lockPath root → fs' q = fs q) :
    Ready root fs' := by
  refine ⟨fun q hq => ?_, ?_, hl⟩
  · rw [ho q (prefix_graph_ne_lock hq)]; exact h.1 q hq
  · obtain ⟨c, hc⟩ := h.2.1
    exact ⟨c, by rw [ho _ (lock_ne_command root)]; exact hc⟩

theorem Ready.createDirAll (h : Ready root fs) {d : FPath} (hd : d <+: rootPath root) : (createDirAll d fs).1 = fs := by
  rw [createDirAll_ok fun q hq => h.usable.1 q (hq.trans hd)]
  funext q
  by_cases hq : q <+: d
  · exact (if_pos (isPrefixOf_iff.2 hq)).trans (h.1 q (hq.trans hd)).symm
  · exact if_neg (by rwa [isPrefixOf_iff])

theorem Ready.touchKilled_lock (h : Ready root fs) (hk : TouchKilled (lockPath root) fs fs') : Ready root fs' := by
  have hd : (lockPath root).dropLast = root := by unfold lockPath; rw [List.dropLast_concat]
  rcases hk with rfl | ⟨d, hd', rfl⟩ | rfl
  · exact h
  · rw [hd] at hd'
    rw [h.createDirAll (hd'.trans (List.prefix_append _ _))]
    exact h
  · unfold touch
    rw [hd, h.createDirAll (List.prefix_append _ _)]
    exact h.of_lock ((openCreate_other _ _).2 h.2.2) (openCreate_other _ _).1

theorem Ready.touchKilled_command (h : Ready root fs) (hk : TouchKilled (commandPath root) fs fs') : fs' = fs := by
  have hd : (commandPath root).dropLast = rootPath root := by
    show (rootPath root ++ [commandsFile]).dropLast = _
    rw [List.dropLast_concat]
  rcases hk with rfl | ⟨d, hd', rfl⟩ | rfl
  · rfl
  · rw [hd] at hd'
    exact h.createDirAll hd'
  · have := init_ready h
    unfold Store.init at this
    rw [this]

theorem Ready.unlock (h : Ready root fs) : Ready root (unlock root fs).1 := by
  unfold Store.unlock removeFile
  split
  · exact h.of_lock (by simp [FS.set]) fun q hq => FS.set_other _ _ hq
  · exact h
  · exact h

/-- The directory is ready and this text is in the command file. -/
def Has (root : FPath) (c : Text) (fs : FS) : Prop := Ready root fs ∧ Content root fs c

theorem Has.touchKilled_lock {c : Text} (h : Has root c fs) (hk : TouchKilled (lockPath root) fs fs') : Has root c fs' :=
  ⟨h.1.touchKilled_lock hk, (touchKilled_lock_command hk).trans h.2⟩

theorem Has.unlock {c : Text} (h : Has root c fs) : Has root c (unlock root fs).1 := ⟨h.1.unlock, (unlock_command fs).trans h.2⟩

theorem Has.append {c : Text} (h : Has root c fs) (t : Text) : Has root (c ++ t) (appendText (commandPath root) t fs) := by
  have hc := h.2
  unfold Content at hc
  unfold Store.appendText
  rw [hc]
  dsimp only
  refine ⟨⟨fun q hq => ?_, ⟨c ++ t, FS.set_self _ _ _⟩, ?_⟩, FS.set_self _ _ _⟩
  · rw [FS.set_other _ _ (prefix_graph_ne_command hq)]; exact h.1.1 q hq
  · rw [FS.set_other _ _ (lock_ne_command root).symm]; exact h.1.2.2

theorem Has.apply {c : Text} (h : Has root c fs) (cs : List GraphCommand) :
    Has root (c ++ Gcmd.commandsText cs) (applyGraphCommands root cs fs).1 := by
  obtain ⟨fs', h1, h2, h3, _⟩ := applyGraphCommands_ready h.1 h.2 cs
  rw [h1]
  exact ⟨h3, h2⟩

theorem Has.applyKilled {c : Text} (h : Has root c fs) {cs : List GraphCommand} (hk : ApplyKilled root cs fs fs') :
    ∃ p, p <+: Gcmd.commandsText cs ∧ Has root (c ++ p) fs' := by
  have nil : ∀ {x}, Has root c x → ∃ p, p <+: Gcmd.commandsText cs ∧ Has root (c ++ p) x :=
    fun h => ⟨[], List.nil_prefix, by rw [List.append_nil]; exact h⟩
  rcases hk with hk | ⟨fs1, h1, hk⟩
  · exact nil (h.touchKilled_lock hk)
  · have hl : Has root c fs1 := by
      have := h.touchKilled_lock (.inr (.inr (rfl : (touch (lockPath root) fs).1 = _)))
      unfold lock at h1
      rwa [h1] at this
    rcases hk with ⟨t, ht, rfl⟩ | rfl | rfl
    · exact ⟨t, ht, hl.append t⟩
    · rw [addCommandsTo_eq]
      exact ⟨_, List.prefix_refl _, hl.append _⟩
    · exact ⟨_, List.prefix_refl _, h.apply cs⟩

/-- A program that only appends commands. -/
def Appends (root : FPath) (F : FS → FS × Exit) : Prop :=
  ∀ fs c, Has root c fs → ∃ cs, Has root (c ++ Gcmd.commandsText cs) (F fs).1

/-- Killed, it has appended a beginning of what it would have appended. -/
def AppendsPrefix (root : FPath) (K : FS → FS → Prop) (F : FS → FS × Exit) : Prop :=
  ∀ fs fs' c, Has root c fs → K fs fs' →
    ∃ cs p, p <+: Gcmd.commandsText cs ∧ Has root (c ++ p) fs' ∧ Has root (c ++ Gcmd.commandsText cs) (F fs).1

theorem commandsText_append (cs ds : List GraphCommand) : Gcmd.commandsText (cs ++ ds) = Gcmd.commandsText cs ++ Gcmd.commandsText ds := by
  simp [Gcmd.commandsText]

theorem commandsText_nil : Gcmd.commandsText [] = [] := rfl

theorem appends_mutateStep (o : Option (List Text)) (mk : List VertexId → Run (List GraphCommand)) : Appends root (mutateStep root o mk) := by
  intro fs c h
  unfold mutateStep
  split
  · exact ⟨[], by rw [commandsText_nil, List.append_nil]; exact h⟩
  · split
    · rename_i cs _
      exact ⟨cs, h.apply cs⟩
    · exact ⟨[], by rw [commandsText_nil, List.append_nil]; exact h⟩

theorem Appends.andThen {F G : FS → FS × Exit} (hF : Appends root F) (hG : Appends root G) : Appends root fun fs => andThen (F fs) G := by
  intro fs c h
  obtain ⟨cs, h1⟩ := hF fs c h
  dsimp only
  generalize F fs = r at h1
  obtain ⟨x, e⟩ := r
  cases e with
  | success =>
    obtain ⟨ds, h2⟩ := hG x _ h1
    exact ⟨cs ++ ds, by rw [commandsText_append, ← List.append_assoc]; exact h2⟩
  | panic => exact ⟨cs, h1⟩

theorem appendsPrefix_mutate (o : Option (List Text)) (mk : List VertexId → Run (List GraphCommand)) :
    AppendsPrefix root (MutateKilled root o mk) (mutateStep root o mk) := by
  intro fs fs' c h hk
  rcases hk with rfl | ⟨l, cs, rfl, hcs, hk⟩
  · obtain ⟨cs, h1⟩ := appends_mutateStep o mk _ c h
    exact ⟨cs, [], List.nil_prefix, by rw [List.append_nil]; exact h, h1⟩
  · obtain ⟨p, h1, h2⟩ := h.applyKilled hk
    refine ⟨cs, p, h1, h2, ?_⟩
    unfold mutateStep
    dsimp only
    rw [hcs]
    exact h.apply cs

theorem AppendsPrefix.step {o : Option (List Text)} {mk : List VertexId → Run (List GraphCommand)} {K : FS → FS → Prop}
    {F : FS → FS × Exit} (hK : AppendsPrefix root K F) (hF : Appends root F) :
    AppendsPrefix root (StepKilled root o mk K) fun fs => andThen (mutateStep root o mk fs) F := by
  intro fs fs' c h hk
  rcases hk with hk | ⟨hs, hk⟩
  · obtain ⟨cs, p, h1, h2, h3⟩ := appendsPrefix_mutate o mk fs fs' c h hk
    dsimp only
    generalize mutateStep root o mk fs = r at h3
    obtain ⟨x, e⟩ := r
    cases e with
    | success =>
      obtain ⟨ds, h4⟩ := hF x _ h3
      refine ⟨cs ++ ds, p, ?_, h2, by rw [commandsText_append, ← List.append_assoc]; exact h4⟩
      rw [commandsText_append]
      exact h1.trans (List.prefix_append _ _)
    | panic => exact ⟨cs, p, h1, h2, h3⟩
  · obtain ⟨cs, h3⟩ := appends_mutateStep o mk fs c h
    dsimp only
    generalize mutateStep root o mk fs = r at h3 hs hk
    obtain ⟨x, e⟩ := r
    cases hs
    obtain ⟨ds, p, h4, h5, h6⟩ := hK x fs' _ h3 hk
    refine ⟨cs ++ ds, Gcmd.commandsText cs ++ p, ?_, by rw [← List.append_assoc]; exact h5, ?_⟩
    · rw [commandsText_append]
      exact (List.prefix_append_right_inj _).2 h4
    · rw [commandsText_append, ← List.append_assoc]
      exact h6

theorem appends_gcAdd (a : AddArgs) : Appends root (gcAdd root a) := by
  unfold gcAdd
  exact (appends_mutateStep _ _).andThen <| (appends_mutateStep _ _).andThen <| (appends_mutateStep _ _).andThen <|
    (appends_mutateStep _ _).andThen <| (appends_mutateStep _ _).andThen <| appends_mutateStep _ _

theorem appends_gcDelete (v e : Option (List Text)) : Appends root (gcDelete root v e) := by
  unfold gcDelete
  exact (appends_mutateStep _ _).andThen <| appends_mutateStep _ _

theorem appendsPrefix_gcAdd (a : AddArgs) : AppendsPrefix root (GcAddKilled root a) (gcAdd root a) := by
  unfold gcAdd GcAddKilled
  have s5 := appends_mutateStep (root := root) a.clique mkClique
  have s4 := (appends_mutateStep (root := root) a.star (mkStar a.reverse)).andThen s5
  have s3 := (appends_mutateStep (root := root) a.cycle (mkCycle a.reverse)).andThen s4
  have s2 := (appends_mutateStep (root := root) a.chain (mkChain a.reverse)).andThen s3
  have s1 := (appends_mutateStep (root := root) a.edge (mkEdges a.reverse)).andThen s2
  exact (((((appendsPrefix_mutate _ _).step s5).step s4).step s3).step s2).step s1

theorem appendsPrefix_gcDelete (v e : Option (List Text)) : AppendsPrefix root (GcDeleteKilled root v e) (gcDelete root v e) := by
  unfold gcDelete GcDeleteKilled
  exact (appendsPrefix_mutate _ _).step (appends_mutateStep _ _)

/-! ### A torn line and what is appended to it -/

/-- The letters with which command lines begin. -/
def capitals (l : Text) : Nat := l.countP fun c => c = 'A' ∨ c = 'R'

theorem capitals_append (a b : Text) : capitals (a ++ b) = capitals a + capitals b := List.countP_append

theorem capitals_digits {d : Text} (h : Digits nd d) : capitals d = 0 := by
  unfold capitals
  rw [List.countP_eq_zero]
  intro c hc
  have := h.2 c hc
  intro hA
  simp only [decide_eq_true_eq] at hA
  rcases hA with rfl | rfl <;> simp [isDigit, isAsciiDigit] at this

theorem capitals_blank {w : Text} (h : Blank w) : capitals w = 0 := by
  unfold capitals
  rw [List.countP_eq_zero]
  intro c hc
  have := h.2 c hc
  intro hA
  simp only [decide_eq_true_eq] at hA
  rcases hA with rfl | rfl <;> revert this <;> decide

theorem capitals_regex {l : Text} {caps : List Text} (h : GcmdRegex nd l caps) : capitals l = 1 := by
  have k1 : capitals ['A', 'd', 'd', 'V', 'e', 'r', 't', 'e', 'x', ' '] = 1 := by decide
  have k2 : capitals ['R', 'e', 'm', 'o', 'v', 'e', 'V', 'e', 'r', 't', 'e', 'x', ' '] = 1 := by decide
  have k3 : capitals ['A', 'd', 'd', 'E', 'd', 'g', 'e', ' '] = 1 := by decide
  have k4 : capitals ['R', 'e', 'm', 'o', 'v', 'e', 'E', 'd', 'g', 'e', ' '] = 1 := by decide
  cases h with
  | addVertex hd => rw [capitals_append, k1, capitals_digits hd]
  | removeVertex hd => rw [capitals_append, k2, capitals_digits hd]
  | addEdge h1 h2 h3 => rw [capitals_append, capitals_append, capitals_append, k3, capitals_digits h1, capitals_blank h2, capitals_digits h3]
  | removeEdge h1 h2 h3 =>
    rw [capitals_append, capitals_append, capitals_append, k4, capitals_digits h1, capitals_blank h2, capitals_digits h3]

/-- The first line of a text begins with everything in front of the first line feed. -/
theorem linesAux_first {u cur : Text} (hu : u <+: cur) (hne : u ≠ []) (hr : u.getLast? ≠ some '\r') (s : Text) :
    ∃ l rest, linesAux cur s = (u ++ l) :: rest := by
  induction s generalizing cur with
  | nil =>
    obtain ⟨l, rfl⟩ := hu
    refine ⟨l, [], ?_⟩
    unfold linesAux
    rw [if_neg (by simp [hne])]
  | cons c s ih =>
    unfold linesAux
    split
    · obtain ⟨l, rfl⟩ := hu
      unfold stripCr
      split
      · rename_i hl
        have hl' : l ≠ [] := by
          rintro rfl
          rw [List.append_nil] at hl
          exact hr hl
        exact ⟨l.dropLast, _, by rw [List.dropLast_append_of_ne_nil hl']⟩
      · exact ⟨l, _, rfl⟩
    · exact ih (hu.trans (List.prefix_append _ _))

/-- The text is empty or begins like a command line. -/
def CommandStart (x : Text) : Prop := x = [] ∨ x.head? = some 'A' ∨ x.head? = some 'R'

theorem commandStart_prefix {cs : List GraphCommand} {p : Text} (h : p <+: Gcmd.commandsText cs) : CommandStart p := by
  cases p with
  | nil => exact .inl rfl
  | cons x p =>
    right
    cases cs with
    | nil =>
      rw [commandsText_nil, List.prefix_nil] at h
      cases h
    | cons c cs =>
      obtain ⟨r, hr⟩ := h
      have hh := head_commandIntoLine c
      have : (x :: p ++ r).head? = (Gcmd.commandIntoLine c).head? := by
        rw [hr]
        have e : Gcmd.commandsText (c :: cs) = Gcmd.commandIntoLine c ++ (['\n'] ++ Gcmd.commandsText cs) := by
          simp [Gcmd.commandsText]
        rw [e]
        rcases hh with hh | hh
        · cases hx : Gcmd.commandIntoLine c with
          | nil => rw [hx] at hh; cases hh
          | cons y l => rfl
        · cases hx : Gcmd.commandIntoLine c with
          | nil => rw [hx] at hh; cases hh
          | cons y l => rfl
      rw [← this] at hh
      exact hh

theorem CommandStart.append {x y : Text} (hx : CommandStart x) (hy : CommandStart y) : CommandStart (x ++ y) := by
  cases x with
  | nil => exact hy
  | cons a x => exact .inr (hx.resolve_left (by simp))

/-- A line made of a torn line and something that begins like a command is not readable. -/
theorem torn_unreadable {c t x : Text} {cmd : GraphCommand} {base : List GraphCommand} (ht : NewlineTerminated c)
    (hb : Gcmd.readAsCommands nd c = .done (.ok base)) (htorn : t <+: Gcmd.commandIntoLine cmd) (hne : t ≠ []) (hx : CommandStart x)
    (hxne : x ≠ []) :
    ∃ l, t <+: l ∧ Gcmd.readAsCommands nd (c ++ (t ++ x)) = .done (.error (.atLine ((lines c).length + 1) l)) := by
  have hhead : ∃ y x', x = y :: x' ∧ (y = 'A' ∨ y = 'R') := by
    cases x with
    | nil => exact absurd rfl hxne
    | cons y x' =>
      refine ⟨y, x', rfl, ?_⟩
      rcases hx with h | h | h
      · cases h
      · left; simpa using h
      · right; simpa using h
  obtain ⟨y, x', rfl, hy⟩ := hhead
  have hplain := plain_commandIntoLine cmd
  have hcur : ∀ c ∈ t ++ [y], c ≠ '\n' := by
    intro c hc
    rw [List.mem_append, List.mem_singleton] at hc
    rcases hc with hc | rfl
    · exact hplain.1 c (htorn.subset hc)
    · rcases hy with rfl | rfl <;> decide
  have hlast : (t ++ [y]).getLast? ≠ some '\r' := by
    rw [List.getLast?_concat]
    rcases hy with rfl | rfl <;> decide
  obtain ⟨l, rest, hl⟩ := linesAux_first (List.prefix_refl (t ++ [y])) (by simp) hlast x'
  have hlines : lines (c ++ (t ++ y :: x')) = lines c ++ ((t ++ [y] ++ l) :: rest) := by
    rw [lines_append ht, ← hl]
    congr 1
    have e : t ++ y :: x' = (t ++ [y]) ++ x' := by simp
    unfold lines
    rw [e, linesAux_append _ _ hcur]
    rfl
  have hcap : 2 ≤ capitals (t ++ [y] ++ l) := by
    rw [capitals_append, capitals_append]
    have h1 : capitals [y] = 1 := by rcases hy with rfl | rfl <;> decide
    have h2 : 1 ≤ capitals t := by
      cases t with
      | nil => exact absurd rfl hne
      | cons z t =>
        have hz : z = 'A' ∨ z = 'R' := by
          obtain ⟨r, hr⟩ := htorn
          have hh := head_commandIntoLine cmd
          rw [← hr] at hh
          simpa using hh
        have : capitals (z :: t) = capitals [z] + capitals t := capitals_append [z] t
        have hz' : capitals [z] = 1 := by rcases hz with rfl | rfl <;> decide
        omega
    omega
  have hact : ActiveLine (t ++ [y] ++ l) := by
    have hh : (t ++ [y] ++ l).head? = some 'A' ∨ (t ++ [y] ++ l).head? = some 'R' := by
      obtain ⟨r, hr⟩ := htorn
      have hh := head_commandIntoLine cmd
      rw [← hr] at hh
      cases t with
      | nil => exact absurd rfl hne
      | cons z t => exact hh
    rcases hh with hh | hh
    · exact not_comment_of_head hh (by decide) (by decide)
    · exact not_comment_of_head hh (by decide) (by decide)
  refine ⟨t ++ [y] ++ l, by rw [List.append_assoc]; exact List.prefix_append _ _, ?_⟩
  refine (readAsCommands_bad hlines ((readAsCommands_ok_iff (gcmd_no_running nd)).1 hb) hact).2 _ ?_
  rw [gcmd_parseLine_error]
  refine ⟨rfl, fun caps hc => ?_⟩
  have := capitals_regex hc
  omega

/-- A file that is read as a graph is read as commands. -/
theorem read_ok_commands {c : Text} {g : DirectedGraph} (h : Gcmd.read nd c = .done (.ok g)) :
    ∃ cs, Gcmd.readAsCommands nd c = .done (.ok cs) ∧ GraphCommand.applyCommands cs .new = g := by
  unfold Gcmd.read Format.read at h
  rw [Run.bind_eq_done] at h
  obtain ⟨r, hr, h⟩ := h
  cases r with
  | error e => cases h
  | ok cs => cases h; exact ⟨cs, hr, rfl⟩

theorem torn_load {c t x : Text} {cmd : GraphCommand} {base : List GraphCommand} (ht : NewlineTerminated c)
    (hb : Gcmd.readAsCommands nd c = .done (.ok base)) (htorn : t <+: Gcmd.commandIntoLine cmd) (hne : t ≠ []) (hx : CommandStart x)
    (hxne : x ≠ []) (hc : Content root fs (c ++ t ++ x)) :
    ∃ line, t <+: line ∧ loadGraph nd root fs = .done (.error (.parse (.atLine ((lines c).length + 1) line))) := by
  obtain ⟨l, h1, h2⟩ := torn_unreadable ht hb htorn hne hx hxne
  refine ⟨l, h1, ?_⟩
  unfold loadGraph
  rw [hc, List.append_assoc]
  dsimp only
  unfold Gcmd.read Format.read
  unfold Gcmd.readAsCommands at h2
  rw [h2]
  rfl

/-- What appends commands keeps a text that begins like a command. -/
theorem appending_exec {c : Text} {cmd : Cmd} (hc : cmd.OnlyAppends) (h : ∃ x, CommandStart x ∧ Has root (c ++ x) fs) :
    ∃ x, CommandStart x ∧ Has root (c ++ x) (exec nd root cmd fs).1 := by
  obtain ⟨x, h1, h2⟩ := h
  have app : ∀ {F : FS → FS × Exit}, Appends root F → ∃ x, CommandStart x ∧ Has root (c ++ x) (F fs).1 := by
    intro F hF
    obtain ⟨cs, h3⟩ := hF fs _ h2
    rw [List.append_assoc] at h3
    exact ⟨_, h1.append (commandStart_prefix (List.prefix_refl _)), h3⟩
  cases cmd with
  | init =>
    refine ⟨x, h1, ?_⟩
    show Has root (c ++ x) (expectOk (Store.init root fs)).1
    rw [init_ready h2.1]
    exact h2
  | add a => exact app (appends_gcAdd a)
  | delete v e => exact app (appends_gcDelete v e)
  | build order => exact hc.elim
  | clean force answer => exact hc.elim
  | random g order force answer => exact hc.elim

theorem appending_killed {c : Text} {cmd : Cmd} (hc : cmd.OnlyAppends) (hk : Killed nd root cmd fs fs')
    (h : ∃ x, CommandStart x ∧ Has root (c ++ x) fs) : ∃ x, CommandStart x ∧ Has root (c ++ x) fs' := by
  obtain ⟨x, h1, h2⟩ := h
  have app : ∀ {K : FS → FS → Prop} {F : FS → FS × Exit}, AppendsPrefix root K F → K fs fs' → ∃ x, CommandStart x ∧ Has root (c ++ x) fs' := by
    intro K F hK hk
    obtain ⟨cs, p, h3, h4, _⟩ := hK fs fs' _ h2 hk
    rw [List.append_assoc] at h4
    exact ⟨_, h1.append (commandStart_prefix h3), h4⟩
  cases cmd with
  | init => rw [h2.1.touchKilled_command hk]; exact ⟨x, h1, h2⟩
  | add a => exact app (appendsPrefix_gcAdd a) hk
  | delete v e => exact app (appendsPrefix_gcDelete v e) hk
  | build order => exact hc.elim
  | clean force answer => exact hc.elim
  | random g order force answer => exact hc.elim

/-- The same for a file that cannot be loaded: gc-build does not change it. -/
theorem broken_exec {c : Text} {cmd : Cmd} (hc : cmd.KeepsFile) (hbad : ∀ g, loadGraph nd root fs ≠ .done (.ok g))
    (h : ∃ x, CommandStart x ∧ Has root (c ++ x) fs) : ∃ x, CommandStart x ∧ Has root (c ++ x) (exec nd root cmd fs).1 := by
  cases cmd with
  | init => exact appending_exec trivial h
  | add a => exact appending_exec trivial h
  | delete v e => exact appending_exec trivial h
  | build order =>
    rcases gcBuild_fst (nd := nd) (root := root) order fs with e | ⟨g, hg, _⟩
    · show ∃ x, CommandStart x ∧ Has root (c ++ x) (gcBuild nd order root fs).1
      rw [e]; exact h
    · exact (hbad g hg).elim
  | clean force answer => exact hc.elim
  | random g order force answer => exact hc.elim

theorem broken_killed {c : Text} {cmd : Cmd} (hc : cmd.KeepsFile) (hk : Killed nd root cmd fs fs')
    (hbad : ∀ g, loadGraph nd root fs ≠ .done (.ok g))
    (h : ∃ x, CommandStart x ∧ Has root (c ++ x) fs) : ∃ x, CommandStart x ∧ Has root (c ++ x) fs' := by
  cases cmd with
  | init => exact appending_killed (nd := nd) (cmd := .init) trivial hk h
  | add a => exact appending_killed (nd := nd) (cmd := .add a) trivial hk h
  | delete v e => exact appending_killed (nd := nd) (cmd := .delete v e) trivial hk h
  | build order =>
    rcases hk with rfl | ⟨g, hg, _⟩
    · exact h
    · exact (hbad g hg).elim
  | clean force answer => exact hc.elim
  | random g order force answer => exact hc.elim

theorem loadGraph_commands {c : Text} (h : Content root fs c) {cs : List GraphCommand} (hr : Gcmd.readAsCommands nd c = .done (.ok cs)) :
    loadGraph nd root fs = .done (.ok (GraphCommand.applyCommands cs .new)) := by
  refine (loadGraph_content h).2 ?_
  unfold Gcmd.read Format.read
  unfold Gcmd.readAsCommands at hr
  rw [hr]
  rfl

theorem loadGraph_error {c : Text} (h : Content root fs c) {e : ReadError} (hr : Gcmd.readAsCommands nd c = .done (.error e)) :
    loadGraph nd root fs = .done (.error (.parse e)) := by
  unfold loadGraph
  rw [h]
  dsimp only
  unfold Gcmd.read Format.read
  unfold Gcmd.readAsCommands at hr
  rw [hr]
  rfl

theorem clean_success_command (h : (clean root fs).2 = .ok ()) : (clean root fs).1 (commandPath root) = none := by
  revert h
  unfold clean withLock
  generalize lock root fs = r
  obtain ⟨fs1, e⟩ := r
  cases e with
  | error e => intro h; cases h
  | ok u =>
    dsimp only
    have hb : (removeDirAll (rootPath root) fs1).2 = .ok () → (removeDirAll (rootPath root) fs1).1 (commandPath root) = none := by
      unfold removeDirAll
      split
      · exact fun _ => if_pos (isPrefixOf_iff.2 (List.prefix_append _ _))
      · intro h; cases h
      · intro h; cases h
    generalize removeDirAll (rootPath root) fs1 = r at hb
    obtain ⟨fs2, res⟩ := r
    dsimp only
    have hu := unlock_command (root := root) fs2
    generalize Store.unlock root fs2 = r at hu
    obtain ⟨fs3, e⟩ := r
    cases e with
    | error e => intro h; cases h
    | ok u => exact fun h => hu.trans (hb h)

theorem saveKilled_command {g : DirectedGraph} (hk : SaveKilled root g fs fs')
    (h : fs (commandPath root) = none ∨ fs (commandPath root) = some (.file [])) :
    fs' (commandPath root) = none ∨ ∃ p, p <+: Gcmd.save g ∧ fs' (commandPath root) = some (.file p) := by
  rcases hk with rfl | ⟨t, ht, rfl⟩
  · rcases h with h | h
    · exact .inl h
    · exact .inr ⟨[], List.nil_prefix, h⟩
  · have hc : (createTruncate (commandPath root) fs).1 (commandPath root) = none ∨
        (createTruncate (commandPath root) fs).1 (commandPath root) = some (.file []) := by
      unfold createTruncate
      rcases h with h | h <;> rw [h] <;> dsimp only
      · split
        · exact .inr (by simp [FS.set])
        · exact .inl h
        · exact .inl h
      · exact .inr (by simp [FS.set])
    generalize (createTruncate (commandPath root) fs).1 = x at hc
    unfold Store.appendText
    rcases hc with hc | hc
    · rw [hc]; exact .inl hc
    · rw [hc]
      refine .inr ⟨t, ht, ?_⟩
      simp [FS.set]

/-- The command file after a killed gc-random. -/
theorem killedRandom_command {g : DirectedGraph} {order : DirectedGraph → DirectedGraph} {force : Bool} {answer : Text}
    (hk : Killed nd root (.random g order force answer) fs fs') :
    fs' (commandPath root) = fs (commandPath root) ∨ fs' (commandPath root) = none ∨
    ∃ p, p <+: Gcmd.save (order g) ∧ fs' (commandPath root) = some (.file p) := by
  rcases hk with rfl | ⟨_, hk | ⟨h1, hk⟩⟩
  · exact .inl rfl
  · rcases cleanKilled_command hk with h | h
    · exact .inl h
    · exact .inr (.inl h)
  · have hn : (expectOk (clean root fs)).1 (commandPath root) = none := by
      rw [expectOk_fst]
      exact clean_success_command (by
        revert h1
        show (expectOk (clean root fs)).2 = .success → _
        generalize clean root fs = r
        obtain ⟨x, e⟩ := r
        cases e with
        | ok u => exact fun _ => rfl
        | error e => intro h; cases h)
    rcases hk with hk | ⟨h2, hk⟩
    · right
      rcases touchKilled_command_command hk with h | ⟨_, h⟩
      · rw [h]; exact .inl hn
      · exact .inr ⟨[], List.nil_prefix, h⟩
    · right
      refine saveKilled_command hk ?_
      rw [expectOk_fst]
      rcases touchKilled_command_command (root := root) (fs := (expectOk (clean root fs)).1) (.inr (.inr rfl)) with h | ⟨_, h⟩
      · exact .inl (h.trans hn)
      · exact .inr h

/-- gc-random on a directory with any readable or unreadable command file. -/
theorem Ready.random (h : Ready root fs) {g : DirectedGraph} (hg : Built g) {order : DirectedGraph → DirectedGraph} (ho : IsOrder order)
    {answer : Text} : ∃ fs', exec nd root (.random g order true answer) fs = (fs', .success) ∧ Holds nd root fs' (some g.toSet) := by
  have e : exec nd root (.random g order true answer) fs = Random.replaceGraph root (order g) fs := rfl
  rw [e]
  unfold Random.replaceGraph
  obtain ⟨fs1, h1, h2, _⟩ := clean_ready h
  rw [h1]
  obtain ⟨fs2, i1, i2, _⟩ := init_fresh h2
  simp only [expectOk, andThen]
  rw [i1]
  obtain ⟨fs3, s1, s2, s3, _⟩ := save_ready i2 (order g)
  dsimp only
  rw [s1]
  exact ⟨fs3, rfl, holds_save ho hg s2 s3⟩

end Store
end GC
