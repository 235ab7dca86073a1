/- Lemmas about commands during which calls to the file system fail. -/
import Verif.Model.Faults
import Verif.Proofs.Killed
import Verif.Proofs.Disk
namespace GC
namespace Faults
open Store Text Format

variable {nd : Char → Bool} {root : FPath} {fs fs' fs0 : FS}

/-! ### Writing -/

theorem writePieces_spec {ts : List Text} {w w' : Writer} {ok : Bool} (h : WritePieces ts w w' ok) :
    ∃ done rest, w.buffer ++ ts.flatten = done ++ w'.buffer ++ rest ∧ w'.content = w.content ++ done ∧ (ok = true → rest = []) ∧
      (w.buffer.length ≤ Concurrent.bufCapacity → w'.buffer.length ≤ Concurrent.bufCapacity) := by
  have all : ∀ {t : Text} {w w' : Writer} {ok : Bool}, WriteAll w t w' ok →
      ∃ done rest, w.buffer ++ t = done ++ w'.buffer ++ rest ∧ w'.content = w.content ++ done ∧ (ok = true → rest = []) ∧
        (w.buffer.length ≤ Concurrent.bufCapacity → w'.buffer.length ≤ Concurrent.bufCapacity) := by
    rintro t w w' ok ⟨w1, ok1, h1, h2⟩
    -- the state after the first flush
    have first : ∃ d r, w.buffer = d ++ r ∧ w1 = ⟨w.content ++ d, r⟩ ∧ (ok1 = true → r.length + t.length ≤ Concurrent.bufCapacity ∨ r = []) := by
      split at h1
      · obtain ⟨d, r, e1, e2, e3⟩ := h1
        refine ⟨d, r, e1, e2, fun h => .inr ?_⟩
        rw [h] at e3
        simpa using e3.symm
      · rename_i hc
        obtain ⟨rfl, rfl⟩ := h1
        exact ⟨[], w1.buffer, rfl, by simp, fun _ => .inl (by omega)⟩
    obtain ⟨d, r, e1, rfl, hr⟩ := first
    rcases h2 with ⟨rfl, rfl, rfl⟩ | ⟨rfl, h2⟩
    · refine ⟨d, t, by rw [e1], rfl, fun h => (nomatch h), fun h => ?_⟩
      rw [e1, List.length_append] at h
      dsimp only
      omega
    · have hr := hr rfl
      split at h2
      · rename_i ht
        have hr0 : r = [] := by
          rcases hr with hr | hr
          · exact List.length_eq_zero_iff.1 (by omega)
          · exact hr
        subst hr0
        obtain ⟨done, rest, rfl, rfl, rfl⟩ := h2
        refine ⟨d ++ done, rest, by rw [e1]; simp, by simp, fun h => by simpa using h, fun _ => Nat.zero_le _⟩
      · rename_i ht
        obtain ⟨rfl, rfl⟩ := h2
        refine ⟨d, [], by rw [e1]; simp, rfl, fun _ => rfl, fun _ => ?_⟩
        dsimp only
        rw [List.length_append]
        rcases hr with hr | rfl
        · exact hr
        · simp; omega
  induction h with
  | nil => exact ⟨[], [], by simp, by simp, fun _ => rfl, id⟩
  | @cons t ts w w1 w' ok h1 _ ih =>
    obtain ⟨d1, r1, e1, e2, e3, e4⟩ := all h1
    obtain ⟨d2, r2, f1, f2, f3, f4⟩ := ih
    have := e3 rfl
    subst this
    refine ⟨d1 ++ d2, r2, ?_, by rw [f2, e2]; simp, f3, fun h => f4 (e4 h)⟩
    rw [List.append_nil] at e1
    rw [List.flatten_cons, ← List.append_assoc, e1, List.append_assoc, f1]
    simp
  | @fail t ts w w1 h1 =>
    obtain ⟨d1, r1, e1, e2, e3, e4⟩ := all h1
    refine ⟨d1, r1 ++ ts.flatten, ?_, e2, fun h => (nomatch h), e4⟩
    rw [List.flatten_cons, ← List.append_assoc, e1]
    simp

theorem writeBuffered_spec {ts : List Text} {c c' : Text} {ok : Bool} (h : WriteBuffered ts c c' ok) :
    ∃ t rest, ts.flatten = t ++ rest ∧ c' = c ++ t ∧ (ok = true → rest.length ≤ Concurrent.bufCapacity) := by
  obtain ⟨w, w', ok', h1, ⟨d, r, e1, rfl, _⟩, rfl⟩ := h
  obtain ⟨d1, r1, f1, f2, f3, f4⟩ := writePieces_spec h1
  dsimp only at f1 f2 f4 ⊢
  refine ⟨d1 ++ d, r ++ r1, ?_, by rw [f2]; simp, fun h => ?_⟩
  · rw [e1] at f1
    simpa using f1
  · have := f4 (Nat.zero_le _)
    rw [e1, List.length_append] at this
    rw [f3 h, List.append_nil]
    omega

/-- Without errors everything is written. -/
theorem writePieces_all (ts : List Text) : ∀ w : Writer, ∃ w', WritePieces ts w w' true ∧ w'.content ++ w'.buffer = w.content ++ w.buffer ++ ts.flatten := by
  induction ts with
  | nil => exact fun w => ⟨w, .nil, by simp⟩
  | cons t ts ih =>
    intro w
    have all : ∃ w1, WriteAll w t w1 true ∧ w1.content ++ w1.buffer = w.content ++ w.buffer ++ t := by
      have first : ∃ w1, (if w.buffer.length + t.length > Concurrent.bufCapacity then FlushBuf w w1 true else w1 = w ∧ true = true) ∧
          w1.content ++ w1.buffer = w.content ++ w.buffer ∧ (t.length ≥ Concurrent.bufCapacity → w1.buffer = []) := by
        split
        · exact ⟨⟨w.content ++ w.buffer, []⟩, ⟨w.buffer, [], by simp, rfl, rfl⟩, by simp, fun _ => rfl⟩
        · rename_i hc
          exact ⟨w, ⟨rfl, rfl⟩, rfl, fun ht => List.length_eq_zero_iff.1 (by omega)⟩
      obtain ⟨w1, h1, h2, h3⟩ := first
      by_cases ht : t.length ≥ Concurrent.bufCapacity
      · refine ⟨{ w1 with content := w1.content ++ t }, ⟨w1, true, h1, .inr ⟨rfl, ?_⟩⟩, ?_⟩
        · rw [if_pos ht]
          exact ⟨t, [], by simp, rfl, rfl⟩
        · rw [← h2]
          simp [h3 ht]
      · refine ⟨{ w1 with buffer := w1.buffer ++ t }, ⟨w1, true, h1, .inr ⟨rfl, ?_⟩⟩, ?_⟩
        · rw [if_neg ht]
          exact ⟨rfl, rfl⟩
        · rw [← h2]
          simp
    obtain ⟨w1, h1, h2⟩ := all
    obtain ⟨w', h3, h4⟩ := ih w1
    exact ⟨w', .cons h1 h3, by rw [h4, h2]; simp⟩

theorem writeBuffered_all (ts : List Text) (c : Text) : WriteBuffered ts c (c ++ ts.flatten) true := by
  obtain ⟨w, h1, h2⟩ := writePieces_all ts ⟨c, []⟩
  refine ⟨w, ⟨w.content ++ w.buffer, []⟩, true, h1, ⟨w.buffer, [], by simp, rfl, rfl⟩, ?_⟩
  rw [h2]
  simp

theorem WriteFile.exists_append {p : FPath} {ts : List Text} {r : Except IoError Unit} (h : WriteFile p ts fs fs' r) :
    ∃ t rest, ts.flatten = t ++ rest ∧ fs' = appendText p t fs ∧ (r = .ok () → rest.length ≤ Concurrent.bufCapacity) := by
  obtain ⟨c, c', ok, h1, h2, rfl, h3⟩ := h
  obtain ⟨t, rest, e1, rfl, e2⟩ := writeBuffered_spec h2
  refine ⟨t, rest, e1, ?_, fun hr => ?_⟩
  · unfold appendText
    rw [h1]
  · rcases h3 with ⟨h3, _⟩ | ⟨_, e, rfl⟩
    · exact e2 h3
    · cases hr

/-! ### The runs of the model without faults are possible -/

theorem May.of (call : FS → Io Unit) (fs : FS) : May call fs (call fs).1 (call fs).2 := .inl rfl

theorem touch_may (p : FPath) (fs : FS) : Touch p fs (touch p fs).1 (touch p fs).2 :=
  ⟨_, .inr ⟨p.dropLast, List.prefix_refl _, rfl⟩, .inl rfl⟩

theorem withLock_may {block : FS → Io Unit} {Block : FS → FS → Except IoError Unit → Prop}
    (hb : ∀ fs, Block fs (block fs).1 (block fs).2) (fs : FS) :
    WithLock root Block fs (withLock root block fs).1 (withLock root block fs).2 := by
  have h := touch_may (lockPath root) fs
  unfold withLock lock
  generalize touch (lockPath root) fs = r at h ⊢
  obtain ⟨fs1, e | u⟩ := r
  · exact .inl ⟨e, h, rfl⟩
  · dsimp only at h ⊢
    have h2 := hb fs1
    generalize block fs1 = r at h2 ⊢
    obtain ⟨fs2, res⟩ := r
    dsimp only at h2 ⊢
    have h3 := May.of (removeFile (lockPath root)) fs2
    unfold unlock
    generalize removeFile (lockPath root) fs2 = r at h3 ⊢
    obtain ⟨fs3, e | u⟩ := r
    · exact .inr ⟨fs1, fs2, res, h, h2, .inl ⟨e, h3, rfl⟩⟩
    · exact .inr ⟨fs1, fs2, res, h, h2, .inr ⟨h3, rfl⟩⟩

theorem writeFile_may {p : FPath} {c : Text} (ts : List Text) (h : fs p = some (.file c)) : WriteFile p ts fs (appendText p ts.flatten fs) (.ok ()) := by
  refine ⟨c, _, true, h, writeBuffered_all ts c, ?_, .inl ⟨rfl, rfl⟩⟩
  unfold appendText
  rw [h]

theorem addCommandsTo_may (p : FPath) (cs : List GraphCommand) (fs : FS) :
    AddCommandsTo p cs fs (addCommandsTo p cs fs).1 (addCommandsTo p cs fs).2 := by
  unfold AddCommandsTo OpenAndWrite addCommandsTo
  have h := May.of (openAppend p) fs
  have hf : ∀ fs1, openAppend p fs = (fs1, .ok ()) → ∃ c, fs1 p = some (.file c) := by
    intro fs1 e
    unfold openAppend at e
    split at e
    · rename_i c hc; cases e; exact ⟨c, hc⟩
    · cases e
    · cases e
  rcases hx : openAppend p fs with ⟨fs1, e | u⟩
  · rw [hx] at h
    exact .inl ⟨e, h, rfl⟩
  · rw [hx] at h
    obtain ⟨c, hc⟩ := hf fs1 hx
    refine .inr ⟨fs1, h, ?_⟩
    dsimp only
    rw [← Disk.commandPieces_flatten]
    exact writeFile_may _ hc

theorem apply_may (cs : List GraphCommand) (fs : FS) :
    ApplyGraphCommands root cs fs (applyGraphCommands root cs fs).1 (applyGraphCommands root cs fs).2 :=
  withLock_may (addCommandsTo_may _ cs) fs

theorem save_may (g : DirectedGraph) (fs : FS) : SaveGraph root g fs (saveGraphAsCommands root g fs).1 (saveGraphAsCommands root g fs).2 := by
  have h := May.of (createTruncate (commandPath root)) fs
  have hf : ∀ fs1, createTruncate (commandPath root) fs = (fs1, .ok ()) → fs1 (commandPath root) = some (.file []) := by
    intro fs1 e
    unfold createTruncate at e
    split at e
    · cases e; exact FS.set_self _ _ _
    · cases e
    · split at e
      · cases e; exact FS.set_self _ _ _
      · cases e
      · cases e
  unfold saveGraphAsCommands SaveGraph
  rcases hx : createTruncate (commandPath root) fs with ⟨fs1, e | u⟩
  · rw [hx] at h
    exact .inl ⟨e, h, rfl⟩
  · rw [hx] at h
    refine .inr ⟨fs1, h, ?_⟩
    dsimp only
    rw [← Disk.savePieces_flatten]
    exact writeFile_may _ (hf fs1 hx)

theorem clean_may (fs : FS) : Clean root fs (clean root fs).1 (clean root fs).2 := withLock_may (fun _ => .inl rfl) fs

theorem expect_may {run : FS → Io Unit} {Run : FS → FS → Except IoError Unit → Prop} (h : Run fs (run fs).1 (run fs).2) :
    Expect Run fs (expectOk (run fs)).1 (expectOk (run fs)).2 := by
  generalize run fs = r at h ⊢
  obtain ⟨x, e | u⟩ := r
  · exact ⟨_, h, rfl⟩
  · exact ⟨_, h, rfl⟩

theorem then_may {run1 run2 : FS → FS × Exit} {Run1 Run2 : FS → FS → Exit → Prop} (h1 : Run1 fs (run1 fs).1 (run1 fs).2)
    (h2 : ∀ fs, Run2 fs (run2 fs).1 (run2 fs).2) : Then Run1 Run2 fs (andThen (run1 fs) run2).1 (andThen (run1 fs) run2).2 := by
  generalize run1 fs = r at h1 ⊢
  obtain ⟨x, _ | _⟩ := r
  · exact .inr ⟨x, h1, h2 x⟩
  · exact .inl ⟨h1, rfl⟩

theorem mutateStep_may (o : Option (List Text)) (mk : List VertexId → Run (List GraphCommand)) (fs : FS) :
    MutateStep root o mk fs (mutateStep root o mk fs).1 (mutateStep root o mk fs).2 := by
  unfold MutateStep mutateStep
  cases o with
  | none => exact ⟨rfl, rfl⟩
  | some l =>
    dsimp only
    rcases (Run.unwrap (Args.parseVertexIdList l)).bind mk with _ | _ | cs
    · exact ⟨rfl, rfl⟩
    · exact ⟨rfl, rfl⟩
    · exact ⟨⟨_, apply_may cs fs⟩, rfl⟩

theorem exec_may (nd : Char → Bool) (root : FPath) (cmd : Cmd) (fs : FS) : Exec nd root cmd fs (exec nd root cmd fs).1 (exec nd root cmd fs).2 := by
  cases cmd with
  | init => exact expect_may (run := Store.init root) (touch_may _ fs)
  | add a =>
    refine then_may (mutateStep_may _ _ _) fun fs => ?_
    refine then_may (mutateStep_may _ _ _) fun fs => ?_
    refine then_may (mutateStep_may _ _ _) fun fs => ?_
    refine then_may (mutateStep_may _ _ _) fun fs => ?_
    refine then_may (mutateStep_may _ _ _) fun fs => ?_
    exact mutateStep_may _ _ _
  | delete v e =>
    refine then_may (mutateStep_may _ _ _) fun fs => ?_
    exact mutateStep_may _ _ _
  | build order =>
    refine ⟨_, .inl rfl, ?_⟩
    show match loadGraph nd root fs with
      | .done (.ok g) => _
      | _ => _
    unfold exec gcBuild
    rcases loadGraph nd root fs with _ | _ | ⟨_ | g⟩
    · exact ⟨rfl, rfl⟩
    · exact ⟨rfl, rfl⟩
    · exact ⟨rfl, rfl⟩
    · exact expect_may (run := saveGraphAsCommands root (order g)) (save_may _ fs)
  | clean force answer =>
    show GcClean root force answer fs (gcClean root force answer fs).1 (gcClean root force answer fs).2
    unfold GcClean gcClean
    split
    · exact ⟨rfl, rfl⟩
    · exact expect_may (run := Store.clean root) (clean_may fs)
  | random g order force answer =>
    show GcRandom order root force answer g fs (Random.finish order root force answer fs (some g)).1
      (Random.finish order root force answer fs (some g)).2
    unfold GcRandom Random.finish
    dsimp only
    split
    · exact ⟨rfl, rfl⟩
    · unfold Random.replaceGraph Replace
      refine then_may (run1 := fun fs => expectOk (Store.clean root fs)) (expect_may (run := Store.clean root) (clean_may fs)) fun fs => ?_
      refine then_may (run1 := fun fs => expectOk (Store.init root fs)) (expect_may (run := Store.init root) (touch_may _ fs)) fun fs => ?_
      exact expect_may (run := saveGraphAsCommands root (order g)) (save_may _ fs)

/-! ### What holds whatever fails -/

theorem May.cases {α : Type} {call : FS → Io α} {r : Except IoError α} (h : May call fs fs' r) : fs' = fs ∨ fs' = (call fs).1 := by
  rcases h with h | ⟨h, _⟩
  · right; rw [h]
  · exact .inl h

theorem May.ok {α : Type} {call : FS → Io α} {x : α} (h : May call fs fs' (.ok x)) : call fs = (fs', .ok x) := by
  rcases h with h | ⟨_, e, h⟩
  · exact h
  · cases h

theorem lockPath_dropLast (root : FPath) : (lockPath root).dropLast = root := by unfold lockPath; rw [List.dropLast_concat]

theorem commandPath_dropLast (root : FPath) : (commandPath root).dropLast = rootPath root := by
  show (rootPath root ++ [commandsFile]).dropLast = _
  rw [List.dropLast_concat]

/-- A property that is kept by the steps is kept by the program. -/
theorem WithLock.induct {P : FS → Prop} {block : FS → FS → Except IoError Unit → Prop} {r : Except IoError Unit}
    (hlock : ∀ fs fs' r, P fs → Touch (lockPath root) fs fs' r → P fs')
    (hunlock : ∀ fs, P fs → P (unlock root fs).1) (hblock : ∀ fs fs' r, P fs → block fs fs' r → P fs')
    (h : P fs) (hk : WithLock root block fs fs' r) : P fs' := by
  rcases hk with ⟨e, hk, _⟩ | ⟨fs1, fs2, res, h1, h2, h3⟩
  · exact hlock _ _ _ h hk
  · have p2 := hblock _ _ _ (hlock _ _ _ h h1) h2
    have : fs' = fs2 ∨ fs' = (unlock root fs2).1 := by
      rcases h3 with ⟨e, h3, _⟩ | ⟨h3, _⟩ <;> exact h3.cases
    rcases this with rfl | rfl
    · exact p2
    · exact hunlock _ p2

theorem OpenAndWrite.induct {P : FS → Prop} {opened : FS → Io Unit} {p : FPath} {ts : List Text} {r : Except IoError Unit}
    (hopen : ∀ fs, P fs → P (opened fs).1) (hwrite : ∀ fs t, P fs → P (appendText p t fs)) (h : P fs)
    (hk : OpenAndWrite opened p ts fs fs' r) : P fs' := by
  rcases hk with ⟨e, hk, _⟩ | ⟨fs1, h1, h2⟩
  · rcases hk.cases with rfl | rfl
    · exact h
    · exact hopen _ h
  · obtain ⟨t, _, _, rfl, _⟩ := h2.exists_append
    refine hwrite _ _ ?_
    rcases h1.cases with rfl | rfl
    · exact h
    · exact hopen _ h

theorem openAppend_fst (p : FPath) (fs : FS) : (openAppend p fs).1 = fs := by
  unfold openAppend
  split <;> rfl

theorem Then.induct {P : FS → Prop} {run1 run2 : FS → FS → Exit → Prop} {e : Exit} (h1 : ∀ fs fs' e, P fs → run1 fs fs' e → P fs')
    (h2 : ∀ fs fs' e, P fs → run2 fs fs' e → P fs') (h : P fs) (hk : Then run1 run2 fs fs' e) : P fs' := by
  rcases hk with ⟨hk, _⟩ | ⟨fs1, hk, hk'⟩
  · exact h1 _ _ _ h hk
  · exact h2 _ _ _ (h1 _ _ _ h hk) hk'

theorem MutateStep.induct {P : FS → Prop} (hP : ∀ fs fs' cs r, P fs → ApplyGraphCommands root cs fs fs' r → P fs')
    {o : Option (List Text)} {mk : List VertexId → Run (List GraphCommand)} (fs fs' : FS) (e : Exit) (h : P fs)
    (hk : MutateStep root o mk fs fs' e) : P fs' := by
  unfold MutateStep at hk
  split at hk
  · rw [hk.1]; exact h
  · split at hk
    · obtain ⟨⟨r, hk⟩, _⟩ := hk
      exact hP _ _ _ _ h hk
    · rw [hk.1]; exact h

theorem GcAdd.induct {P : FS → Prop} (hP : ∀ fs fs' cs r, P fs → ApplyGraphCommands root cs fs fs' r → P fs') {a : AddArgs} {e : Exit}
    (h : P fs) (hk : GcAdd root a fs fs' e) : P fs' := by
  refine Then.induct (MutateStep.induct hP) (fun _ _ _ h => ?_) h hk
  refine Then.induct (MutateStep.induct hP) (fun _ _ _ h => ?_) h
  refine Then.induct (MutateStep.induct hP) (fun _ _ _ h => ?_) h
  refine Then.induct (MutateStep.induct hP) (fun _ _ _ h => ?_) h
  refine Then.induct (MutateStep.induct hP) (fun _ _ _ h => ?_) h
  exact MutateStep.induct hP _ _ _ h

theorem GcDelete.induct {P : FS → Prop} (hP : ∀ fs fs' cs r, P fs → ApplyGraphCommands root cs fs fs' r → P fs') {v x : Option (List Text)}
    {e : Exit} (h : P fs) (hk : GcDelete root v x fs fs' e) : P fs' :=
  Then.induct (MutateStep.induct hP) (MutateStep.induct hP) h hk

theorem Expect.induct {P : FS → Prop} {run : FS → FS → Except IoError Unit → Prop} (h1 : ∀ fs fs' r, P fs → run fs fs' r → P fs') (fs fs' : FS)
    (e : Exit) (h : P fs) (hk : Expect run fs fs' e) : P fs' := by
  obtain ⟨r, hk, _⟩ := hk
  exact h1 _ _ _ h hk

/-! ### The directory stays usable -/

theorem UsableFrom.openCreate_command (h : UsableFrom root fs0 fs) : UsableFrom root fs0 (openCreate (commandPath root) fs).1 := by
  by_cases hg : fs (rootPath root) = none
  · have : (openCreate (commandPath root) fs).1 = fs := by
      unfold openCreate
      rw [commandPath_dropLast, hg, h.1.2.2.2 hg _ (root_prefix_command root)]
    rw [this]
    exact h
  · exact h.of_command hg ((openCreate_other _ _).2 h.1.2.1) (openCreate_other _ _).1

theorem UsableFrom.touchLock (fs fs' : FS) (r : Except IoError Unit) (h : UsableFrom root fs0 fs) (hk : Touch (lockPath root) fs fs' r) :
    UsableFrom root fs0 fs' := by
  obtain ⟨fs1, h1, h2⟩ := hk
  have hu : UsableFrom root fs0 fs1 := by
    rcases h1 with rfl | ⟨d, hd, rfl⟩
    · exact h
    · rw [lockPath_dropLast] at hd
      exact h.createDirAll (hd.trans (List.prefix_append _ _))
  rcases h2.cases with rfl | rfl
  · exact hu
  · exact hu.of_lock ((openCreate_other _ _).2 hu.1.2.2.1) (openCreate_other _ _).1

theorem UsableFrom.touchCommand (fs fs' : FS) (r : Except IoError Unit) (h : UsableFrom root fs0 fs) (hk : Touch (commandPath root) fs fs' r) :
    UsableFrom root fs0 fs' := by
  obtain ⟨fs1, h1, h2⟩ := hk
  have hu : UsableFrom root fs0 fs1 := by
    rcases h1 with rfl | ⟨d, hd, rfl⟩
    · exact h
    · rw [commandPath_dropLast] at hd
      exact h.createDirAll hd
  rcases h2.cases with rfl | rfl
  · exact hu
  · exact UsableFrom.openCreate_command hu

theorem UsableFrom.applied (fs fs' : FS) (cs : List GraphCommand) (r : Except IoError Unit) (h : UsableFrom root fs0 fs)
    (hk : ApplyGraphCommands root cs fs fs' r) : UsableFrom root fs0 fs' :=
  WithLock.induct UsableFrom.touchLock (fun _ h => h.unlock)
    (fun _ _ _ h hk => OpenAndWrite.induct (fun fs h => by rw [openAppend_fst]; exact h) (fun _ t h => h.appendText t) h hk) h hk

theorem UsableFrom.saved {g : DirectedGraph} (fs fs' : FS) (r : Except IoError Unit) (h : UsableFrom root fs0 fs)
    (hk : SaveGraph root g fs fs' r) : UsableFrom root fs0 fs' :=
  OpenAndWrite.induct (fun _ h => h.createTruncate) (fun _ t h => h.appendText t) h hk

theorem UsableFrom.cleaned (fs fs' : FS) (r : Except IoError Unit) (h : UsableFrom root fs0 fs) (hk : Clean root fs fs' r) :
    UsableFrom root fs0 fs' := by
  refine WithLock.induct UsableFrom.touchLock (fun _ h => h.unlock) (fun fs fs' r h hk => ?_) h hk
  rcases hk with hk | ⟨hk, _⟩
  · have := h.removeKilled (removeDirAll_killed (rootPath root) fs)
    rw [hk] at this
    exact this
  · exact h.removeKilled hk

theorem UsableFrom.executed {cmd : Cmd} {e : Exit} (h : UsableFrom root fs0 fs) (hk : Exec nd root cmd fs fs' e) : UsableFrom root fs0 fs' := by
  cases cmd with
  | init => exact Expect.induct UsableFrom.touchCommand _ _ _ h hk
  | add a => exact GcAdd.induct UsableFrom.applied h hk
  | delete v x => exact GcDelete.induct UsableFrom.applied h hk
  | build order =>
    obtain ⟨l, _, hk⟩ := hk
    split at hk
    · exact Expect.induct UsableFrom.saved _ _ _ h hk
    · rw [hk.1]; exact h
  | clean force answer =>
    change GcClean root force answer fs fs' e at hk
    unfold GcClean at hk
    split at hk
    · rw [hk.1]; exact h
    · exact Expect.induct UsableFrom.cleaned _ _ _ h hk
  | random g order force answer =>
    change GcRandom order root force answer g fs fs' e at hk
    unfold GcRandom at hk
    split at hk
    · rw [hk.1]; exact h
    · refine Then.induct (Expect.induct UsableFrom.cleaned) (fun _ _ _ h => ?_) h hk
      exact Then.induct (Expect.induct UsableFrom.touchCommand) (Expect.induct UsableFrom.saved) h

theorem UsableFrom.ran {l : List Cmd} (h : UsableFrom root fs0 fs) (hs : Session nd root l fs fs') : UsableFrom root fs0 fs' := by
  induction hs with
  | nil => exact h
  | cons h1 _ ih => exact ih (UsableFrom.executed h h1)

/-! ### What is in the command file -/

theorem touchLock_command {r : Except IoError Unit} (hk : Touch (lockPath root) fs fs' r) : fs' (commandPath root) = fs (commandPath root) := by
  obtain ⟨fs1, h1, h2⟩ := hk
  have e1 : fs1 (commandPath root) = fs (commandPath root) := by
    rcases h1 with rfl | ⟨d, hd, rfl⟩
    · rfl
    · rw [lockPath_dropLast] at hd
      exact createDirAll_command d (hd.trans (List.prefix_append _ _))
  rcases h2.cases with rfl | rfl
  · exact e1
  · rw [(openCreate_other _ _).1 _ (lock_ne_command root)]
    exact e1

/-- What the command file held is still at its beginning. -/
def Keeps (root : FPath) (c : Text) (fs : FS) : Prop := ∃ t, Content root fs (c ++ t)

theorem Keeps.append {c : Text} (h : Keeps root c fs) (t : Text) : Keeps root c (appendText (commandPath root) t fs) := by
  obtain ⟨t0, h⟩ := h
  unfold Content at h
  refine ⟨t0 ++ t, ?_⟩
  unfold Content appendText
  rw [h]
  dsimp only
  rw [FS.set_self, List.append_assoc]

theorem Keeps.applied {c : Text} (fs fs' : FS) (cs : List GraphCommand) (r : Except IoError Unit) (h : Keeps root c fs)
    (hk : ApplyGraphCommands root cs fs fs' r) : Keeps root c fs' := by
  refine WithLock.induct (P := Keeps root c) ?_ ?_ ?_ h hk
  · rintro fs fs' r ⟨t, h⟩ hk
    exact ⟨t, (touchLock_command hk).trans h⟩
  · rintro fs ⟨t, h⟩
    exact ⟨t, (unlock_command fs).trans h⟩
  · intro fs fs' r h hk
    exact OpenAndWrite.induct (P := Keeps root c) (fun fs h => by rw [openAppend_fst]; exact h) (fun _ t h => h.append t) h hk

theorem Keeps.executed {c : Text} {cmd : Cmd} (hc : cmd.OnlyAppends) {e : Exit} (h : Keeps root c fs) (hk : Exec nd root cmd fs fs' e) :
    Keeps root c fs' := by
  cases cmd with
  | init =>
    obtain ⟨r, ⟨fs1, h1, h2⟩, _⟩ := hk
    obtain ⟨t, h⟩ := h
    unfold Content at h
    have e1 : fs1 (commandPath root) = some (.file (c ++ t)) := by
      rcases h1 with rfl | ⟨d, hd, rfl⟩
      · exact h
      · rw [commandPath_dropLast] at hd
        rw [createDirAll_command d hd]
        exact h
    refine ⟨t, ?_⟩
    unfold Content
    rcases h2.cases with rfl | rfl
    · exact e1
    · unfold openCreate
      rw [e1]
      exact e1
  | add a => exact GcAdd.induct Keeps.applied h hk
  | delete v x => exact GcDelete.induct Keeps.applied h hk
  | build order => exact hc.elim
  | clean force answer => exact hc.elim
  | random g order force answer => exact hc.elim

/-! ### What gc-add and gc-delete store -/

theorem Has.touchLock {c : Text} {r : Except IoError Unit} (h : Has root c fs) (hk : Touch (lockPath root) fs fs' r) : Has root c fs' := by
  refine ⟨?_, (touchLock_command hk).trans h.2⟩
  obtain ⟨fs1, h1, h2⟩ := hk
  have e1 : fs1 = fs := by
    rcases h1 with rfl | ⟨d, hd, rfl⟩
    · rfl
    · rw [lockPath_dropLast] at hd
      exact h.1.createDirAll (hd.trans (List.prefix_append _ _))
  subst e1
  rcases h2.cases with rfl | rfl
  · exact h.1
  · exact h.1.of_lock ((openCreate_other _ _).2 h.1.2.2) (openCreate_other _ _).1

/-- One call: a beginning of the new lines is stored; the result `Ok` means that at most the last buffer is missing. -/
theorem Has.applied {c : Text} {cs : List GraphCommand} {r : Except IoError Unit} (h : Has root c fs)
    (hk : ApplyGraphCommands root cs fs fs' r) :
    ∃ t rest, Gcmd.commandsText cs = t ++ rest ∧ Has root (c ++ t) fs' ∧ (r = .ok () → rest.length ≤ Concurrent.bufCapacity) := by
  rcases hk with ⟨e, hk, rfl⟩ | ⟨fs1, fs2, res, h1, h2, h3⟩
  · exact ⟨[], _, rfl, by rw [List.append_nil]; exact Has.touchLock h hk, fun h => nomatch h⟩
  · have hl := Has.touchLock h h1
    have hw : ∃ t rest, Gcmd.commandsText cs = t ++ rest ∧ Has root (c ++ t) fs2 ∧ (res = .ok () → rest.length ≤ Concurrent.bufCapacity) := by
      rcases h2 with ⟨e, hk, rfl⟩ | ⟨fs3, h4, h5⟩
      · refine ⟨[], _, rfl, ?_, fun h => nomatch h⟩
        rw [List.append_nil]
        rcases hk.cases with rfl | rfl
        · exact hl
        · rw [openAppend_fst]; exact hl
      · have : fs3 = fs1 := by
          rcases h4.cases with rfl | rfl
          · rfl
          · exact openAppend_fst _ _
        subst this
        obtain ⟨t, rest, e1, rfl, e2⟩ := h5.exists_append
        rw [Disk.commandPieces_flatten] at e1
        exact ⟨t, rest, e1, hl.append t, e2⟩
    obtain ⟨t, rest, e1, e2, e3⟩ := hw
    refine ⟨t, rest, e1, ?_, ?_⟩
    · have : fs' = fs2 ∨ fs' = (unlock root fs2).1 := by
        rcases h3 with ⟨e, h3, _⟩ | ⟨h3, _⟩ <;> exact h3.cases
      rcases this with rfl | rfl
      · exact e2
      · exact e2.unlock
    · rintro rfl
      rcases h3 with ⟨e, _, h3⟩ | ⟨_, h3⟩
      · cases h3
      · exact e3 h3.symm

/-- A short text stays in the buffer until the end. -/
theorem writePieces_short (ts : List Text) : ∀ w : Writer, (w.buffer ++ ts.flatten).length < Concurrent.bufCapacity →
    WritePieces ts w ⟨w.content, w.buffer ++ ts.flatten⟩ true := by
  induction ts with
  | nil => intro w _; simpa using WritePieces.nil
  | cons t ts ih =>
    intro w h
    rw [List.flatten_cons, List.length_append, List.length_append] at h
    have h1 : WriteAll w t ⟨w.content, w.buffer ++ t⟩ true := by
      refine ⟨w, true, ?_, .inr ⟨rfl, ?_⟩⟩
      · rw [if_neg (by omega)]; exact ⟨rfl, rfl⟩
      · rw [if_neg (by omega)]; exact ⟨rfl, rfl⟩
    have h2 := ih ⟨w.content, w.buffer ++ t⟩ (by simp only [List.length_append]; omega)
    rw [List.flatten_cons, ← List.append_assoc]
    exact .cons h1 h2

theorem lock_unlock {c : Text} (h : Has root c fs) : ∃ fs1, Touch (lockPath root) fs fs1 (.ok ()) ∧ Has root c fs1 ∧ FileAt fs1 (lockPath root) := by
  obtain ⟨fs1, h1, h2⟩ := lock_ok h.1.lockable
  have ht := touch_may (lockPath root) fs
  unfold lock at h1
  rw [h1] at ht
  exact ⟨fs1, ht, Has.touchLock h ht, h2.1⟩

theorem appendText_other {p q : FPath} (t : Text) (fs : FS) (h : q ≠ p) : appendText p t fs q = fs q := by
  unfold appendText
  cases hx : fs p with
  | none => rfl
  | some n =>
    cases n with
    | dir => rfl
    | file c => exact FS.set_other _ _ h

/-- Any beginning of a short text may be stored, and the result is `Ok`. -/
theorem any_beginning {c t : Text} {cs : List GraphCommand} (h : Has root c fs) (hlen : (Gcmd.commandsText cs).length < Concurrent.bufCapacity)
    (ht : t <+: Gcmd.commandsText cs) : ∃ fs', ApplyGraphCommands root cs fs fs' (.ok ()) ∧ Has root (c ++ t) fs' := by
  obtain ⟨fs1, h1, h2, h3⟩ := lock_unlock h
  obtain ⟨rest, hr⟩ := ht
  have hc := h2.2
  unfold Content at hc
  have hw : WriteFile (commandPath root) (cs.flatMap fun c => [Gcmd.commandIntoLine c, ['\n']]) fs1
      (appendText (commandPath root) t fs1) (.ok ()) := by
    refine ⟨c, c ++ t, true, hc, ⟨_, ⟨c ++ t, rest⟩, rest.isEmpty, writePieces_short _ ⟨c, []⟩ ?_, ⟨t, rest, ?_, rfl, rfl⟩, rfl⟩, ?_, .inl ⟨rfl, rfl⟩⟩
    · rw [List.nil_append, Disk.commandPieces_flatten]; exact hlen
    · dsimp only; rw [List.nil_append, Disk.commandPieces_flatten, hr]
    · unfold appendText; rw [hc]
  have hlock : FileAt (appendText (commandPath root) t fs1) (lockPath root) := by
    obtain ⟨l, hl⟩ := h3
    exact ⟨l, by rw [appendText_other _ _ (lock_ne_command root).symm]; exact hl⟩
  have ho : openAppend (commandPath root) fs1 = (fs1, .ok ()) := by
    unfold openAppend
    rw [hc]
  refine ⟨(unlock root (appendText (commandPath root) t fs1)).1, .inr ⟨fs1, _, .ok (), h1, .inr ⟨fs1, .inl ho, hw⟩, .inr ⟨.inl ?_, rfl⟩⟩,
    (h2.append t).unlock⟩
  unfold unlock
  rw [removeFile_ok hlock]

/-- Everything is stored, but the lock file cannot be removed. -/
theorem lock_stays {c : Text} (h : Has root c fs) (cs : List GraphCommand) :
    ∃ fs' e, ApplyGraphCommands root cs fs fs' (.error e) ∧ Has root (c ++ Gcmd.commandsText cs) fs' ∧ FileAt fs' (lockPath root) := by
  obtain ⟨fs1, h1, h2, h3⟩ := lock_unlock h
  refine ⟨(addCommandsTo (commandPath root) cs fs1).1, .notFound, .inr ⟨fs1, _, _, h1, addCommandsTo_may _ cs fs1, .inl ⟨_, .inr ⟨rfl, _, rfl⟩, rfl⟩⟩, ?_, ?_⟩
  · rw [addCommandsTo_eq]; exact h2.append _
  · obtain ⟨l, hl⟩ := h3
    exact ⟨l, by rw [addCommandsTo_eq, appendText_other _ _ (lock_ne_command root).symm]; exact hl⟩

/-- A program that stores, of each of some lists of commands, a beginning, and without faults everything, and that ends in the same way. -/
def Stores (root : FPath) (K : FS → FS → Exit → Prop) (F : FS → FS × Exit) : Prop :=
  ∀ fs fs' e c, Has root c fs → K fs fs' e → ∃ parts : List (List GraphCommand × Text),
    (∀ p ∈ parts, p.2 <+: Gcmd.commandsText p.1) ∧ Has root (c ++ (parts.map Prod.snd).flatten) fs' ∧
    ∀ x d, Has root d x → (F x).2 = e ∧ Has root (d ++ Gcmd.commandsText (parts.map Prod.fst).flatten) (F x).1

theorem stores_mutateStep (o : Option (List Text)) (mk : List VertexId → Run (List GraphCommand)) :
    Stores root (MutateStep root o mk) (mutateStep root o mk) := by
  intro fs fs' e c h hk
  unfold MutateStep at hk
  unfold mutateStep
  have none : fs' = fs → ∃ parts : List (List GraphCommand × Text),
      (∀ p ∈ parts, p.2 <+: Gcmd.commandsText p.1) ∧ Has root (c ++ (parts.map Prod.snd).flatten) fs' ∧ parts = [] := by
    rintro rfl
    exact ⟨[], by simp, by simpa using h, rfl⟩
  cases o with
  | none =>
    obtain ⟨parts, h1, h2, rfl⟩ := none hk.1
    exact ⟨[], h1, h2, fun x d hx => ⟨hk.2.symm, by simpa [Gcmd.commandsText] using hx⟩⟩
  | some l =>
    dsimp only at hk ⊢
    generalize (Run.unwrap (Args.parseVertexIdList l)).bind mk = q at hk ⊢
    rcases q with _ | _ | cs
    · obtain ⟨parts, h1, h2, rfl⟩ := none hk.1
      exact ⟨[], h1, h2, fun x d hx => ⟨hk.2.symm, by simpa [Gcmd.commandsText] using hx⟩⟩
    · obtain ⟨parts, h1, h2, rfl⟩ := none hk.1
      exact ⟨[], h1, h2, fun x d hx => ⟨hk.2.symm, by simpa [Gcmd.commandsText] using hx⟩⟩
    · obtain ⟨⟨r, hk⟩, rfl⟩ := hk
      obtain ⟨t, rest, e1, e2, _⟩ := Has.applied h hk
      refine ⟨[(cs, t)], ?_, by simpa using e2, fun x d hx => ⟨rfl, by simpa using hx.apply cs⟩⟩
      intro p hp
      rw [List.mem_singleton.1 hp, e1]
      exact List.prefix_append _ _

theorem Stores.then {K1 K2 : FS → FS → Exit → Prop} {F1 F2 : FS → FS × Exit} (h1 : Stores root K1 F1) (h2 : Stores root K2 F2) :
    Stores root (Then K1 K2) fun fs => andThen (F1 fs) F2 := by
  intro fs fs' e c h hk
  rcases hk with ⟨hk, rfl⟩ | ⟨fs1, hk1, hk2⟩
  · obtain ⟨parts, p1, p2, p3⟩ := h1 _ _ _ _ h hk
    refine ⟨parts, p1, p2, fun x d hx => ?_⟩
    obtain ⟨q1, q2⟩ := p3 x d hx
    dsimp only
    generalize F1 x = r at q1 q2
    obtain ⟨y, e⟩ := r
    dsimp only at q1
    subst q1
    exact ⟨rfl, q2⟩
  · obtain ⟨parts1, p1, p2, p3⟩ := h1 _ _ _ _ h hk1
    obtain ⟨parts2, r1, r2, r3⟩ := h2 _ _ _ _ p2 hk2
    refine ⟨parts1 ++ parts2, ?_, ?_, fun x d hx => ?_⟩
    · intro p hp
      rcases List.mem_append.1 hp with hp | hp
      · exact p1 p hp
      · exact r1 p hp
    · rw [List.map_append, List.flatten_append, ← List.append_assoc]
      exact r2
    · obtain ⟨q1, q2⟩ := p3 x d hx
      dsimp only
      generalize F1 x = r at q1 q2
      obtain ⟨y, e⟩ := r
      dsimp only at q1
      subst q1
      obtain ⟨s1, s2⟩ := r3 y _ q2
      refine ⟨s1, ?_⟩
      show Has root _ (F2 y).1
      rw [List.map_append, List.flatten_append, commandsText_append, ← List.append_assoc]
      exact s2

theorem stores_gcAdd (a : AddArgs) : Stores root (GcAdd root a) (gcAdd root a) :=
  (stores_mutateStep _ _).then ((stores_mutateStep _ _).then ((stores_mutateStep _ _).then ((stores_mutateStep _ _).then
    ((stores_mutateStep _ _).then (stores_mutateStep _ _)))))

theorem stores_gcDelete (v x : Option (List Text)) : Stores root (GcDelete root v x) (gcDelete root v x) :=
  (stores_mutateStep _ _).then (stores_mutateStep _ _)

end Faults
end GC
