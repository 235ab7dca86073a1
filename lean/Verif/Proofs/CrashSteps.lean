/-
A process that is killed after any number of its system calls leaves one of the states listed in `Verif/Model/Crash.lean`.
-/
import Verif.Proofs.Unlink
import Verif.Props.Concurrent
import Verif.Model.Crash
namespace GC
namespace Unlink
open Store Text Format Concurrent

variable {nd : Char → Bool} {order : DirectedGraph → DirectedGraph} {root : FPath} {fs0 : FS}

theorem appendText_appendText (p : FPath) (a b : Text) (fs : FS) : appendText p b (appendText p a fs) = appendText p (a ++ b) fs := by
  unfold appendText
  cases h : fs p with
  | none => simp [h]
  | some n =>
    cases n with
    | dir => simp [h]
    | file c => simp [set_set, FS.set]

theorem appendText_nil (p : FPath) (fs : FS) : appendText p [] fs = fs := by
  unfold appendText
  cases h : fs p with
  | none => rfl
  | some n =>
    cases n with
    | dir => rfl
    | file c =>
      dsimp only
      rw [List.append_nil]
      funext q
      by_cases e : q = p
      · rw [e, FS.set_self, h]
      · rw [FS.set_other _ _ e]

theorem lock_eq (root : FPath) (fs : FS) : lock root fs = openCreate (lockPath root) (createDirAll root fs).1 := by
  unfold lock touch
  rw [show (lockPath root).dropLast = root by simp [lockPath]]

/-! `apply_graph_commands` -/

def AddAt (root : FPath) (cs : List GraphCommand) (fs0 : FS) (pc : Pc) (w : World) : Prop :=
  match pc with
  | .start => w.fs = fs0
  | .dirs => w.fs = (createDirAll root fs0).1
  | .locked => lock root fs0 = (w.fs, .ok ())
  | .writing h rest => h = w.gen ∧ ∃ fs1 done, lock root fs0 = (fs1, .ok ()) ∧ openAppend (commandPath root) fs1 = (fs1, .ok ()) ∧
      w.fs = appendText (commandPath root) done fs1 ∧ done ++ rest.flatten = Gcmd.commandsText cs
  | .unlocking ok => ∃ fs1 r, lock root fs0 = (fs1, .ok ()) ∧ addCommandsTo (commandPath root) cs fs1 = (w.fs, r) ∧ ok = okOf r
  | .finished _ => ApplyKilled root cs fs0 w.fs
  | _ => False

theorem AddAt.killed {cs : List GraphCommand} {pc : Pc} {w : World} (h : AddAt root cs fs0 pc w) : ApplyKilled root cs fs0 w.fs := by
  unfold ApplyKilled WithLockKilled
  cases pc with
  | start => exact .inl (.inl h)
  | dirs => exact .inl (.inr (.inl ⟨root, by simp [lockPath], h⟩))
  | locked => exact .inr ⟨_, h, .inl ⟨[], List.nil_prefix, (appendText_nil _ _).symm⟩⟩
  | writing h' rest =>
    obtain ⟨_, fs1, d, h1, _, h3, h4⟩ := h
    exact .inr ⟨fs1, h1, .inl ⟨d, ⟨_, h4⟩, h3⟩⟩
  | unlocking ok =>
    obtain ⟨fs1, r, h1, h2, _⟩ := h
    exact .inr ⟨fs1, h1, .inr (.inl (by rw [h2]))⟩
  | finished ok => exact h
  | _ => exact h.elim

/-- `lock`, for additions and removals of the directory. -/
theorem stepUnlock_fs {α : Type} {block : FS → Io α} {fs1 fs2 : FS} {r : Except IoError α} {w : World} (h1 : lock root fs0 = (fs1, .ok ()))
    (h2 : block fs1 = (fs2, r)) (hw : w.fs = fs2) (next : Pc) :
    (stepUnlock root (okOf r) next w).1.fs = (withLock root block fs0).1 ∧
    (stepUnlock root (okOf r) next w).2 = (if okOf (withLock root block fs0).2 then next else .finished false) := by
  have hwl : withLock root block fs0 = (match unlock root fs2 with
      | (fs3, .error e) => (fs3, .error e)
      | (fs3, .ok ()) => (fs3, r)) := by
    simp only [withLock, h1, h2]
    rcases unlock root fs2 with ⟨_, _ | _⟩ <;> rfl
  rw [hwl]
  unfold stepUnlock
  rw [hw]
  generalize unlock root fs2 = u
  obtain ⟨fs3, u⟩ := u
  cases u with
  | error e => exact ⟨rfl, rfl⟩
  | ok u => exact ⟨rfl, rfl⟩

theorem AddAt.step {cs : List GraphCommand} {pc : Pc} {w : World} (h : AddAt root cs fs0 pc w) :
    AddAt root cs fs0 (stepJob nd order root (.add cs) pc w).2 (stepJob nd order root (.add cs) pc w).1 := by
  dsimp only [stepJob]
  have hk := h.killed
  cases pc with
  | start =>
    dsimp only [stepAdd, stepLock]
    change _ = _ at h ⊢
    rw [h]
  | dirs =>
    dsimp only [stepAdd, stepLock]
    change _ = _ at h
    have hl := lock_eq root fs0
    rw [← h] at hl
    generalize openCreate (lockPath root) w.fs = r at hl ⊢
    obtain ⟨fs1, _ | _⟩ := r
    · exact .inl (.inr (.inr (by change fs1 = (lock root fs0).1; rw [hl])))
    · exact hl
  | locked =>
    dsimp only [stepAdd]
    have e : openAppend (commandPath root) w.fs = (w.fs, (openAppend (commandPath root) w.fs).2) := by
      unfold openAppend
      cases w.fs (commandPath root) with
      | none => rfl
      | some n => cases n <;> rfl
    generalize hr : (openAppend (commandPath root) w.fs).2 = r at e
    rw [e]
    cases r with
    | error x =>
      refine ⟨w.fs, .error x, h, ?_, rfl⟩
      unfold addCommandsTo
      rw [e]
    | ok u =>
      cases u
      exact ⟨rfl, w.fs, [], h, e, (appendText_nil _ _).symm, by rw [List.nil_append, addWrites_flatten]⟩
  | writing hd rest =>
    obtain ⟨rfl, fs1, d, h1, h2, h3, h4⟩ := h
    cases rest with
    | nil =>
      dsimp only [stepAdd]
      refine ⟨fs1, .ok (), h1, ?_, rfl⟩
      unfold addCommandsTo
      rw [h2]
      dsimp only
      rw [h3, ← h4, List.flatten_nil, List.append_nil]
    | cons t rest =>
      dsimp only [stepAdd]
      unfold World.append
      rw [if_pos rfl]
      refine ⟨rfl, fs1, d ++ t, h1, h2, ?_, by rw [← h4]; simp⟩
      dsimp only
      rw [h3, appendText_appendText]
  | unlocking ok =>
    dsimp only [stepAdd]
    obtain ⟨fs1, r, h1, h2, rfl⟩ := h
    obtain ⟨e1, e2⟩ := stepUnlock_fs h1 h2 rfl (.finished true)
    have hf : ApplyKilled root cs fs0 (stepUnlock root (okOf r) (.finished true) w).1.fs := .inr ⟨fs1, h1, .inr (.inr e1)⟩
    rw [e2]
    split <;> exact hf
  | finished ok => exact h
  | _ => exact h.elim

/-! `init` -/

def InitAt (root : FPath) (fs0 : FS) (pc : Pc) (w : World) : Prop :=
  match pc with
  | .start => w.fs = fs0
  | .dirs => w.fs = (createDirAll (rootPath root) fs0).1
  | .finished _ => TouchKilled (commandPath root) fs0 w.fs
  | _ => False

theorem command_dropLast (root : FPath) : (commandPath root).dropLast = rootPath root := by simp [commandPath, rootPath]

theorem InitAt.killed {pc : Pc} {w : World} (h : InitAt root fs0 pc w) : TouchKilled (commandPath root) fs0 w.fs := by
  cases pc with
  | start => exact .inl h
  | dirs => exact .inr (.inl ⟨rootPath root, by rw [command_dropLast]; exact List.prefix_rfl, h⟩)
  | finished ok => exact h
  | _ => exact h.elim

theorem init_eq (root : FPath) (fs : FS) : Store.init root fs = openCreate (commandPath root) (createDirAll (rootPath root) fs).1 := by
  unfold Store.init touch
  rw [command_dropLast]

theorem InitAt.step {pc : Pc} {w : World} (h : InitAt root fs0 pc w) :
    InitAt root fs0 (stepJob nd order root .init pc w).2 (stepJob nd order root .init pc w).1 := by
  dsimp only [stepJob]
  cases pc with
  | start =>
    dsimp only [stepInit, initDir]
    change _ = _ at h ⊢
    rw [h]
  | dirs =>
    dsimp only [stepInit, initFile]
    change _ = _ at h
    have hl := init_eq root fs0
    rw [← h] at hl
    generalize openCreate (commandPath root) w.fs = r at hl ⊢
    obtain ⟨fs1, _ | _⟩ := r
    · exact .inr (.inr (by change fs1 = (Store.init root fs0).1; rw [hl]))
    · exact .inr (.inr (by change fs1 = (Store.init root fs0).1; rw [hl]))
  | finished ok => exact h
  | _ => exact h.elim

/-! `clean` -/

/-- The process is in `clean`, before the lock is released. -/
def CleanAt (root : FPath) (fs0 : FS) (pc : Pc) (w : World) : Prop :=
  match pc with
  | .start => w.fs = fs0
  | .dirs => w.fs = (createDirAll root fs0).1
  | .locked => lock root fs0 = (w.fs, .ok ())
  | .listed true => lock root fs0 = (w.fs, .ok ()) ∧ w.fs (rootPath root) = some .dir ∧ w.fs (commandPath root) ≠ none
  | .listed false => ∃ fs1, lock root fs0 = (fs1, .ok ()) ∧ fs1 (rootPath root) = some .dir ∧
      (∀ q, ¬ commandPath root <+: q → w.fs q = fs1 q) ∧ ∀ q, commandPath root <+: q → w.fs q = none
  | .emptied => ∃ fs1, lock root fs0 = (fs1, .ok ()) ∧ fs1 (rootPath root) = some .dir ∧
      (∀ q, ¬ rootPath root <+: q → w.fs q = fs1 q) ∧ w.fs (rootPath root) = some .dir ∧ ∀ q, rootPath root <+: q → q ≠ rootPath root → w.fs q = none
  | .unlocking ok => ∃ fs1 r, lock root fs0 = (fs1, .ok ()) ∧ removeDirAll (rootPath root) fs1 = (w.fs, r) ∧ ok = okOf r
  | _ => False

theorem CleanAt.killed {pc : Pc} {w : World} (h : CleanAt root fs0 pc w) : CleanKilled root fs0 w.fs := by
  unfold CleanKilled WithLockKilled
  have refl : RemoveDirKilled (rootPath root) w.fs w.fs := ⟨fun _ => .inl rfl, fun q _ _ h1 h2 => absurd h2 h1⟩
  cases pc with
  | start => exact .inl (.inl h)
  | dirs => exact .inl (.inr (.inl ⟨root, by simp [lockPath], h⟩))
  | locked => exact .inr ⟨_, h, .inl refl⟩
  | listed b =>
    cases b with
    | true => exact .inr ⟨_, h.1, .inl refl⟩
    | false =>
      obtain ⟨fs1, h1, _, h3, h4⟩ := h
      refine .inr ⟨fs1, h1, .inl ⟨?_, ?_⟩⟩
      · intro q
        by_cases hq : commandPath root <+: q
        · exact .inr ⟨(root_prefix_command root).trans hq, h4 q hq⟩
        · exact .inl (h3 q hq)
      · intro q r hqr hne hn
        by_cases hq : commandPath root <+: q
        · exact h4 r (hq.trans hqr)
        · rw [h3 q hq] at hn
          exact absurd hn hne
  | emptied =>
    obtain ⟨fs1, h1, h2, h3, h4, h5⟩ := h
    refine .inr ⟨fs1, h1, .inl ⟨?_, ?_⟩⟩
    · intro q
      by_cases hq : rootPath root <+: q
      · by_cases e : q = rootPath root
        · rw [e, h4, h2]; exact .inl rfl
        · exact .inr ⟨hq, h5 q hq e⟩
      · exact .inl (h3 q hq)
    · intro q r hqr hne hn
      by_cases hq : rootPath root <+: q
      · by_cases e : q = rootPath root
        · rw [e, h4] at hn; cases hn
        · refine h5 r (hq.trans hqr) ?_
          rintro rfl
          exact e (hqr.eq_of_length_le hq.length_le)
      · rw [h3 q hq] at hn
        exact absurd hn hne
  | unlocking ok =>
    obtain ⟨fs1, r, h1, h2, _⟩ := h
    exact .inr ⟨fs1, h1, .inr (.inl (by rw [h2]))⟩
  | _ => exact h.elim

/-- A step inside `clean`; the lock cannot be taken, or is about to be released. -/
theorem CleanAt.step (hb : NothingBelow root fs0) {pc : Pc} {w : World} (h : CleanAt root fs0 pc w) (hu : ∀ ok, pc ≠ .unlocking ok) :
    CleanAt root fs0 (stepClean root pc w).2 (stepClean root pc w).1 ∨
    (∃ e, (lock root fs0).2 = .error e ∧ (stepClean root pc w).1.fs = (lock root fs0).1 ∧ (stepClean root pc w).2 = .finished false) := by
  have hb1 : ∀ fs1, lock root fs0 = (fs1, .ok ()) → NothingBelow root fs1 := by
    intro fs1 h
    have := lock_nothingBelow hb
    rw [h] at this
    exact this
  cases pc with
  | start =>
    left
    dsimp only [stepClean, stepLock]
    change _ = _ at h ⊢
    rw [h]
  | dirs =>
    dsimp only [stepClean, stepLock]
    change _ = _ at h
    have hl := lock_eq root fs0
    rw [← h] at hl
    rw [hl]
    generalize openCreate (lockPath root) w.fs = r at hl ⊢
    obtain ⟨fs1, e | _⟩ := r
    · exact .inr ⟨e, rfl, rfl, rfl⟩
    · exact .inl hl
  | locked =>
    left
    dsimp only [stepClean, stepRemove]
    change lock root fs0 = _ at h
    cases hr : w.fs (rootPath root) with
    | none =>
      refine ⟨w.fs, .error .notFound, h, ?_, rfl⟩
      unfold removeDirAll
      rw [hr]
    | some n =>
      cases n with
      | file c =>
        refine ⟨w.fs, .error .notADirectory, h, ?_, rfl⟩
        unfold removeDirAll
        rw [hr]
      | dir =>
        dsimp only
        cases hc : w.fs (commandPath root) with
        | none =>
          refine ⟨w.fs, h, hr, fun _ _ => rfl, ?_⟩
          intro q hq
          by_cases e : q = commandPath root
          · rw [e, hc]
          · exact hb1 _ h q hq e (by rw [hc]; simp)
        | some n => exact ⟨h, hr, by rw [hc]; simp⟩
  | listed b =>
    left
    cases b with
    | true =>
      obtain ⟨h1, h2, h3⟩ := h
      dsimp only [stepClean, stepRemove]
      unfold World.unlink
      cases hc : w.fs (commandPath root) with
      | none => exact absurd hc h3
      | some n =>
        cases n with
        | dir =>
          refine ⟨w.fs, h1, h2, ?_, ?_⟩
          · intro q hq
            exact if_neg (by simpa using hq)
          · intro q hq
            exact if_pos (by simpa using hq)
        | file c =>
          refine ⟨w.fs, h1, h2, ?_, ?_⟩
          · intro q hq
            exact FS.set_other _ _ (by rintro rfl; exact hq List.prefix_rfl)
          · intro q hq
            dsimp only
            by_cases e : q = commandPath root
            · rw [e, FS.set_self]
            · rw [FS.set_other _ _ e]
              exact hb1 _ h1 q hq e (by rw [hc]; simp)
    | false =>
      obtain ⟨fs1, h1, h2, h3, h4⟩ := h
      have hrr : ¬ commandPath root <+: rootPath root := by
        intro h
        have := h.length_le
        simp [commandPath, rootPath] at this
      dsimp only [stepClean, stepRemove]
      refine ⟨fs1, h1, h2, ?_, ?_, ?_⟩
      · intro q hq
        unfold World.removeOthers
        dsimp only
        rw [if_neg (by simp [hq])]
        exact h3 q fun h => hq ((root_prefix_command root).trans h)
      · unfold World.removeOthers
        dsimp only
        rw [if_neg (by simp), h3 _ hrr, h2]
      · intro q hq hne
        unfold World.removeOthers
        dsimp only
        by_cases hc : commandPath root <+: q
        · rw [if_neg (by simp [hc]), h4 q hc]
        · rw [if_pos (by simp [hc, hne, hq])]
  | emptied =>
    left
    obtain ⟨fs1, h1, h2, h3, h4, h5⟩ := h
    have hc : w.fs (commandPath root) = none := h5 _ (root_prefix_command root) (Ne.symm (command_not_prefix root List.prefix_rfl))
    dsimp only [stepClean, stepRemove]
    rw [h4, hc]
    refine ⟨fs1, .ok (), h1, ?_, rfl⟩
    unfold removeDirAll
    rw [h2]
    dsimp only
    refine congrArg (·, _) ?_
    funext q
    by_cases e : q = rootPath root
    · rw [e, FS.set_self, if_pos (List.isPrefixOf_iff_prefix.2 List.prefix_rfl)]
    · rw [FS.set_other _ _ e]
      by_cases hq : rootPath root <+: q
      · rw [if_pos (by simpa using hq), h5 q hq e]
      · rw [if_neg (by simpa using hq), h3 q hq]
  | unlocking ok => exact absurd rfl (hu ok)
  | _ => exact h.elim

/-- gc-clean. -/
theorem clean_steps (hb : NothingBelow root fs0) {pc : Pc} {w : World}
    (h : CleanAt root fs0 pc w ∨ (∃ ok, pc = .finished ok) ∧ CleanKilled root fs0 w.fs) :
    CleanAt root fs0 (stepJob nd order root .clean pc w).2 (stepJob nd order root .clean pc w).1 ∨
      (∃ ok, (stepJob nd order root .clean pc w).2 = .finished ok) ∧ CleanKilled root fs0 (stepJob nd order root .clean pc w).1.fs := by
  dsimp only [stepJob]
  rcases h with h | ⟨⟨ok, rfl⟩, h⟩
  · by_cases hu : ∃ ok, pc = .unlocking ok
    · obtain ⟨ok, rfl⟩ := hu
      obtain ⟨fs1, r, h1, h2, rfl⟩ := h
      dsimp only [stepClean]
      obtain ⟨e1, e2⟩ := stepUnlock_fs h1 h2 rfl (.finished true)
      have hf : CleanKilled root fs0 (stepUnlock root (okOf r) (.finished true) w).1.fs := .inr ⟨fs1, h1, .inr (.inr e1)⟩
      right
      refine ⟨?_, hf⟩
      rw [e2]
      split <;> exact ⟨_, rfl⟩
    · rcases h.step hb (fun ok e => hu ⟨ok, e⟩) with h | ⟨e, h1, h2, h3⟩
      · exact .inl h
      · refine .inr ⟨⟨_, h3⟩, .inl (.inr (.inr ?_))⟩
        exact h2
  · exact .inr ⟨⟨ok, rfl⟩, h⟩

/-! Saving a graph -/

/-- The process is in `save_graph_as_commands`, which began with the files `fs2`. -/
def SaveAt (root : FPath) (g : DirectedGraph) (fs2 : FS) (pc : Pc) (w : World) : Prop :=
  match pc with
  | .loaded g' => g' = g ∧ w.fs = fs2
  | .rewriting h offset rest => h = w.gen ∧ ∃ fs3 done, createTruncate (commandPath root) fs2 = (fs3, .ok ()) ∧
      w.fs = appendText (commandPath root) done fs3 ∧ w.fs (commandPath root) = some (.file done) ∧ offset = done.length ∧
      done ++ rest.flatten = Gcmd.save g
  | .finished _ => SaveKilled root g fs2 w.fs
  | _ => False

theorem SaveAt.killed {g : DirectedGraph} {fs2 : FS} {pc : Pc} {w : World} (h : SaveAt root g fs2 pc w) : SaveKilled root g fs2 w.fs := by
  cases pc with
  | loaded g' => exact .inl h.2
  | rewriting h' offset rest =>
    obtain ⟨_, fs3, d, h1, h2, _, _, h3⟩ := h
    exact .inr ⟨d, ⟨_, h3⟩, by rw [h1]; exact h2⟩
  | finished ok => exact h
  | _ => exact h.elim

theorem SaveAt.step {g : DirectedGraph} {fs2 : FS} {pc : Pc} {w : World} (h : SaveAt root g fs2 pc w) :
    SaveAt root g fs2 (stepSave root pc w).2 (stepSave root pc w).1 := by
  have hk := h.killed
  cases pc with
  | loaded g' =>
    obtain ⟨rfl, h2⟩ := h
    dsimp only [stepSave]
    rw [h2]
    have htr : ∀ fs5, createTruncate (commandPath root) fs2 = (fs5, .ok ()) → fs5 (commandPath root) = some (.file []) := by
      intro fs5 h
      unfold createTruncate at h
      split at h
      · cases h; exact FS.set_self _ _ _
      · cases h
      · split at h
        · cases h; exact FS.set_self _ _ _
        · cases h
        · cases h
    have her : ∀ fs5 e, createTruncate (commandPath root) fs2 = (fs5, .error e) → fs5 = fs2 := by
      intro fs5 e h
      unfold createTruncate at h
      split at h
      · cases h
      · cases h; rfl
      · split at h
        · cases h
        · cases h; rfl
        · cases h; rfl
    generalize hr : createTruncate (commandPath root) fs2 = r at htr her
    obtain ⟨fs5, e | _⟩ := r
    · exact .inl (her fs5 e rfl)
    · exact ⟨rfl, fs5, [], hr, (appendText_nil _ _).symm, htr fs5 rfl, rfl, by rw [List.nil_append, saveWrites_flatten]⟩
  | rewriting h' offset rest =>
    cases rest with
    | nil => exact hk
    | cons t rest =>
      obtain ⟨rfl, fs3, d, h1, h2, h3, rfl, h5⟩ := h
      have e : (w.writeAt root w.gen d.length t).fs = w.fs.set (commandPath root) (some (.file (d ++ t))) := by
        unfold World.writeAt Concurrent.writeAt
        rw [if_pos rfl, h3]
        have hd : d.drop (d.length + t.length) = [] := List.drop_eq_nil_of_le (Nat.le_add_right _ _)
        simp [hd]
      dsimp only [stepSave]
      refine ⟨?_, fs3, d ++ t, h1, ?_, ?_, by simp, by rw [← h5]; simp⟩
      · unfold World.writeAt
        rw [if_pos rfl]
      · rw [e, ← appendText_appendText, ← h2]
        unfold appendText
        rw [h3]
      · rw [e, FS.set_self]
  | finished ok => exact h
  | _ => exact h.elim

/-! gc-build -/

theorem stepRead_gen (nd : Char → Bool) (root : FPath) (r : Reader) (w : World) :
    stepRead nd root w.gen r w = Concurrent.stepRead nd root r w.fs := by
  unfold stepRead Concurrent.stepRead World.content
  rw [if_pos rfl]
  cases w.fs (commandPath root) with
  | none => rfl
  | some n => cases n <;> rfl

def BuildAt (nd : Char → Bool) (order : DirectedGraph → DirectedGraph) (root : FPath) (fs0 : FS) (pc : Pc) (w : World) : Prop :=
  match pc with
  | .start => w.fs = fs0
  | .reading h r => h = w.gen ∧ w.fs = fs0 ∧ ∃ m, iterQuery nd root fs0 m (.reading r) = .answered (loadGraph nd root fs0)
  | .finished _ => GcBuildKilled nd order root fs0 w.fs
  | pc => ∃ g, loadGraph nd root fs0 = .done (.ok g) ∧ SaveAt root (order g) fs0 pc w

theorem BuildAt.killed {pc : Pc} {w : World} (h : BuildAt nd order root fs0 pc w) : GcBuildKilled nd order root fs0 w.fs := by
  have hs : ∀ pc, (∃ g, loadGraph nd root fs0 = .done (.ok g) ∧ SaveAt root (order g) fs0 pc w) → GcBuildKilled nd order root fs0 w.fs := by
    rintro pc ⟨g, h1, h2⟩
    exact .inr ⟨g, h1, h2.killed⟩
  cases pc with
  | start => exact .inl h
  | reading h' r => exact .inl h.2.1
  | finished ok => exact h
  | _ => exact hs _ h

theorem SaveAt.build {g : DirectedGraph} (hl : loadGraph nd root fs0 = .done (.ok g)) {pc : Pc} {w : World} (h : SaveAt root (order g) fs0 pc w) :
    BuildAt nd order root fs0 pc w := by
  cases pc with
  | loaded g' => exact ⟨g, hl, h⟩
  | rewriting h' offset rest => exact ⟨g, hl, h⟩
  | finished ok => exact .inr ⟨g, hl, h⟩
  | _ => exact h.elim

theorem BuildAt.step {pc : Pc} {w : World} (h : BuildAt nd order root fs0 pc w) :
    BuildAt nd order root fs0 (stepJob nd order root .build pc w).2 (stepJob nd order root .build pc w).1 := by
  dsimp only [stepJob]
  have key : ∀ (l : LoadStep) (m : Nat) (pc' : Concurrent.Pc), w.fs = fs0 →
      iterQuery nd root fs0 m (match l with | .more r => .reading r | .returned res => .answered res) = .answered (loadGraph nd root fs0) →
      BuildAt nd order root fs0
        (match l with | .more r => (w, Pc.reading w.gen r) | .returned (.done (.ok g)) => (w, .loaded (order g)) | .returned _ => (w, .finished false)).2
        (match l with | .more r => (w, Pc.reading w.gen r) | .returned (.done (.ok g)) => (w, .loaded (order g)) | .returned _ => (w, .finished false)).1 := by
    intro l m pc' hw h
    cases l with
    | more r => exact ⟨rfl, hw, m, h⟩
    | returned res =>
      dsimp only at h
      rw [iterQuery_answered] at h
      cases h
      generalize hl : loadGraph nd root fs0 = res
      rcases res with _ | _ | (e | g)
      · exact .inl hw
      · exact .inl hw
      · exact .inl hw
      · exact ⟨g, hl, rfl, hw⟩
  cases pc with
  | start =>
    change w.fs = fs0 at h
    obtain ⟨n, hn⟩ := C78_alone nd (fun _ => order) root fs0
    have hq := (run_query_alone nd (fun _ => order) root (n + 1) ⟨fs0, fun _ => .start⟩).2.symm.trans (hn (n + 1) (by omega)).2
    change iterQuery nd root fs0 n (Concurrent.stepQuery nd root .start fs0).2 = _ at hq
    have := key (Concurrent.stepOpen root fs0) n .start h (by
      rw [← hq]
      simp only [Concurrent.stepQuery]
      cases Concurrent.stepOpen root fs0 <;> rfl)
    simp only [stepBuild, stepOpen]
    rw [h]
    rcases hl : Concurrent.stepOpen root fs0 with r | (_ | _ | (_ | _)) <;> rw [hl] at this <;> exact this
  | reading h' r =>
    obtain ⟨rfl, hw, m, hm⟩ := h
    cases m with
    | zero => cases hm
    | succ m =>
      change iterQuery nd root fs0 m (Concurrent.stepQuery nd root (.reading r) fs0).2 = _ at hm
      have := key (Concurrent.stepRead nd root r fs0) m .start hw (by
        rw [← hm]
        simp only [Concurrent.stepQuery]
        cases Concurrent.stepRead nd root r fs0 <;> rfl)
      simp only [stepBuild]
      rw [stepRead_gen, hw]
      rcases hl : Concurrent.stepRead nd root r fs0 with r | (_ | _ | (_ | _)) <;> rw [hl] at this <;> exact this
  | finished ok => exact h
  | loaded g' =>
    obtain ⟨g, hl, h⟩ := h
    exact SaveAt.build hl h.step
  | rewriting h' offset rest =>
    obtain ⟨g, hl, h⟩ := h
    exact SaveAt.build hl h.step
  | _ => obtain ⟨g, hl, h⟩ := h; exact h.elim

/-! gc-random -/

def RandomAt (root : FPath) (g : DirectedGraph) (fs0 : FS) (pc : Pc) (w : World) : Prop :=
  match pc with
  | .initialising => clean root fs0 = (w.fs, .ok ())
  | .initDirs => ∃ fs1, clean root fs0 = (fs1, .ok ()) ∧ w.fs = (createDirAll (rootPath root) fs1).1
  | .finished _ => ReplaceKilled root g fs0 w.fs
  | .loaded g' => ∃ fs1 fs2, clean root fs0 = (fs1, .ok ()) ∧ Store.init root fs1 = (fs2, .ok ()) ∧ SaveAt root g fs2 (.loaded g') w
  | .rewriting h offset rest => ∃ fs1 fs2, clean root fs0 = (fs1, .ok ()) ∧ Store.init root fs1 = (fs2, .ok ()) ∧ SaveAt root g fs2 (.rewriting h offset rest) w
  | pc => CleanAt root fs0 pc w

theorem replaceKilled_save {g : DirectedGraph} {fs1 fs2 fs' : FS} (h1 : clean root fs0 = (fs1, .ok ())) (h2 : Store.init root fs1 = (fs2, .ok ()))
    (h3 : SaveKilled root g fs2 fs') : ReplaceKilled root g fs0 fs' := by
  have e1 : expectOk (clean root fs0) = (fs1, .success) := by rw [h1]; rfl
  have e2 : expectOk (Store.init root fs1) = (fs2, .success) := by rw [h2]; rfl
  refine .inr ⟨by dsimp only; rw [e1], .inr ⟨?_, ?_⟩⟩
  · dsimp only; rw [e1]; dsimp only; rw [e2]
  · dsimp only; rw [e1]; dsimp only; rw [e2]; exact h3

theorem replaceKilled_init {g : DirectedGraph} {fs1 fs' : FS} (h1 : clean root fs0 = (fs1, .ok ()))
    (h3 : TouchKilled (commandPath root) fs1 fs') : ReplaceKilled root g fs0 fs' := by
  have e1 : expectOk (clean root fs0) = (fs1, .success) := by rw [h1]; rfl
  refine .inr ⟨by dsimp only; rw [e1], .inl ?_⟩
  dsimp only
  rw [e1]
  exact h3

theorem RandomAt.killed {g : DirectedGraph} {pc : Pc} {w : World} (h : RandomAt root g fs0 pc w) : ReplaceKilled root g fs0 w.fs := by
  have hc : ∀ pc, CleanAt root fs0 pc w → ReplaceKilled root g fs0 w.fs := fun pc h => .inl h.killed
  cases pc with
  | initialising => exact replaceKilled_init h (.inl rfl)
  | initDirs =>
    obtain ⟨fs1, h1, h2⟩ := h
    exact replaceKilled_init h1 (.inr (.inl ⟨rootPath root, by rw [command_dropLast]; exact List.prefix_rfl, h2⟩))
  | finished ok => exact h
  | loaded g' => obtain ⟨fs1, fs2, h1, h2, h3⟩ := h; exact replaceKilled_save h1 h2 h3.killed
  | rewriting h' offset rest => obtain ⟨fs1, fs2, h1, h2, h3⟩ := h; exact replaceKilled_save h1 h2 h3.killed
  | start => exact hc .start h
  | dirs => exact hc .dirs h
  | locked => exact hc .locked h
  | listed b => exact hc (.listed b) h
  | emptied => exact hc .emptied h
  | unlocking ok => exact hc (.unlocking ok) h
  | _ => exact h.elim

theorem CleanAt.random {g : DirectedGraph} {pc : Pc} {w : World} (h : CleanAt root fs0 pc w) : RandomAt root g fs0 pc w := by
  cases pc <;> first | exact h | exact h.elim

theorem RandomAt.step (hb : NothingBelow root fs0) {g : DirectedGraph} {pc : Pc} {w : World} (h : RandomAt root (order g) fs0 pc w) :
    RandomAt root (order g) fs0 (stepJob nd order root (.random g) pc w).2 (stepJob nd order root (.random g) pc w).1 := by
  dsimp only [stepJob]
  have inClean : ∀ pc, CleanAt root fs0 pc w → (∀ ok, pc ≠ .unlocking ok) →
      RandomAt root (order g) fs0 (stepClean root pc w).2 (stepClean root pc w).1 := by
    intro pc h hu
    rcases h.step hb hu with h | ⟨e, h1, h2, h3⟩
    · exact h.random
    · rw [h3]
      exact .inl (.inl (.inr (.inr h2)))
  have saving : ∀ pc fs1 fs2, clean root fs0 = (fs1, .ok ()) → Store.init root fs1 = (fs2, .ok ()) → SaveAt root (order g) fs2 pc w →
      RandomAt root (order g) fs0 (stepSave root pc w).2 (stepSave root pc w).1 := by
    intro pc fs1 fs2 h1 h2 h3
    have h4 := h3.step
    generalize stepSave root pc w = x at h4 ⊢
    obtain ⟨w', pc'⟩ := x
    dsimp only at h4 ⊢
    cases pc' with
    | loaded g' => exact ⟨fs1, fs2, h1, h2, h4⟩
    | rewriting h' offset rest => exact ⟨fs1, fs2, h1, h2, h4⟩
    | finished ok => exact replaceKilled_save h1 h2 h4
    | _ => exact h4.elim
  cases pc with
  | start => exact inClean _ h (by simp)
  | dirs => exact inClean _ h (by simp)
  | locked => exact inClean _ h (by simp)
  | listed b => exact inClean _ h (by simp)
  | emptied => exact inClean _ h (by simp)
  | unlocking ok =>
    obtain ⟨fs1, r, h1, h2, rfl⟩ := h
    dsimp only [stepRandom]
    obtain ⟨e1, e2⟩ := stepUnlock_fs h1 h2 rfl .initialising
    have hf : ReplaceKilled root (order g) fs0 (stepUnlock root (okOf r) .initialising w).1.fs := .inl (.inr ⟨fs1, h1, .inr (.inr e1)⟩)
    rw [e2]
    split
    · rename_i ho
      change clean root fs0 = _
      rw [e1]
      unfold clean
      generalize withLock root (removeDirAll (rootPath root)) fs0 = r at ho ⊢
      obtain ⟨fs3, r⟩ := r
      cases r with
      | error e => cases ho
      | ok u => rfl
    · exact hf
  | initialising =>
    dsimp only [stepRandom, initDir]
    exact ⟨w.fs, h, rfl⟩
  | initDirs =>
    obtain ⟨fs1, h1, h2⟩ := h
    dsimp only [stepRandom, initFile]
    have hl := init_eq root fs1
    rw [← h2] at hl
    generalize openCreate (commandPath root) w.fs = r at hl ⊢
    obtain ⟨fs2, _ | _⟩ := r
    · exact replaceKilled_init h1 (.inr (.inr (by change fs2 = (Store.init root fs1).1; rw [hl])))
    · exact ⟨fs1, fs2, h1, hl, rfl, rfl⟩
  | loaded g' => obtain ⟨fs1, fs2, h1, h2, h3⟩ := h; exact saving _ fs1 fs2 h1 h2 h3
  | rewriting h' offset rest => obtain ⟨fs1, fs2, h1, h2, h3⟩ := h; exact saving _ fs1 fs2 h1 h2 h3
  | finished ok => exact h
  | _ => exact h.elim

/-- A property that every step of the process keeps. -/
theorem iter_keeps {job : Job} {P : Pc → World → Prop} (hP : ∀ pc w, P pc w → P (stepJob nd order root job pc w).2 (stepJob nd order root job pc w).1)
    (n : Nat) : ∀ pc w, P pc w → P (iter nd order root job n pc w).2 (iter nd order root job n pc w).1 := by
  induction n with
  | zero => exact fun _ _ h => h
  | succ n ih => exact fun pc w h => ih _ _ (hP pc w h)

end Unlink
end GC
