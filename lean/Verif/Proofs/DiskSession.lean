/- Lemmas about sessions on a disk that can be full. -/
import Verif.Model.DiskSession
import Verif.Spec.Disk
import Verif.Proofs.Disk
import Verif.Proofs.Faults
namespace GC
namespace Disk
open Store Text

variable {nd : Char → Bool} {root : FPath}

theorem sizeAt_stored (fs : FS) : sizeAt (commandPath root) fs = storedBytes root fs := rfl

theorem cutNode_isFile (n : Nat) (x : Option Node) : isFile (cutNode n x) = isFile x := by
  rcases x with _ | _ | _ <;> rfl

theorem cutOff_isFile (n : Nat) (fs : FS) (q : FPath) : isFile (cutOff root n fs q) = isFile (fs q) := by
  unfold cutOff
  split
  · exact cutNode_isFile _ _
  · rfl

theorem cutOff_other {n : Nat} {fs : FS} {q : FPath} (h : q ≠ commandPath root) : cutOff root n fs q = fs q := if_neg h

theorem cutOff_self {n : Nat} {fs : FS} : cutOff root n fs (commandPath root) = cutNode n (fs (commandPath root)) := if_pos rfl

theorem cutOff_none {n : Nat} {fs : FS} {q : FPath} (h : fs q = none) : cutOff root n fs q = none := by
  unfold cutOff
  rw [h]
  split <;> rfl

theorem cutOff_dir {n : Nat} {fs : FS} {q : FPath} (h : fs q = some .dir) : cutOff root n fs q = some .dir := by
  unfold cutOff
  rw [h]
  split <;> rfl

theorem cutOff_file {n : Nat} {fs : FS} {q : FPath} {c : Text} (h : fs q = some (.file c)) : ∃ c', cutOff root n fs q = some (.file c') := by
  unfold cutOff
  rw [h]
  split
  · exact ⟨_, rfl⟩
  · exact ⟨_, rfl⟩

theorem stored_cutOff (n : Nat) (fs : FS) : storedBytes root (cutOff root n fs) = min n (storedBytes root fs) := by
  unfold storedBytes
  rw [cutOff_self]
  rcases fs (commandPath root) with _ | _ | c
  · simp [cutNode]
  · simp [cutNode]
  · simp [cutNode]

theorem cutOff_enough {n : Nat} {fs : FS} (h : storedBytes root fs ≤ n) : cutOff root n fs = fs := by
  funext q
  by_cases hq : q = commandPath root
  · subst hq
    rw [cutOff_self]
    unfold storedBytes at h
    rcases he : fs (commandPath root) with _ | _ | c
    · rfl
    · rfl
    · rw [he] at h
      simp only at h
      simp [cutNode, List.take_of_length_le h]
  · exact cutOff_other hq

theorem cutOff_cutOff (n : Nat) (fs : FS) : cutOff root n (cutOff root n fs) = cutOff root n fs := by
  refine cutOff_enough ?_
  rw [stored_cutOff]
  omega

theorem cutOff_set_other {n : Nat} {fs : FS} {p : FPath} {x : Option Node} (h : cutNode n x = x) :
    cutOff root n (fs.set p x) = (cutOff root n fs).set p x := by
  funext q
  unfold cutOff FS.set
  by_cases h1 : q = commandPath root
  · dsimp only
    rw [if_pos h1, if_pos h1]
    by_cases h2 : q = p
    · rw [if_pos h2, if_pos h2, h]
    · rw [if_neg h2, if_neg h2]
  · dsimp only
    rw [if_neg h1, if_neg h1]

/-! ### Calls that do not see how long the command file is -/

/-- The call has the same effect and the same result whatever the length of the command file. -/
def Blind {α : Type} (root : FPath) (f : FS → Io α) : Prop := ∀ n fs, f (cutOff root n fs) = (cutOff root n (f fs).1, (f fs).2)

theorem blind_createDirAll (p : FPath) : Blind root (createDirAll p) := by
  intro n fs
  unfold createDirAll
  simp only [cutOff_isFile]
  split
  · rfl
  · refine Prod.ext ?_ rfl
    funext q
    show _ = cutOff root n _ q
    unfold cutOff
    by_cases h1 : q = commandPath root
    · rw [if_pos h1]
      dsimp only
      by_cases h2 : q.isPrefixOf p = true
      · rw [if_pos h2, if_pos h2]; rfl
      · rw [if_neg h2, if_neg h2, if_pos h1]
    · rw [if_neg h1]
      dsimp only
      rw [if_neg h1]

theorem blind_openCreate (p : FPath) : Blind root (openCreate p) := by
  intro n fs
  unfold openCreate
  rcases h : fs p with _ | _ | c
  · rw [cutOff_none h]
    dsimp only
    rcases h' : fs p.dropLast with _ | _ | c
    · rw [cutOff_none h']
    · rw [cutOff_dir h']
      dsimp only
      rw [cutOff_set_other (by simp [cutNode])]
    · obtain ⟨c', h'⟩ := cutOff_file (root := root) (n := n) h'
      rw [h']
  · rw [cutOff_dir h]
  · obtain ⟨c', h'⟩ := cutOff_file (root := root) (n := n) h
    rw [h']

theorem blind_removeFile (p : FPath) : Blind root (removeFile p) := by
  intro n fs
  unfold removeFile
  rcases h : fs p with _ | _ | c
  · rw [cutOff_none h]
  · rw [cutOff_dir h]
  · obtain ⟨c', h'⟩ := cutOff_file (root := root) (n := n) h
    rw [h']
    dsimp only
    rw [cutOff_set_other rfl]

theorem blind_openAppend (p : FPath) : Blind root (openAppend p) := by
  intro n fs
  unfold openAppend
  rcases h : fs p with _ | _ | c
  · rw [cutOff_none h]
  · rw [cutOff_dir h]
  · obtain ⟨c', h'⟩ := cutOff_file (root := root) (n := n) h
    rw [h']

theorem blind_touch (p : FPath) : Blind root (touch p) := by
  intro n fs
  unfold touch
  rw [blind_createDirAll, blind_openCreate]

theorem blind_lock : Blind root (lock root) := blind_touch _

theorem blind_unlock : Blind root (unlock root) := blind_removeFile _

/-! ### What the calls leave of the command file -/

theorem createDirAll_stored {p : FPath} (hp : ¬ commandPath root <+: p) (fs : FS) :
    (createDirAll p fs).1 (commandPath root) = fs (commandPath root) := by
  unfold createDirAll
  split
  · rfl
  · dsimp only
    rw [if_neg]
    intro h
    exact hp (isPrefixOf_iff.1 h)

theorem openCreate_other {p q : FPath} (h : q ≠ p) (fs : FS) : (openCreate p fs).1 q = fs q := by
  unfold openCreate
  split
  · rfl
  · rfl
  · split
    · exact FS.set_other _ _ h
    · rfl
    · rfl

theorem removeFile_other {p q : FPath} (h : q ≠ p) (fs : FS) : (removeFile p fs).1 q = fs q := by
  unfold removeFile
  split
  · exact FS.set_other _ _ h
  · rfl
  · rfl

theorem lock_stored (fs : FS) : (lock root fs).1 (commandPath root) = fs (commandPath root) := by
  unfold lock touch
  rw [openCreate_other (lock_ne_command root), createDirAll_stored]
  rw [Faults.lockPath_dropLast]
  exact not_prefix_command (root_prefix_command root)

theorem unlock_stored (fs : FS) : (unlock root fs).1 (commandPath root) = fs (commandPath root) := by
  unfold unlock
  exact removeFile_other (lock_ne_command root) fs

theorem storedBytes_congr {fs fs' : FS} (h : fs' (commandPath root) = fs (commandPath root)) : storedBytes root fs' = storedBytes root fs := by
  unfold storedBytes
  rw [h]

/-! ### Appending -/

theorem cutOff_append (n : Nat) (t : Text) (fs : FS) :
    cutOff root n (appendText (commandPath root) t (cutOff root n fs)) = cutOff root n (appendText (commandPath root) t fs) := by
  unfold appendText
  rcases h : fs (commandPath root) with _ | _ | c
  · rw [cutOff_none h]
    exact cutOff_cutOff n fs
  · rw [cutOff_dir h]
    exact cutOff_cutOff n fs
  · rw [cutOff_self, h]
    dsimp only [cutNode]
    funext q
    by_cases hq : q = commandPath root
    · subst hq
      rw [cutOff_self, cutOff_self, FS.set_self, FS.set_self]
      simp only [cutNode, List.take_append, List.take_take, List.length_take, Nat.min_self]
      congr 4
      omega
    · rw [cutOff_other hq, cutOff_other hq, FS.set_other _ _ hq, FS.set_other _ _ hq, cutOff_other hq]

/-- Writing to the command file on a disk: what fits. -/
theorem writeFile_cut (pieces : List Text) (fs : FS) (free : Nat) :
    ∃ r, writeFile (commandPath root) pieces fs free =
        (cutOff root (free + storedBytes root fs) (appendText (commandPath root) pieces.flatten fs),
          free + storedBytes root fs - storedBytes root (appendText (commandPath root) pieces.flatten fs), r) ∧
      (storedBytes root (appendText (commandPath root) pieces.flatten fs) ≤ free + storedBytes root fs → r = .ok ()) ∧
      (free + storedBytes root fs + 8192 < storedBytes root (appendText (commandPath root) pieces.flatten fs) → r = .error .noSpace) := by
  unfold writeFile appendText
  rcases h : fs (commandPath root) with _ | _ | c
  · have hs : storedBytes root fs = 0 := by unfold storedBytes; rw [h]
    refine ⟨.ok (), ?_, fun _ => rfl, fun hh => by dsimp only at hh; omega⟩
    dsimp only
    rw [cutOff_enough (by omega), hs]
    rfl
  · have hs : storedBytes root fs = 0 := by unfold storedBytes; rw [h]
    refine ⟨.ok (), ?_, fun _ => rfl, fun hh => by dsimp only at hh; omega⟩
    dsimp only
    rw [cutOff_enough (by omega), hs]
    rfl
  · have hs : storedBytes root fs = c.length := by unfold storedBytes; rw [h]
    obtain ⟨w1, w2, w3, w4, w5⟩ := writeBuffered_spec pieces c free
    rcases hw : writeBuffered pieces c free with ⟨c', free', ok⟩
    rw [hw] at w1 w2 w3 w4 w5
    dsimp only
    rw [hw]
    dsimp only at w1 w2 w3 w4 w5 ⊢
    have hs' : storedBytes root (fs.set (commandPath root) (some (.file (c ++ pieces.flatten)))) = c.length + pieces.flatten.length := by
      unfold storedBytes
      rw [FS.set_self]
      simp
    rw [hs', hs]
    refine ⟨if ok = true then .ok () else .error .noSpace, ?_, fun hh => ?_, fun hh => ?_⟩
    · refine Prod.ext ?_ (Prod.ext ?_ rfl)
      · dsimp only
        funext q
        by_cases hq : q = commandPath root
        · subst hq
          rw [cutOff_self, FS.set_self, FS.set_self, w1]
          simp only [cutNode]
          rw [List.take_append, List.take_of_length_le (by omega : c.length ≤ free + c.length)]
          congr 4
          omega
        · rw [cutOff_other hq, FS.set_other _ _ hq, FS.set_other _ _ hq]
      · dsimp only
        omega
    · rw [if_pos (w3 (by omega))]
    · have hb : Concurrent.bufCapacity = 8192 := rfl
      rw [if_neg]
      intro ho
      have := w5 ho
      omega

/-! ### Programs that only append -/

/-- On a disk the program leaves the beginning that fits of what it leaves without a limit, and its result is the same. -/
def Fits {α : Type} (root : FPath) (d : FS → Nat → FS × Nat × α) (u : FS → FS × α) : Prop :=
  ∀ fs free, d fs free =
    (cutOff root (free + storedBytes root fs) (u fs).1, free + storedBytes root fs - storedBytes root (u fs).1, (u fs).2)

/-- What the program leaves at the beginning of the command file depends only on what was at the beginning. -/
def Prefixwise {α : Type} (root : FPath) (u : FS → FS × α) : Prop :=
  ∀ n fs, cutOff root n (u (cutOff root n fs)).1 = cutOff root n (u fs).1 ∧ (u (cutOff root n fs)).2 = (u fs).2

theorem Blind.prefixwise {α : Type} {f : FS → Io α} (h : Blind root f) : Prefixwise root f := by
  intro n fs
  rw [h n fs]
  exact ⟨cutOff_cutOff n _, rfl⟩

theorem sub_stored {n : Nat} {a b : FS} (h : cutOff root n a = cutOff root n b) : n - storedBytes root a = n - storedBytes root b := by
  have := congrArg (storedBytes root) h
  rw [stored_cutOff, stored_cutOff] at this
  omega

/-- Two programs in a row. -/
theorem Fits.then {d1 d2 : FS → Nat → FS × Nat × Exit} {u1 u2 : FS → FS × Exit} (h1 : Fits root d1 u1) (h2 : Fits root d2 u2)
    (p2 : Prefixwise root u2) :
    Fits root (fun fs free => andThen (d1 fs free) d2) (fun fs => Store.andThen (u1 fs) u2) := by
  intro fs free
  dsimp only
  rw [h1 fs free]
  rcases u1 fs with ⟨fs1, _ | _⟩
  · show d2 (cutOff root (free + storedBytes root fs) fs1) (free + storedBytes root fs - storedBytes root fs1) = _
    rw [h2, stored_cutOff]
    generalize free + storedBytes root fs = n
    have he : n - storedBytes root fs1 + min n (storedBytes root fs1) = n := by omega
    rw [he]
    obtain ⟨q1, q2⟩ := p2 n fs1
    rw [q1, q2, sub_stored q1]
    rfl
  · rfl

theorem Prefixwise.then {u1 u2 : FS → FS × Exit} (h1 : Prefixwise root u1) (h2 : Prefixwise root u2) :
    Prefixwise root (fun fs => Store.andThen (u1 fs) u2) := by
  intro n fs
  dsimp only
  obtain ⟨a1, a2⟩ := h1 n fs
  rcases hx : u1 (cutOff root n fs) with ⟨x, ex⟩
  rcases hy : u1 fs with ⟨y, ey⟩
  rw [hx, hy] at a1 a2
  dsimp only at a1 a2
  subst a2
  cases ex
  · show cutOff root n (u2 x).1 = cutOff root n (u2 y).1 ∧ (u2 x).2 = (u2 y).2
    obtain ⟨b1, b2⟩ := h2 n x
    obtain ⟨c1, c2⟩ := h2 n y
    rw [a1] at b1 b2
    exact ⟨b1.symm.trans c1, b2.symm.trans c2⟩
  · exact ⟨a1, rfl⟩

theorem prefixwise_apply (cs : List GraphCommand) : Prefixwise root (Store.applyGraphCommands root cs) := by
  intro n fs
  unfold Store.applyGraphCommands withLock
  rw [blind_lock n fs]
  rcases lock root fs with ⟨fs1, e | u⟩
  · exact ⟨cutOff_cutOff _ _, rfl⟩
  · dsimp only
    unfold Store.addCommandsTo
    rw [blind_openAppend (root := root) (commandPath root) n fs1]
    rcases hop : openAppend (commandPath root) fs1 with ⟨fs2, e | u⟩
    · dsimp only
      rw [blind_unlock n fs2]
      rcases unlock root fs2 with ⟨fs3, e | u⟩
      · exact ⟨cutOff_cutOff _ _, rfl⟩
      · exact ⟨cutOff_cutOff _ _, rfl⟩
    · dsimp only
      have hap := cutOff_append (root := root) n (Format.Gcmd.commandsText cs) fs2
      generalize appendText (commandPath root) (Format.Gcmd.commandsText cs) (cutOff root n fs2) = x at hap ⊢
      generalize appendText (commandPath root) (Format.Gcmd.commandsText cs) fs2 = y at hap ⊢
      have hx := blind_unlock (root := root) n x
      have hy := blind_unlock (root := root) n y
      rw [hap, hy] at hx
      obtain ⟨x1, x2⟩ := Prod.mk.inj hx
      rcases hux : unlock root x with ⟨fs3, r3⟩
      rcases huy : unlock root y with ⟨fs4, r4⟩
      rw [hux, huy] at x1 x2
      dsimp only at x1 x2
      subst x2
      rcases r4 with e | u
      · exact ⟨x1.symm, rfl⟩
      · exact ⟨x1.symm, rfl⟩

theorem fits_apply (cs : List GraphCommand) (fs : FS) (free : Nat) :
    ∃ r, applyGraphCommands root cs fs free =
      (cutOff root (free + storedBytes root fs) (Store.applyGraphCommands root cs fs).1,
        free + storedBytes root fs - storedBytes root (Store.applyGraphCommands root cs fs).1, r) := by
  unfold applyGraphCommands Store.applyGraphCommands withLock
  have hl := lock_stored (root := root) fs
  generalize lock root fs = x at hl ⊢
  rcases x with ⟨fs1, e | u⟩
  · dsimp only at hl ⊢
    have hs := storedBytes_congr hl
    refine ⟨.error e, ?_⟩
    rw [cutOff_enough (by omega), hs]
    simp
  · dsimp only at hl ⊢
    have hs := storedBytes_congr hl
    unfold addCommandsTo Store.addCommandsTo
    have ho : (openAppend (commandPath root) fs1).1 = fs1 := Faults.openAppend_fst _ _
    generalize openAppend (commandPath root) fs1 = x at ho ⊢
    rcases x with ⟨fs2, e | u⟩
    · dsimp only at ho ⊢
      subst ho
      have hu := unlock_stored (root := root) fs2
      generalize unlock root fs2 = x at hu ⊢
      rcases x with ⟨fs3, e' | u⟩
      all_goals
        dsimp only at hu ⊢
        have hs' := storedBytes_congr hu
        exact ⟨_, by rw [cutOff_enough (by omega), hs', hs, Nat.add_sub_cancel]⟩
    · dsimp only at ho ⊢
      subst ho
      obtain ⟨r, h1, _⟩ := writeFile_cut (root := root) (cs.flatMap fun c => [Format.Gcmd.commandIntoLine c, ['\n']]) fs2 free
      rw [h1, commandPieces_flatten, hs]
      dsimp only
      generalize free + storedBytes root fs = n
      generalize appendText (commandPath root) (Format.Gcmd.commandsText cs) fs2 = y
      rw [blind_unlock n y]
      have hu := unlock_stored (root := root) y
      have hs' := storedBytes_congr hu
      generalize unlock root y = x at hs' ⊢
      rcases x with ⟨fs3, e' | u⟩
      · dsimp only at hs' ⊢
        exact ⟨_, by rw [hs']⟩
      · dsimp only at hs' ⊢
        exact ⟨_, by rw [hs']⟩

theorem fits_mutateStep (vals : Option (List Text)) (mk : List VertexId → Run (List GraphCommand)) :
    Fits root (mutateStep root vals mk) (Store.mutateStep root vals mk) := by
  intro fs free
  unfold mutateStep Store.mutateStep
  cases vals with
  | none => dsimp only; rw [cutOff_enough (by omega), Nat.add_sub_cancel]
  | some l =>
    dsimp only
    generalize (Run.unwrap (Args.parseVertexIdList l)).bind mk = r
    cases r with
    | running => dsimp only; rw [cutOff_enough (by omega), Nat.add_sub_cancel]
    | panicked => dsimp only; rw [cutOff_enough (by omega), Nat.add_sub_cancel]
    | done cs =>
      dsimp only
      obtain ⟨r, h⟩ := fits_apply (root := root) cs fs free
      rw [h]

theorem prefixwise_mutateStep (vals : Option (List Text)) (mk : List VertexId → Run (List GraphCommand)) :
    Prefixwise root (Store.mutateStep root vals mk) := by
  intro n fs
  unfold Store.mutateStep
  cases vals with
  | none => exact ⟨cutOff_cutOff _ _, rfl⟩
  | some l =>
    dsimp only
    generalize (Run.unwrap (Args.parseVertexIdList l)).bind mk = r
    cases r with
    | running => exact ⟨cutOff_cutOff _ _, rfl⟩
    | panicked => exact ⟨cutOff_cutOff _ _, rfl⟩
    | done cs => exact ⟨(prefixwise_apply cs n fs).1, rfl⟩

theorem prefixwise_gcAdd (a : AddArgs) : Prefixwise root (Store.gcAdd root a) :=
  (prefixwise_mutateStep _ _).then <| (prefixwise_mutateStep _ _).then <| (prefixwise_mutateStep _ _).then <|
  (prefixwise_mutateStep _ _).then <| (prefixwise_mutateStep _ _).then <| prefixwise_mutateStep _ _

theorem fits_gcAdd (a : AddArgs) : Fits root (gcAdd root a) (Store.gcAdd root a) :=
  (fits_mutateStep _ _).then ((fits_mutateStep _ _).then ((fits_mutateStep _ _).then ((fits_mutateStep _ _).then ((fits_mutateStep _ _).then
    (fits_mutateStep _ _) (prefixwise_mutateStep _ _))
    ((prefixwise_mutateStep _ _).then <| prefixwise_mutateStep _ _))
    ((prefixwise_mutateStep _ _).then <| (prefixwise_mutateStep _ _).then <| prefixwise_mutateStep _ _))
    ((prefixwise_mutateStep _ _).then <| (prefixwise_mutateStep _ _).then <| (prefixwise_mutateStep _ _).then <| prefixwise_mutateStep _ _))
    ((prefixwise_mutateStep _ _).then <| (prefixwise_mutateStep _ _).then <| (prefixwise_mutateStep _ _).then <|
      (prefixwise_mutateStep _ _).then <| prefixwise_mutateStep _ _)

theorem prefixwise_gcDelete (v e : Option (List Text)) : Prefixwise root (Store.gcDelete root v e) :=
  (prefixwise_mutateStep _ _).then <| prefixwise_mutateStep _ _

theorem fits_gcDelete (v e : Option (List Text)) : Fits root (gcDelete root v e) (Store.gcDelete root v e) :=
  (fits_mutateStep _ _).then (fits_mutateStep _ _) (prefixwise_mutateStep _ _)

/-! ### The other programs -/

theorem removeDirAll_stored (fs : FS) : storedBytes root (removeDirAll (rootPath root) fs).1 ≤ storedBytes root fs := by
  unfold removeDirAll
  split
  · unfold storedBytes
    dsimp only
    rw [if_pos (isPrefixOf_iff.2 (root_prefix_command root))]
    exact Nat.zero_le _
  · exact Nat.le_refl _
  · exact Nat.le_refl _

theorem clean_stored (fs : FS) : storedBytes root (Store.clean root fs).1 ≤ storedBytes root fs := by
  unfold Store.clean withLock
  have hl := storedBytes_congr (lock_stored (root := root) fs)
  generalize lock root fs = x at hl ⊢
  rcases x with ⟨fs1, e | u⟩
  · exact Nat.le_of_eq hl
  · dsimp only at hl ⊢
    have hr := removeDirAll_stored (root := root) fs1
    generalize removeDirAll (rootPath root) fs1 = x at hr ⊢
    rcases x with ⟨fs2, res⟩
    dsimp only at hr ⊢
    have hu := storedBytes_congr (unlock_stored (root := root) fs2)
    generalize unlock root fs2 = x at hu ⊢
    rcases x with ⟨fs3, e | u⟩
    all_goals
      dsimp only at hu ⊢
      omega

theorem init_stored (fs : FS) : storedBytes root (Store.init root fs).1 = storedBytes root fs := by
  unfold Store.init touch
  have hc := createDirAll_stored (root := root) (p := (commandPath root).dropLast) (by
    unfold commandPath
    rw [List.dropLast_concat]
    exact not_prefix_self_snoc _ _) fs
  rw [← storedBytes_congr hc]
  generalize (createDirAll (commandPath root).dropLast fs).1 = fs1
  unfold openCreate
  split
  · rfl
  · rfl
  · rename_i h
    split
    · unfold storedBytes
      dsimp only
      rw [FS.set_self, h]
      rfl
    · rfl
    · rfl

theorem clean_eq (fs : FS) (free : Nat) : clean root fs free =
    ((Store.clean root fs).1, free + storedBytes root fs - storedBytes root (Store.clean root fs).1, (Store.clean root fs).2) := rfl

theorem init_eq (fs : FS) (free : Nat) : init root fs free = ((Store.init root fs).1, free, (Store.init root fs).2) := rfl

theorem createTruncate_stored {fs fs' : FS} {r : Except IoError Unit} (h : createTruncate (commandPath root) fs = (fs', r)) :
    match r with
    | .ok () => storedBytes root fs' = 0
    | .error _ => fs' = fs := by
  unfold createTruncate at h
  rcases h1 : fs (commandPath root) with _ | _ | c
  · rw [h1] at h
    dsimp only at h
    rcases h2 : fs (commandPath root).dropLast with _ | _ | c
    · rw [h2] at h
      cases h
      rfl
    · rw [h2] at h
      cases h
      unfold storedBytes
      dsimp only
      rw [FS.set_self]
      rfl
    · rw [h2] at h
      cases h
      rfl
  · rw [h1] at h
    cases h
    rfl
  · rw [h1] at h
    cases h
    unfold storedBytes
    dsimp only
    rw [FS.set_self]
    rfl

theorem save_cut' {b : Nat} (hb : b = 8192) (g : DirectedGraph) (fs : FS) (free : Nat) :
    ∃ r, saveGraphAsCommands root g fs free =
        (cutOff root (free + storedBytes root fs) (Store.saveGraphAsCommands root g fs).1,
          free + storedBytes root fs - storedBytes root (Store.saveGraphAsCommands root g fs).1, r) ∧
      (storedBytes root (Store.saveGraphAsCommands root g fs).1 ≤ free + storedBytes root fs → r = (Store.saveGraphAsCommands root g fs).2) ∧
      (free + storedBytes root fs + b < storedBytes root (Store.saveGraphAsCommands root g fs).1 → r = .error .noSpace) := by
  unfold saveGraphAsCommands Store.saveGraphAsCommands
  rcases hc : createTruncate (commandPath root) fs with ⟨fs1, e | u⟩
  · have := createTruncate_stored hc
    dsimp only at this ⊢
    subst this
    refine ⟨.error e, ?_, fun _ => rfl, fun h => by omega⟩
    rw [cutOff_enough (by omega), Nat.add_sub_cancel]
  · have h0 := createTruncate_stored hc
    dsimp only at h0 ⊢
    obtain ⟨r, h1, h2, h3⟩ := writeFile_cut (root := root) ((g.vertices.flatMap fun v => [Format.Gcmd.kwAddVertex, showId v, ['\n']]) ++
      (g.edges.flatMap fun e => [Format.Gcmd.kwAddEdge, showId e.src, [' '], showId e.dst, ['\n']])) fs1
      (free + sizeAt (commandPath root) fs)
    rw [← hb] at h3
    rw [savePieces_flatten, h0, Nat.add_zero, sizeAt_stored] at h1 h2 h3
    rw [sizeAt_stored]
    exact ⟨r, h1, h2, h3⟩

theorem save_cut (g : DirectedGraph) (fs : FS) (free : Nat) :
    ∃ r, saveGraphAsCommands root g fs free =
        (cutOff root (free + storedBytes root fs) (Store.saveGraphAsCommands root g fs).1,
          free + storedBytes root fs - storedBytes root (Store.saveGraphAsCommands root g fs).1, r) ∧
      (storedBytes root (Store.saveGraphAsCommands root g fs).1 ≤ free + storedBytes root fs → r = (Store.saveGraphAsCommands root g fs).2) ∧
      (free + storedBytes root fs + 8192 < storedBytes root (Store.saveGraphAsCommands root g fs).1 → r = .error .noSpace) :=
  save_cut' rfl g fs free

theorem expectOk_eq {a : FS} {b : Nat} {r : Except IoError Unit} : expectOk (a, b, r) = (a, b, Faults.exitOf r) := by
  rcases r with _ | ⟨⟨⟩⟩ <;> rfl

theorem storeExpectOk_eq (r : Io Unit) : Store.expectOk r = (r.1, Faults.exitOf r.2) := by
  rcases r with ⟨_, _ | ⟨⟨⟩⟩⟩ <;> rfl

/-- Every program on a disk, compared with the same program without a limit. -/
theorem exec_cut (nd : Char → Bool) (root : FPath) (cmd : Cmd) (fs : FS) (free : Nat) :
    ∃ e, exec nd root cmd fs free =
        (cutOff root (free + storedBytes root fs) (Store.exec nd root cmd fs).1,
          free + storedBytes root fs - storedBytes root (Store.exec nd root cmd fs).1, e) ∧
      (storedBytes root (Store.exec nd root cmd fs).1 ≤ free + storedBytes root fs ∨ cmd.OnlyAppends → e = (Store.exec nd root cmd fs).2) ∧
      (free + storedBytes root fs + 8192 < storedBytes root (Store.exec nd root cmd fs).1 ∧ ¬ cmd.OnlyAppends → e = .panic) := by
  cases cmd with
  | init =>
    refine ⟨(Store.exec nd root .init fs).2, ?_, fun _ => rfl, fun h => absurd trivial h.2⟩
    show expectOk (init root fs free) = _
    have hi : (Store.exec nd root .init fs) = ((Store.init root fs).1, Faults.exitOf (Store.init root fs).2) := storeExpectOk_eq _
    rw [init_eq, expectOk_eq, hi]
    dsimp only
    have := init_stored (root := root) fs
    rw [cutOff_enough (by omega), this, Nat.add_sub_cancel]
  | add a => exact ⟨_, fits_gcAdd a fs free, fun _ => rfl, fun h => absurd trivial h.2⟩
  | delete v x => exact ⟨_, fits_gcDelete v x fs free, fun _ => rfl, fun h => absurd trivial h.2⟩
  | build order =>
    show ∃ e, gcBuild nd order root fs free = (cutOff root _ (Store.gcBuild nd order root fs).1, _ - storedBytes root (Store.gcBuild nd order root fs).1, _) ∧
      (storedBytes root (Store.gcBuild nd order root fs).1 ≤ _ ∨ False → e = (Store.gcBuild nd order root fs).2) ∧
      (_ < storedBytes root (Store.gcBuild nd order root fs).1 ∧ _ → _)
    unfold gcBuild Store.gcBuild
    rcases loadGraph nd root fs with _ | _ | ⟨_ | g⟩
    · refine ⟨.panic, ?_, fun _ => rfl, fun _ => rfl⟩
      dsimp only
      rw [cutOff_enough (by omega), Nat.add_sub_cancel]
    · refine ⟨.panic, ?_, fun _ => rfl, fun _ => rfl⟩
      dsimp only
      rw [cutOff_enough (by omega), Nat.add_sub_cancel]
    · refine ⟨.panic, ?_, fun _ => rfl, fun _ => rfl⟩
      dsimp only
      rw [cutOff_enough (by omega), Nat.add_sub_cancel]
    · dsimp only
      obtain ⟨r, h1, h2, h3⟩ := save_cut (root := root) (order g) fs free
      rw [h1, storeExpectOk_eq]
      refine ⟨Faults.exitOf r, ?_, fun h => ?_, fun h => ?_⟩
      · rcases r with _ | ⟨⟨⟩⟩ <;> rfl
      · rw [h2 (h.resolve_right id)]
      · rw [h3 h.1]
        rfl
  | clean force answer =>
    show ∃ e, gcClean root force answer fs free = (cutOff root _ (Store.gcClean root force answer fs).1,
        _ - storedBytes root (Store.gcClean root force answer fs).1, _) ∧
      (_ → e = (Store.gcClean root force answer fs).2) ∧
      (_ < storedBytes root (Store.gcClean root force answer fs).1 ∧ _ → _)
    unfold gcClean Store.gcClean
    by_cases hy : (!force && !Args.confirmationYesNo answer) = true
    · rw [if_pos hy, if_pos hy]
      refine ⟨.success, ?_, fun _ => rfl, fun h => by dsimp only at h; omega⟩
      dsimp only
      rw [cutOff_enough (by omega), Nat.add_sub_cancel]
    · rw [if_neg hy, if_neg hy, clean_eq, expectOk_eq, storeExpectOk_eq]
      dsimp only
      have := clean_stored (root := root) fs
      refine ⟨_, ?_, fun _ => rfl, fun h => by omega⟩
      rw [cutOff_enough (by omega)]
  | random g order force answer =>
    show ∃ e, gcRandom order root force answer g fs free = (cutOff root _ (Random.finish order root force answer fs (some g)).1,
        _ - storedBytes root (Random.finish order root force answer fs (some g)).1, _) ∧
      (storedBytes root (Random.finish order root force answer fs (some g)).1 ≤ _ ∨ False → e = (Random.finish order root force answer fs (some g)).2) ∧
      (_ < storedBytes root (Random.finish order root force answer fs (some g)).1 ∧ _ → _)
    unfold gcRandom Random.finish
    dsimp only
    by_cases hy : (!force && !Args.confirmationYesNo answer) = true
    · rw [if_pos hy, if_pos hy]
      refine ⟨.success, ?_, fun _ => rfl, fun h => by dsimp only at h; omega⟩
      dsimp only
      rw [cutOff_enough (by omega), Nat.add_sub_cancel]
    · rw [if_neg hy, if_neg hy]
      unfold replaceGraph Random.replaceGraph
      rw [clean_eq, expectOk_eq, storeExpectOk_eq]
      have hs := clean_stored (root := root) fs
      generalize Store.clean root fs = x at hs ⊢
      rcases x with ⟨fs1, e | u⟩
      · dsimp only at hs
        refine ⟨.panic, ?_, fun _ => rfl, fun _ => rfl⟩
        show (fs1, _, Exit.panic) = (cutOff root _ fs1, _ - storedBytes root fs1, Exit.panic)
        rw [cutOff_enough (by omega)]
      · dsimp only at hs
        show ∃ e, andThen (expectOk (init root fs1 _)) _ = (cutOff root _ (Store.andThen (Store.expectOk (Store.init root fs1)) _).1,
            _ - storedBytes root (Store.andThen (Store.expectOk (Store.init root fs1)) _).1, _) ∧
          (storedBytes root (Store.andThen (Store.expectOk (Store.init root fs1)) _).1 ≤ _ ∨ False →
            e = (Store.andThen (Store.expectOk (Store.init root fs1)) _).2) ∧
          (_ < storedBytes root (Store.andThen (Store.expectOk (Store.init root fs1)) _).1 ∧ _ → _)
        rw [init_eq, expectOk_eq, storeExpectOk_eq]
        have hs2 := init_stored (root := root) fs1
        generalize Store.init root fs1 = x at hs2 ⊢
        rcases x with ⟨fs2, e | u⟩
        · dsimp only at hs2
          refine ⟨.panic, ?_, fun _ => rfl, fun _ => rfl⟩
          show (fs2, _, Exit.panic) = (cutOff root _ fs2, _ - storedBytes root fs2, Exit.panic)
          rw [cutOff_enough (by omega), hs2]
        · dsimp only at hs2
          obtain ⟨r, h1, h2, h3⟩ := save_cut (root := root) (order g) fs2 (free + storedBytes root fs - storedBytes root fs1)
          have he : free + storedBytes root fs - storedBytes root fs1 + storedBytes root fs2 = free + storedBytes root fs := by omega
          rw [he] at h1 h2 h3
          show ∃ e, expectOk (saveGraphAsCommands root (order g) fs2 _) = (cutOff root _ (Store.expectOk (Store.saveGraphAsCommands root (order g) fs2)).1,
              _ - storedBytes root (Store.expectOk (Store.saveGraphAsCommands root (order g) fs2)).1, _) ∧
            (storedBytes root (Store.expectOk (Store.saveGraphAsCommands root (order g) fs2)).1 ≤ _ ∨ False →
              e = (Store.expectOk (Store.saveGraphAsCommands root (order g) fs2)).2) ∧
            (_ < storedBytes root (Store.expectOk (Store.saveGraphAsCommands root (order g) fs2)).1 ∧ _ → _)
          rw [h1, expectOk_eq, storeExpectOk_eq]
          refine ⟨Faults.exitOf r, rfl, fun h => ?_, fun h => ?_⟩
          · rw [h2 (h.resolve_right id)]
          · rw [h3 h.1]
            rfl

theorem prefixwise_exec (nd : Char → Bool) {cmd : Cmd} (h : cmd.OnlyAppends) : Prefixwise root (Store.exec nd root cmd) := by
  cases cmd with
  | init =>
    intro n fs
    have hi : ∀ fs, Store.exec nd root .init fs = ((Store.init root fs).1, Faults.exitOf (Store.init root fs).2) := fun fs => storeExpectOk_eq _
    rw [hi, hi, show Store.init root (cutOff root n fs) = _ from blind_touch _ n fs]
    exact ⟨cutOff_cutOff _ _, rfl⟩
  | add a => exact prefixwise_gcAdd a
  | delete v x => exact prefixwise_gcDelete v x
  | build _ => exact h.elim
  | clean _ _ => exact h.elim
  | random _ _ _ _ => exact h.elim

/-! ### A full disk is one way in which calls can fail -/

/-- The writer without the disk. -/
def Writer.forget (w : Writer) : Faults.Writer := ⟨w.content, w.buffer⟩

theorem drop_isEmpty (t : Text) (n : Nat) : decide (t.length ≤ n) = (t.drop n).isEmpty := by
  by_cases h : t.length ≤ n
  · simp [h, List.drop_eq_nil_of_le h]
  · simp only [h, decide_false]
    symm
    rw [List.isEmpty_eq_false_iff, Ne, List.drop_eq_nil_iff]
    exact h

theorem flushBuf_faults (w : Writer) : Faults.FlushBuf w.forget w.flushBuf.1.forget w.flushBuf.2 :=
  ⟨w.buffer.take w.free, w.buffer.drop w.free, (List.take_append_drop _ _).symm, rfl, drop_isEmpty _ _⟩

theorem writeOut_faults (w : Writer) (t : Text) : Faults.WriteOut w.forget t (w.writeOut t).1.forget (w.writeOut t).2 :=
  ⟨t.take w.free, t.drop w.free, (List.take_append_drop _ _).symm, rfl, drop_isEmpty _ _⟩

theorem writeAll_faults (w : Writer) (t : Text) : Faults.WriteAll w.forget t (w.writeAll t).1.forget (w.writeAll t).2 := by
  unfold Faults.WriteAll Writer.writeAll
  have hf := flushBuf_faults w
  by_cases hc : w.buffer.length + t.length > Concurrent.bufCapacity
  · have hc' : w.forget.buffer.length + t.length > Concurrent.bufCapacity := hc
    simp only [hc, hc', if_true]
    generalize w.flushBuf = x at hf ⊢
    rcases x with ⟨w1, _ | _⟩
    · exact ⟨w1.forget, false, hf, .inl ⟨rfl, rfl, rfl⟩⟩
    · refine ⟨w1.forget, true, hf, .inr ⟨rfl, ?_⟩⟩
      by_cases ht : t.length ≥ Concurrent.bufCapacity
      · simp only [ht, if_true]
        exact writeOut_faults w1 t
      · simp only [ht, if_false]
        exact ⟨rfl, trivial⟩
  · have hc' : ¬ w.forget.buffer.length + t.length > Concurrent.bufCapacity := hc
    simp only [hc, hc', if_false]
    refine ⟨w.forget, true, ⟨rfl, rfl⟩, .inr ⟨rfl, ?_⟩⟩
    by_cases ht : t.length ≥ Concurrent.bufCapacity
    · simp only [ht, if_true]
      exact writeOut_faults w t
    · simp only [ht, if_false]
      exact ⟨rfl, trivial⟩

theorem writePieces_faults (ts : List Text) : ∀ w : Writer,
    Faults.WritePieces ts w.forget (Writer.writePieces ts w).1.forget (Writer.writePieces ts w).2 := by
  induction ts with
  | nil => exact fun w => .nil
  | cons t ts ih =>
    intro w
    unfold Writer.writePieces
    have h := writeAll_faults w t
    generalize w.writeAll t = x at h ⊢
    rcases x with ⟨w1, _ | _⟩
    · exact .fail h
    · exact .cons h (ih w1)

theorem writeFile_faults {p : FPath} {fs : FS} {c : Text} (h : fs p = some (.file c)) (ts : List Text) (free : Nat) :
    Faults.WriteFile p ts fs (writeFile p ts fs free).1 (writeFile p ts fs free).2.2 := by
  unfold writeFile
  rw [h]
  dsimp only
  refine ⟨c, (writeBuffered ts c free).1, (writeBuffered ts c free).2.2, h, ?_, rfl, ?_⟩
  · exact ⟨_, _, _, writePieces_faults ts ⟨c, free, []⟩, flushBuf_faults _, rfl⟩
  · rcases (writeBuffered ts c free).2.2 with _ | _
    · exact .inr ⟨rfl, _, rfl⟩
    · exact .inl ⟨rfl, rfl⟩

theorem apply_faults (cs : List GraphCommand) (fs : FS) (free : Nat) :
    Faults.ApplyGraphCommands root cs fs (applyGraphCommands root cs fs free).1 (applyGraphCommands root cs fs free).2.2 := by
  unfold applyGraphCommands
  have hl := Faults.touch_may (lockPath root) fs
  change Faults.Touch _ _ (lock root fs).1 (lock root fs).2 at hl
  generalize lock root fs = x at hl ⊢
  rcases x with ⟨fs1, e | ⟨⟨⟩⟩⟩
  · exact .inl ⟨e, hl, rfl⟩
  · dsimp only at hl ⊢
    have hb : Faults.AddCommandsTo (commandPath root) cs fs1 (addCommandsTo (commandPath root) cs fs1 free).1
        (addCommandsTo (commandPath root) cs fs1 free).2.2 := by
      unfold addCommandsTo
      rcases ho : openAppend (commandPath root) fs1 with ⟨fs2, e | ⟨⟨⟩⟩⟩
      · exact .inl ⟨e, .inl ho, rfl⟩
      · refine .inr ⟨fs2, .inl ho, ?_⟩
        have hf : ∃ c, fs2 (commandPath root) = some (.file c) := by
          unfold openAppend at ho
          rcases hc : fs1 (commandPath root) with _ | _ | c
          · rw [hc] at ho; cases ho
          · rw [hc] at ho; cases ho
          · rw [hc] at ho
            cases ho
            exact ⟨c, hc⟩
        obtain ⟨c, hc⟩ := hf
        exact writeFile_faults hc _ _
    generalize addCommandsTo (commandPath root) cs fs1 free = x at hb ⊢
    rcases x with ⟨fs2, free2, res⟩
    dsimp only at hb ⊢
    refine .inr ⟨fs1, fs2, res, hl, hb, ?_⟩
    rcases hu : unlock root fs2 with ⟨fs3, e | ⟨⟨⟩⟩⟩
    · exact .inl ⟨e, .inl hu, rfl⟩
    · exact .inr ⟨.inl hu, rfl⟩

theorem save_faults (g : DirectedGraph) (fs : FS) (free : Nat) :
    Faults.SaveGraph root g fs (saveGraphAsCommands root g fs free).1 (saveGraphAsCommands root g fs free).2.2 := by
  unfold saveGraphAsCommands
  rcases ho : createTruncate (commandPath root) fs with ⟨fs2, e | ⟨⟨⟩⟩⟩
  · exact .inl ⟨e, .inl ho, rfl⟩
  · refine .inr ⟨fs2, .inl ho, ?_⟩
    have hf : fs2 (commandPath root) = some (.file []) := by
      unfold createTruncate at ho
      rcases hc : fs (commandPath root) with _ | _ | c
      · rw [hc] at ho
        dsimp only at ho
        rcases hd : fs (commandPath root).dropLast with _ | _ | c
        · rw [hd] at ho; cases ho
        · rw [hd] at ho
          cases ho
          exact FS.set_self _ _ _
        · rw [hd] at ho; cases ho
      · rw [hc] at ho; cases ho
      · rw [hc] at ho
        cases ho
        exact FS.set_self _ _ _
    exact writeFile_faults hf _ _

theorem mutateStep_faults (o : Option (List Text)) (mk : List VertexId → Run (List GraphCommand)) (fs : FS) (free : Nat) :
    Faults.MutateStep root o mk fs (mutateStep root o mk fs free).1 (mutateStep root o mk fs free).2.2 := by
  unfold mutateStep Faults.MutateStep
  cases o with
  | none => exact ⟨rfl, rfl⟩
  | some l =>
    dsimp only
    generalize (Run.unwrap (Args.parseVertexIdList l)).bind mk = r
    cases r with
    | running => exact ⟨rfl, rfl⟩
    | panicked => exact ⟨rfl, rfl⟩
    | done cs => exact ⟨⟨_, apply_faults cs fs free⟩, rfl⟩

theorem then_faults {d1 d2 : FS → Nat → FS × Nat × Exit} {R1 R2 : FS → FS → Exit → Prop} {fs : FS} {free : Nat}
    (h1 : R1 fs (d1 fs free).1 (d1 fs free).2.2) (h2 : ∀ fs free, R2 fs (d2 fs free).1 (d2 fs free).2.2) :
    Faults.Then R1 R2 fs (andThen (d1 fs free) d2).1 (andThen (d1 fs free) d2).2.2 := by
  generalize d1 fs free = x at h1 ⊢
  rcases x with ⟨fs1, free1, _ | _⟩
  · exact .inr ⟨fs1, h1, h2 fs1 free1⟩
  · exact .inl ⟨h1, rfl⟩

theorem expect_faults {R : FS → FS → Except IoError Unit → Prop} {fs : FS} {r : FS × Nat × Except IoError Unit} (h : R fs r.1 r.2.2) :
    Faults.Expect R fs (expectOk r).1 (expectOk r).2.2 := by
  rcases r with ⟨fs1, free1, e | ⟨⟨⟩⟩⟩
  · exact ⟨_, h, rfl⟩
  · exact ⟨_, h, rfl⟩

theorem exec_faults (nd : Char → Bool) (root : FPath) (cmd : Cmd) (fs : FS) (free : Nat) :
    Faults.Exec nd root cmd fs (exec nd root cmd fs free).1 (exec nd root cmd fs free).2.2 := by
  cases cmd with
  | init => exact expect_faults (r := init root fs free) (Faults.touch_may _ fs)
  | add a =>
    refine then_faults (mutateStep_faults _ _ _ _) fun fs free => ?_
    refine then_faults (mutateStep_faults _ _ _ _) fun fs free => ?_
    refine then_faults (mutateStep_faults _ _ _ _) fun fs free => ?_
    refine then_faults (mutateStep_faults _ _ _ _) fun fs free => ?_
    refine then_faults (mutateStep_faults _ _ _ _) fun fs free => ?_
    exact mutateStep_faults _ _ _ _
  | delete v e =>
    refine then_faults (mutateStep_faults _ _ _ _) fun fs free => ?_
    exact mutateStep_faults _ _ _ _
  | build order =>
    refine ⟨_, .inl rfl, ?_⟩
    show match loadGraph nd root fs with
      | .done (.ok g) => _
      | _ => _
    unfold exec gcBuild
    rcases loadGraph nd root fs with _ | _ | ⟨_ | g⟩
    · exact ⟨rfl, rfl⟩
    · exact ⟨rfl, rfl⟩
    · exact ⟨rfl, rfl⟩
    · exact expect_faults (r := saveGraphAsCommands root (order g) fs free) (save_faults _ fs free)
  | clean force answer =>
    show Faults.GcClean root force answer fs (gcClean root force answer fs free).1 (gcClean root force answer fs free).2.2
    unfold Faults.GcClean gcClean
    split
    · exact ⟨rfl, rfl⟩
    · exact expect_faults (r := clean root fs free) (Faults.clean_may fs)
  | random g order force answer =>
    show Faults.GcRandom order root force answer g fs (gcRandom order root force answer g fs free).1 (gcRandom order root force answer g fs free).2.2
    unfold Faults.GcRandom gcRandom
    split
    · exact ⟨rfl, rfl⟩
    · refine then_faults (d1 := fun fs free => expectOk (clean root fs free)) (expect_faults (r := clean root fs free) (Faults.clean_may fs))
        fun fs free => ?_
      refine then_faults (d1 := fun fs free => expectOk (init root fs free)) (expect_faults (r := init root fs free) (Faults.touch_may _ fs))
        fun fs free => ?_
      exact expect_faults (r := saveGraphAsCommands root (order g) fs free) (save_faults _ fs free)

theorem session_faults (l : List Cmd) : ∀ (fs : FS) (free : Nat), Faults.Session nd root l fs (session nd root l fs free).1 := by
  induction l with
  | nil => exact fun fs free => .nil
  | cons cmd l ih => exact fun fs free => .cons (exec_faults nd root cmd fs free) (ih _ _)

end Disk
end GC
