/-
Properties C106 and C107: calls to the file system that fail.
-/
import Verif.Proofs.Faults
import Verif.Props.Crash
namespace GC
namespace Faults
open Store Text Format

/-! ### C106 -/

/-- C106: the runs without failing calls are among those that the theorems below speak of. -/
theorem C106_faultless (nd : Char → Bool) (root : FPath) (cmd : Cmd) (fs : FS) :
    Exec nd root cmd fs (exec nd root cmd fs).1 (exec nd root cmd fs).2 := exec_may nd root cmd fs

/-- C106: whatever commands are run and whatever calls fail, nothing outside `.graph` is touched but the lock file, and the directory can be
used again once the calls succeed: gc-clean and gc-init give an empty graph, with which every command works (see C75). -/
theorem C106_recovery (nd : Char → Bool) (root : FPath) (fs fs' : FS) (S : Option SetGraph) (h : Holds nd root fs S) (l : List Cmd)
    (hs : Session nd root l fs fs') (answer : Text) :
    Elsewhere root fs fs' ∧ ∃ fs2 e, session nd root [.clean true answer, .init] fs' = (fs2, [e, .success]) ∧
      Holds nd root fs2 (some .empty) := by
  have hu := UsableFrom.ran (fs0 := fs) ⟨Holds.usable h, Elsewhere.refl root fs⟩ hs
  exact ⟨hu.2, Usable.start_again hu.1 answer⟩

/-- C106: gc-init, gc-add and gc-delete never lose what is stored: whatever is run and whatever calls fail, the text of the command file is
still at its beginning. -/
theorem C106_nothing_lost (nd : Char → Bool) (root : FPath) (fs fs' : FS) (c : Text) (hc : Content root fs c) (l : List Cmd)
    (hl : ∀ cmd ∈ l, cmd.OnlyAppends) (hs : Session nd root l fs fs') : ∃ t, Content root fs' (c ++ t) := by
  have h : Keeps root c fs := ⟨[], by rw [List.append_nil]; exact hc⟩
  clear hc
  induction hs with
  | nil => exact h
  | cons h1 _ ih => exact ih (fun x hx => hl x (by simp [hx])) (Keeps.executed (hl _ List.mem_cons_self) h h1)

/-- C106: when gc-init ends with success, there is a command file, whatever calls failed. -/
theorem C106_init_success (nd : Char → Bool) (root : FPath) (fs fs' : FS) (h : Exec nd root .init fs fs' .success) :
    FileAt fs' (commandPath root) := by
  obtain ⟨r, ⟨fs1, _, h2⟩, h3⟩ := h
  cases r with
  | error e => cases h3
  | ok u =>
    have h2 := h2.ok
    unfold openCreate at h2
    split at h2
    · rename_i c hc; cases h2; exact ⟨c, hc⟩
    · cases h2
    · split at h2
      · cases h2; exact ⟨[], FS.set_self _ _ _⟩
      · cases h2
      · cases h2

/-- C106: when gc-clean is allowed to clean and ends with success, `.graph` and everything in it is gone, and the lock file too, whatever calls
failed. -/
theorem C106_clean_success (nd : Char → Bool) (root : FPath) (fs fs' : FS) (force : Bool) (answer : Text)
    (hy : force = true ∨ SaysYes answer) (h : Exec nd root (.clean force answer) fs fs' .success) :
    (∀ q, rootPath root <+: q → fs' q = none) ∧ fs' (lockPath root) = none := by
  change GcClean root force answer fs fs' .success at h
  unfold GcClean at h
  rw [if_neg (by
    rcases hy with rfl | hy
    · simp
    · rw [saysYes_iff.2 hy]; simp)] at h
  obtain ⟨r, h, h3⟩ := h
  cases r with
  | error e => cases h3
  | ok u =>
    rcases h with ⟨e, _, h⟩ | ⟨fs1, fs2, res, _, h2, h3⟩
    · cases h
    · rcases h3 with ⟨e, _, h3⟩ | ⟨h3, h4⟩
      · cases h3
      · subst h4
        rcases h2 with h2 | ⟨_, e, h2⟩
        · have h3 := h3.ok
          unfold removeFile at h3
          split at h3
          · cases h3
            refine ⟨fun q hq => ?_, FS.set_self _ _ _⟩
            rw [FS.set_other _ _ (by rintro rfl; exact lock_not_under_graph root hq)]
            unfold removeDirAll at h2
            split at h2
            · cases h2
              exact if_pos (isPrefixOf_iff.2 hq)
            · cases h2
            · cases h2
          · cases h3
          · cases h3
        · cases h2

/-- In the sample directory, gc-init cannot open the command file, and then gc-add cannot remove its lock file. -/
example (nd : Char → Bool) : Holds nd [['d']] (sampleFS []) (some .empty) ∧
    ∃ fs', Session nd [['d']] [.init, .add { vertex := some ["7".toList] }] (sampleFS []) fs' ∧
      FileAt fs' (lockPath [['d']]) ∧ Content [['d']] fs' "AddVertex 7\n".toList := by
  refine ⟨⟨sampleFS_ready [], [], .new, rfl, .inl rfl, rfl, ?_⟩, ?_⟩
  · unfold DirectedGraph.toSet SetGraph.empty
    simp [DirectedGraph.containsVertex, DirectedGraph.containsEdge, DirectedGraph.new, HMap.containsKey]
  obtain ⟨fs', e, h1, h2, h3⟩ := lock_stays (c := []) ⟨sampleFS_ready [], rfl⟩ [.AddVertex 7]
  refine ⟨fs', .cons (fs1 := sampleFS []) (e := .panic) ⟨.error .notFound, ⟨_, .inl rfl, .inr ⟨rfl, _, rfl⟩⟩, rfl⟩ (.cons (e := .success) ?_ .nil), h3, h2.2⟩
  refine .inr ⟨fs', ?_, .inr ⟨fs', ⟨rfl, rfl⟩, .inr ⟨fs', ⟨rfl, rfl⟩, .inr ⟨fs', ⟨rfl, rfl⟩, .inr ⟨fs', ⟨rfl, rfl⟩, rfl, rfl⟩⟩⟩⟩⟩
  have e1 : (Run.unwrap (Args.parseVertexIdList ["7".toList])).bind (fun vs => .done (vs.map GraphCommand.AddVertex)) = .done [GraphCommand.AddVertex 7] := by
    decide +kernel
  unfold MutateStep
  dsimp only
  rw [e1]
  exact ⟨⟨_, h1⟩, rfl⟩

example (nd : Char → Bool) : (exec nd [['d']] (.clean true []) (sampleFS [])).2 = .success ∧ (exec nd [['d']] .init (sampleFS [])).2 = .success := by
  constructor
  · show (gcClean [['d']] true [] (sampleFS [])).2 = _
    decide +kernel
  · show (gcInit [['d']] (sampleFS [])).2 = _
    decide +kernel

/-! ### C107 -/

/-- C107 (partial): one call that adds or removes vertices or edges, on an initialised graph, whatever calls fail: a beginning of the new lines is
stored. If the call returns `Ok`, at most the last 8192 bytes are missing. Missing: that then everything is stored, see
`C107_counterexample_ok`. -/
theorem C107_call_partial (root : FPath) (cs : List GraphCommand) (fs fs' : FS) (r : Except IoError Unit) (c : Text) (h : Ready root fs)
    (hc : Content root fs c) (hk : ApplyGraphCommands root cs fs fs' r) :
    Ready root fs' ∧ ∃ t rest, Gcmd.commandsText cs = t ++ rest ∧ Content root fs' (c ++ t) ∧ (r = .ok () → rest.length ≤ 8192) := by
  obtain ⟨t, rest, h1, h2, h3⟩ := Has.applied ⟨h, hc⟩ hk
  exact ⟨h2.1, t, rest, h1, h2.2, h3⟩

/-- C107 (partial): what is loaded after such a call: the old commands and a beginning of the new ones; or in addition the next new command with
the digits of its last id cut off; or the file cannot be read any more. -/
theorem C107_loaded_partial (nd : Char → Bool) (root : FPath) (cs : List GraphCommand) (fs fs' : FS) (r : Except IoError Unit) (c : Text)
    (base : List GraphCommand) (h : Ready root fs) (hc : Content root fs c) (ht : NewlineTerminated c)
    (hb : Gcmd.readAsCommands nd c = .done (.ok base)) (hk : ApplyGraphCommands root cs fs fs' r) :
    ∃ k, k ≤ cs.length ∧
      (loadGraph nd root fs' = .done (.ok (GraphCommand.applyCommands (base ++ cs.take k) .new)) ∨
      (∃ cmd cmd', cs[k]? = some cmd ∧ Truncated cmd cmd' ∧
        loadGraph nd root fs' = .done (.ok (GraphCommand.applyCommands (base ++ cs.take k ++ [cmd']) .new))) ∨
      ∃ cmd l, cs[k]? = some cmd ∧ l <+: Gcmd.commandIntoLine cmd ∧
        loadGraph nd root fs' = .done (.error (.parse (.atLine ((lines c).length + k + 1) l)))) := by
  obtain ⟨t, rest, h1, h2, _⟩ := Has.applied ⟨h, hc⟩ hk
  obtain ⟨k, hk, h3⟩ := C15_crash_outcomes_partial nd c t base cs ht hb ⟨rest, h1.symm⟩
  have hload : ∀ r, Gcmd.readAsCommands nd (c ++ t) = .done r →
      loadGraph nd root fs' = .done (match r with
        | .ok cs => .ok (GraphCommand.applyCommands cs .new)
        | .error e => .error (.parse e)) := by
    intro r hr
    have h2 := h2.2
    unfold Content at h2
    unfold loadGraph
    rw [h2]
    dsimp only
    unfold Gcmd.read Format.read
    rw [show Format.readAsCommands (Gcmd.parseLine nd) _ = .done r from hr]
    cases r <;> rfl
  refine ⟨k, hk, ?_⟩
  rcases h3 with h3 | ⟨cmd, cmd', h4, h5, h3⟩ | ⟨cmd, l, h4, h5, h3⟩
  · exact .inl (hload _ h3)
  · exact .inr (.inl ⟨cmd, cmd', h4, h5, hload _ h3⟩)
  · exact .inr (.inr ⟨cmd, l, h4, h5, hload _ h3⟩)

/-- C107 (partial): gc-add and gc-delete on an initialised graph, whatever calls fail. Of the lines of each option (`parts`: the commands of the
option, and what was stored of their lines) a beginning is stored; a run without failing calls would have stored all the lines. -/
theorem C107_stored_partial (nd : Char → Bool) (root : FPath) (cmd : Cmd) (fs fs' : FS) (e : Exit) (c : Text) (h : Ready root fs)
    (hc : Content root fs c) (hcmd : (∃ a, cmd = .add a) ∨ ∃ v x, cmd = .delete v x) (hk : Exec nd root cmd fs fs' e) :
    ∃ parts : List (List GraphCommand × Text), (∀ p ∈ parts, p.2 <+: Gcmd.commandsText p.1) ∧
      Ready root fs' ∧ Content root fs' (c ++ (parts.map Prod.snd).flatten) ∧
      Content root (exec nd root cmd fs).1 (c ++ Gcmd.commandsText (parts.map Prod.fst).flatten) := by
  have key : ∃ parts : List (List GraphCommand × Text), (∀ p ∈ parts, p.2 <+: Gcmd.commandsText p.1) ∧
      Has root (c ++ (parts.map Prod.snd).flatten) fs' ∧ ∀ x d, Has root d x → (exec nd root cmd x).2 = e ∧
        Has root (d ++ Gcmd.commandsText (parts.map Prod.fst).flatten) (exec nd root cmd x).1 := by
    rcases hcmd with ⟨a, rfl⟩ | ⟨v, x, rfl⟩
    · exact stores_gcAdd a fs fs' e c ⟨h, hc⟩ hk
    · exact stores_gcDelete v x fs fs' e c ⟨h, hc⟩ hk
  obtain ⟨parts, h1, h2, h3⟩ := key
  exact ⟨parts, h1, h2.1, h2.2, (h3 fs c ⟨h, hc⟩).2.2⟩

/-- C107 is false: gc-add and gc-delete never report a failing call. On an initialised graph, their exit code is the one of a run in which no
call fails. -/
theorem C107_counterexample_never_reported (nd : Char → Bool) (root : FPath) (cmd : Cmd) (fs fs' : FS) (e : Exit) (h : Ready root fs)
    (hcmd : (∃ a, cmd = .add a) ∨ ∃ v x, cmd = .delete v x) (hk : Exec nd root cmd fs fs' e) : e = (exec nd root cmd fs).2 := by
  obtain ⟨c, hc⟩ := h.2.1
  rcases hcmd with ⟨a, rfl⟩ | ⟨v, x, rfl⟩
  · obtain ⟨_, _, _, h3⟩ := stores_gcAdd a fs fs' e c ⟨h, hc⟩ hk
    exact (h3 fs c ⟨h, hc⟩).1.symm
  · obtain ⟨_, _, _, h3⟩ := stores_gcDelete v x fs fs' e c ⟨h, hc⟩ hk
    exact (h3 fs c ⟨h, hc⟩).1.symm

/-- C107 (partial): what gc-build leaves, whatever calls fail: everything is as it was, or the command file holds a beginning of the rewritten
graph. Success means that at most the last 8192 bytes are missing. -/
theorem C107_build_partial (nd : Char → Bool) (order : DirectedGraph → DirectedGraph) (root : FPath) (fs fs' : FS) (e : Exit) (c : Text)
    (g : DirectedGraph) (hc : Content root fs c) (hg : loadGraph nd root fs = .done (.ok g))
    (hk : Exec nd root (.build order) fs fs' e) :
    (fs' = fs ∧ e = .panic) ∨
    ((∀ q, q ≠ commandPath root → fs' q = fs q) ∧
      ∃ t rest, Gcmd.save (order g) = t ++ rest ∧ Content root fs' t ∧ (e = .success → rest.length ≤ 8192)) := by
  obtain ⟨l, hl, hk⟩ := hk
  have hl : l = .done (.ok g) ∨ ∀ g', l ≠ .done (.ok g') := by
    rcases hl with hl | ⟨x, hl⟩ | hl
    · rw [hg] at hl; exact .inl hl.symm
    · subst hl; exact .inr fun g' h => by cases h
    · subst hl; exact .inr fun g' h => by cases h
  rcases hl with rfl | hl
  · obtain ⟨r, hk, rfl⟩ := hk
    have ht : createTruncate (commandPath root) fs = (fs.set (commandPath root) (some (.file [])), .ok ()) := by
      unfold createTruncate
      rw [hc]
    rcases hk with ⟨x, hk, rfl⟩ | ⟨fs1, h1, h2⟩
    · left
      rcases hk with hk | ⟨hk, _⟩
      · rw [ht] at hk; cases hk
      · exact ⟨hk, rfl⟩
    · right
      have h1 := h1.ok
      rw [ht] at h1
      cases h1
      obtain ⟨t, rest, e1, rfl, e2⟩ := h2.exists_append
      rw [Disk.savePieces_flatten] at e1
      have ha : appendText (commandPath root) t (fs.set (commandPath root) (some (.file []))) =
          (fs.set (commandPath root) (some (.file []))).set (commandPath root) (some (.file t)) := by
        unfold appendText
        rw [FS.set_self]
        rfl
      rw [ha]
      refine ⟨fun q hq => ?_, t, rest, e1, FS.set_self _ _ _, fun he => ?_⟩
      · rw [FS.set_other _ _ hq, FS.set_other _ _ hq]
      · refine e2 ?_
        cases r with
        | ok u => rfl
        | error x => cases he
  · left
    split at hk
    · exact absurd rfl (hl _)
    · exact hk

/-- C107 (partial): when gc-random replaces the graph and ends with success, the command file holds a beginning of the generated graph, of which at
most the last 8192 bytes are missing. -/
theorem C107_random_partial (nd : Char → Bool) (order : DirectedGraph → DirectedGraph) (root : FPath) (fs fs' : FS) (g : DirectedGraph)
    (force : Bool) (answer : Text) (hy : force = true ∨ SaysYes answer)
    (hk : Exec nd root (.random g order force answer) fs fs' .success) :
    ∃ t rest, Gcmd.save (order g) = t ++ rest ∧ Content root fs' t ∧ rest.length ≤ 8192 := by
  change GcRandom order root force answer g fs fs' .success at hk
  unfold GcRandom at hk
  rw [if_neg (by
    rcases hy with rfl | hy
    · simp
    · rw [saysYes_iff.2 hy]; simp)] at hk
  rcases hk with ⟨_, hk⟩ | ⟨fs1, _, hk⟩
  · cases hk
  rcases hk with ⟨_, hk⟩ | ⟨fs2, _, r, hk, he⟩
  · cases hk
  cases r with
  | error e => cases he
  | ok u =>
    rcases hk with ⟨e, _, hk⟩ | ⟨fs3, h1, h2⟩
    · cases hk
    have hf : fs3 (commandPath root) = some (.file []) := by
      have h1 := h1.ok
      unfold createTruncate at h1
      split at h1
      · cases h1; exact FS.set_self _ _ _
      · cases h1
      · split at h1
        · cases h1; exact FS.set_self _ _ _
        · cases h1
        · cases h1
    obtain ⟨t, rest, e1, rfl, e2⟩ := h2.exists_append
    rw [Disk.savePieces_flatten] at e1
    refine ⟨t, rest, e1, ?_, e2 rfl⟩
    unfold Content appendText
    rw [hf]
    exact FS.set_self _ _ _

/-- A run of gc-random without failing calls. -/
example (nd : Char → Bool) : (exec nd [['d']] (.random (GraphCommand.applyCommands [.AddEdge 1 2] .new) id true []) (sampleFS [])).2 = .success := by
  show (Random.finish id [['d']] true [] (sampleFS []) (some (GraphCommand.applyCommands [.AddEdge 1 2] .new))).2 = _
  decide +kernel

/-- C107 is false, on every initialised graph: when less than 8192 bytes are to be stored, any beginning of them may be stored, also nothing, and the
call returns `Ok`. -/
theorem C107_counterexample_ok (root : FPath) (cs : List GraphCommand) (fs : FS) (c t : Text) (h : Ready root fs) (hc : Content root fs c)
    (hlen : (Gcmd.commandsText cs).length < 8192) (ht : t <+: Gcmd.commandsText cs) :
    ∃ fs', ApplyGraphCommands root cs fs fs' (.ok ()) ∧ Content root fs' (c ++ t) := by
  obtain ⟨fs', h1, h2⟩ := any_beginning ⟨h, hc⟩ hlen ht
  exact ⟨fs', h1, h2.2⟩

example : Ready [['d']] (sampleFS []) ∧ (Gcmd.commandsText [.AddVertex 7]).length < 8192 ∧ [] <+: Gcmd.commandsText [.AddVertex 7] :=
  ⟨sampleFS_ready [], by decide, List.nil_prefix⟩

/-- C107 is false, on every initialised graph: a call returns an error although everything was stored, when the lock file cannot be removed. -/
theorem C107_counterexample_error (root : FPath) (cs : List GraphCommand) (fs : FS) (c : Text) (h : Ready root fs) (hc : Content root fs c) :
    ∃ fs' e, ApplyGraphCommands root cs fs fs' (.error e) ∧ Content root fs' (c ++ Gcmd.commandsText cs) ∧ FileAt fs' (lockPath root) := by
  obtain ⟨fs', e, h1, h2, h3⟩ := lock_stays ⟨h, hc⟩ cs
  exact ⟨fs', e, h1, h2.2, h3⟩

/-- C107 is false: the write of the first option fails, that of the second does not; gc-add ends with success, and the graph, which was empty,
cannot be loaded any more. -/
theorem C107_counterexample_unreadable (nd : Char → Bool) :
    ∃ fs', Exec nd [['d']] (.add { vertex := some ["12".toList], edge := some ["3".toList, "4".toList] }) (sampleFS []) fs' .success ∧
      loadGraph nd [['d']] fs' = .done (.error (.parse (.atLine 1 "AddVertex 1AddEdge 3 4".toList))) := by
  obtain ⟨fs1, h1, h2⟩ := any_beginning (c := []) (cs := [.AddVertex 12]) (t := "AddVertex 1".toList) ⟨sampleFS_ready [], rfl⟩ (by decide)
    ⟨"2\n".toList, by decide +kernel⟩
  obtain ⟨fs', h3, h4⟩ := any_beginning (cs := [.AddEdge 3 4]) (t := "AddEdge 3 4\n".toList) h2 (by decide) ⟨[], by decide +kernel⟩
  have e1 : (Run.unwrap (Args.parseVertexIdList ["12".toList])).bind (fun vs => .done (vs.map GraphCommand.AddVertex)) = .done [GraphCommand.AddVertex 12] := by
    decide +kernel
  have e2 : (Run.unwrap (Args.parseVertexIdList ["3".toList, "4".toList])).bind (mkEdges false) = .done [.AddEdge 3 4] := by
    decide +kernel
  refine ⟨fs', .inr ⟨fs1, ?_, .inr ⟨fs', ?_, .inr ⟨fs', ⟨rfl, rfl⟩, .inr ⟨fs', ⟨rfl, rfl⟩, .inr ⟨fs', ⟨rfl, rfl⟩, rfl, rfl⟩⟩⟩⟩⟩, ?_⟩
  · unfold MutateStep
    dsimp only
    rw [e1]
    exact ⟨⟨_, h1⟩, rfl⟩
  · unfold MutateStep
    dsimp only
    rw [e2]
    exact ⟨⟨_, h3⟩, rfl⟩
  · have h4 := h4.2
    unfold Content at h4
    unfold loadGraph
    rw [h4]
    rfl

/-! ### Worked cases -/

/-- `C106_recovery` after a gc-add and a gc-clean, here with no failing call. -/
example (nd : Char → Bool) := C106_recovery nd [['d']] _ _ _ (sample_holds nd [.AddEdge 1 2]) [.add { vertex := some ["7".toList] }, .clean true []]
  (.cons (exec_may nd _ _ _) (.cons (exec_may nd _ _ _) .nil)) []

/-- `C106_nothing_lost`: after a gc-init that cannot open the command file, the edge is still there. -/
example (nd : Char → Bool) : ∃ t, Content [['d']] (sampleFS "AddEdge 1 2\n".toList) ("AddEdge 1 2\n".toList ++ t) :=
  C106_nothing_lost nd [['d']] _ _ _ (sampleFS_content _) [.init] (by simp [Cmd.OnlyAppends])
    (.cons (e := .panic) ⟨.error .notFound, ⟨_, .inl rfl, .inr ⟨rfl, _, rfl⟩⟩, rfl⟩ .nil)

/-- `C106_clean_success` for a run without failing calls. -/
example (nd : Char → Bool) : (∀ q, rootPath [['d']] <+: q → (exec nd [['d']] (.clean true []) (sampleFS [])).1 q = none) ∧
    (exec nd [['d']] (.clean true []) (sampleFS [])).1 (lockPath [['d']]) = none :=
  C106_clean_success nd _ _ _ true [] (.inl rfl) (by
    have h := exec_may nd [['d']] (.clean true []) (sampleFS [])
    rwa [show (exec nd [['d']] (.clean true []) (sampleFS [])).2 = .success by
      show (gcClean [['d']] true [] (sampleFS [])).2 = _
      decide +kernel] at h)

/-- `C107_call_partial` and `C107_loaded_partial` for a call of which only `AddVertex 1` reaches the file: `.ok` is returned. -/
example (nd : Char → Bool) : ∃ fs', ApplyGraphCommands [['d']] [.AddVertex 12] (sampleFS "AddEdge 1 2\n".toList) fs' (.ok ()) ∧ Ready [['d']] fs' ∧
    ∃ k, k ≤ 1 ∧
      (loadGraph nd [['d']] fs' = .done (.ok (GraphCommand.applyCommands ([.AddEdge 1 2] ++ [GraphCommand.AddVertex 12].take k) .new)) ∨
      (∃ cmd cmd', [GraphCommand.AddVertex 12][k]? = some cmd ∧ Truncated cmd cmd' ∧
        loadGraph nd [['d']] fs' = .done (.ok (GraphCommand.applyCommands ([.AddEdge 1 2] ++ [GraphCommand.AddVertex 12].take k ++ [cmd']) .new))) ∨
      ∃ cmd l, [GraphCommand.AddVertex 12][k]? = some cmd ∧ l <+: Gcmd.commandIntoLine cmd ∧
        loadGraph nd [['d']] fs' = .done (.error (.parse (.atLine ((lines "AddEdge 1 2\n".toList).length + k + 1) l)))) := by
  obtain ⟨fs', h1, _⟩ := C107_counterexample_ok [['d']] [.AddVertex 12] _ _ "AddVertex 1".toList (sampleFS_ready "AddEdge 1 2\n".toList)
    (sampleFS_content _) (by decide) ⟨"2\n".toList, by decide +kernel⟩
  exact ⟨fs', h1, (C107_call_partial _ _ _ _ _ _ (sampleFS_ready _) (sampleFS_content _) h1).1,
    C107_loaded_partial nd _ _ _ _ _ _ [.AddEdge 1 2] (sampleFS_ready _) (sampleFS_content _) (by right; decide) rfl h1⟩

/-- `C107_stored_partial` and `C107_counterexample_never_reported` for the run of `C107_counterexample_unreadable`. -/
example (nd : Char → Bool) : ∃ fs', ∃ parts : List (List GraphCommand × Text), (∀ p ∈ parts, p.2 <+: Gcmd.commandsText p.1) ∧
    Content [['d']] fs' ([] ++ (parts.map Prod.snd).flatten) ∧
    (exec nd [['d']] (.add { vertex := some ["12".toList], edge := some ["3".toList, "4".toList] }) (sampleFS [])).2 = .success := by
  obtain ⟨fs', h1, _⟩ := C107_counterexample_unreadable nd
  obtain ⟨parts, h2, _, h3, _⟩ := C107_stored_partial nd _ _ _ _ _ _ (sampleFS_ready _) (sampleFS_content _) (.inl ⟨_, rfl⟩) h1
  exact ⟨fs', parts, h2, h3, (C107_counterexample_never_reported nd _ _ _ _ _ (sampleFS_ready _) (.inl ⟨_, rfl⟩) h1).symm⟩

/-- `C107_build_partial` for a run of gc-build without failing calls. -/
example (nd : Char → Bool) := C107_build_partial nd id [['d']] _ _ _ _ _ (sampleFS_content (Gcmd.commandsText [.AddEdge 1 2]))
  (load_sample nd [.AddEdge 1 2]) (exec_may nd [['d']] (.build id) (sampleFS (Gcmd.commandsText [.AddEdge 1 2])))

/-- `C107_random_partial` for a run of gc-random without failing calls. -/
example (nd : Char → Bool) : ∃ t rest, Gcmd.save (graphOf [.AddEdge 1 2]) = t ++ rest ∧
    Content [['d']] (exec nd [['d']] (.random (graphOf [.AddEdge 1 2]) id true []) (sampleFS [])).1 t ∧ rest.length ≤ 8192 :=
  C107_random_partial nd id _ _ _ _ true [] (.inl rfl) (by
    have h := exec_may nd [['d']] (.random (graphOf [.AddEdge 1 2]) id true []) (sampleFS [])
    rwa [show (exec nd [['d']] (.random (graphOf [.AddEdge 1 2]) id true []) (sampleFS [])).2 = .success by
      show (Random.finish id [['d']] true [] (sampleFS []) (some (graphOf [.AddEdge 1 2]))).2 = _
      decide +kernel] at h)

end Faults
end GC
