/-
Properties C91-C93: sessions in which commands are killed at any point.
-/
import Verif.Proofs.Killed
import Verif.Props.History
import Verif.Props.Concurrent
namespace GC
open Text Format Store

/-! ### C91 -/

/-- gc-clean and gc-init start again with an empty graph. -/
theorem Usable.start_again {nd : Char → Bool} {root : FPath} {fs' : FS} (hu : Usable root fs') (answer : Text) :
    ∃ fs2 e, session nd root [.clean true answer, .init] fs' = (fs2, [e, .success]) ∧ Holds nd root fs2 (some .empty) := by
  obtain ⟨fs1, e, h1, h2, _⟩ := hu.clean_fresh
  obtain ⟨fs2, h3, h4, h5, _⟩ := init_fresh h2
  refine ⟨fs2, (expectOk (fs1, e)).2, ?_, h4, [], .new, h5, .inl rfl, rfl, ?_⟩
  · have e1 : exec nd root (.clean true answer) fs' = (fs1, (expectOk (fs1, e)).2) := by
      show gcClean root true answer fs' = _
      unfold gcClean
      rw [if_neg (by simp), h1]
      exact Prod.ext (expectOk_fst (fs1, e)) rfl
    have e2 : exec nd root .init fs1 = (fs2, .success) := by
      show expectOk (Store.init root fs1) = _
      rw [h3]
      rfl
    unfold session
    rw [e1]
    dsimp only
    unfold session
    rw [e2]
    rfl
  · unfold DirectedGraph.toSet SetGraph.empty
    simp [DirectedGraph.containsVertex, DirectedGraph.containsEdge, DirectedGraph.new, HMap.containsKey, HMap.get?]

/-- C91 (partial): whatever was run and killed, the directory can be used again: gc-clean and gc-init give an empty graph, with which every
command works (see C75), and nothing outside `.graph` was touched but the lock file.
Missing: going on without gc-clean, see `C91_counterexample`. -/
theorem C91_recovery_partial (nd : Char → Bool) (root : FPath) (fs fs' : FS) (S : Option SetGraph) (h : Holds nd root fs S)
    (l : List (Cmd × Bool)) (hs : CrashSession nd root l fs fs') (answer : Text) :
    Elsewhere root fs fs' ∧ ∃ fs2 e, session nd root [.clean true answer, .init] fs' = (fs2, [e, .success]) ∧
      Holds nd root fs2 (some .empty) := by
  have hu := UsableFrom.session (fs0 := fs) ⟨Holds.usable h, Elsewhere.refl root fs⟩ hs
  exact ⟨hu.2, Usable.start_again hu.1 answer⟩

/-- C91 (partial): a killed gc-add or gc-delete has stored a beginning of what it would have stored. Either that is a number of whole commands,
then everything works with the graph they give. Or a piece of the next line is at the end of the file (see the following theorems). -/
theorem C91_killed_mutation_partial (nd : Char → Bool) (root : FPath) (fs fs' : FS) (G : SetGraph) (h : Holds nd root fs (some G)) (cmd : Cmd)
    (hc : cmd.OnlyAppends) (hk : Killed nd root cmd fs fs') :
    ∃ cs, Holds nd root (exec nd root cmd fs).1 (some (G.run cs)) ∧
      ∃ k, k ≤ cs.length ∧ (Holds nd root fs' (some (G.run (cs.take k))) ∨
        ∃ c t next base, Ready root fs' ∧ Content root fs' (c ++ t) ∧ NewlineTerminated c ∧ Gcmd.readAsCommands nd c = .done (.ok base) ∧
          (GraphCommand.applyCommands base .new).toSet = G.run (cs.take k) ∧
          cs[k]? = some next ∧ t ≠ [] ∧ t <+: Gcmd.commandIntoLine next) := by
  obtain ⟨hr, c, g, hc1, ht, hg, hG⟩ := h
  have hhas : Has root c fs := ⟨hr, hc1⟩
  have main : ∃ cs p, p <+: Gcmd.commandsText cs ∧ Has root (c ++ p) fs' ∧ Has root (c ++ Gcmd.commandsText cs) (exec nd root cmd fs).1 := by
    cases cmd with
    | init =>
      rw [hr.touchKilled_command hk]
      refine ⟨[], [], List.nil_prefix, by rw [List.append_nil]; exact hhas, ?_⟩
      show Has root (c ++ []) (expectOk (Store.init root fs)).1
      rw [init_ready hr, List.append_nil]
      exact hhas
    | add a => exact appendsPrefix_gcAdd a fs fs' c hhas hk
    | delete v e => exact appendsPrefix_gcDelete v e fs fs' c hhas hk
    | build order => exact hc.elim
    | clean force answer => exact hc.elim
    | random g order force answer => exact hc.elim
  obtain ⟨cs, p, h1, h2, h3⟩ := main
  have holds : ∀ (ds : List GraphCommand) (x : FS), Has root (c ++ Gcmd.commandsText ds) x → Holds nd root x (some (G.run ds)) := by
    intro ds x hx
    refine ⟨hx.1, _, _, hx.2, newlineTerminated_append ht (terminated_commandsText ds), C14_append_applies nd c g ds ht hg, ?_⟩
    rw [← hG]
    exact toSet_applyCommands (loadGraph_built ((loadGraph_content hc1).2 hg)).1.wf ds
  refine ⟨cs, holds cs _ h3, ?_⟩
  obtain ⟨k, t, rfl, hk, hor⟩ := prefix_commandsText h1
  refine ⟨k, hk, ?_⟩
  rcases hor with rfl | ⟨next, hn, hne, hpre⟩
  · left
    rw [List.append_nil] at h2
    exact holds _ _ h2
  · right
    rw [← List.append_assoc] at h2
    have hload := C14_append_applies nd c g (cs.take k) ht hg
    obtain ⟨base, hbase, he⟩ := read_ok_commands hload
    refine ⟨_, t, next, base, h2.1, h2.2, newlineTerminated_append ht (terminated_commandsText _), hbase, ?_, hn, hne, hpre⟩
    rw [he, ← hG]
    exact toSet_applyCommands (loadGraph_built ((loadGraph_content hc1).2 hg)).1.wf _

/-- C91 (partial): if the file can be loaded, a gc-build repairs it: the graph is stored, and the last line is complete. -/
theorem C91_build_repairs_partial (nd : Char → Bool) (root : FPath) (fs : FS) (hr : Ready root fs) (g : DirectedGraph)
    (hg : loadGraph nd root fs = .done (.ok g)) (order : DirectedGraph → DirectedGraph) (ho : IsOrder order) :
    (gcBuild nd order root fs).2 = .success ∧ Holds nd root (gcBuild nd order root fs).1 (some g.toSet) := by
  obtain ⟨fs', h1, h2, h3, _⟩ := save_ready hr (order g)
  have hb := (loadGraph_built hg).1
  unfold gcBuild
  rw [hg]
  dsimp only
  rw [h1]
  exact ⟨rfl, holds_save ho hb h2 h3⟩

/-- C91 (partial): otherwise, the first thing that is stored after the torn line makes the file unreadable. Here gc-init, gc-add and gc-delete
are run after the crash, killed or not. If nothing is stored, nothing changed; otherwise loading fails, with an error at the torn line. -/
theorem C91_torn_line_partial (nd : Char → Bool) (root : FPath) (fs fs' : FS) (c t : Text) (cmd : GraphCommand) (base : List GraphCommand)
    (hr : Ready root fs) (hc : Content root fs (c ++ t)) (ht : NewlineTerminated c) (hb : Gcmd.readAsCommands nd c = .done (.ok base))
    (hne : t ≠ []) (htorn : t <+: Gcmd.commandIntoLine cmd) (l : List (Cmd × Bool)) (hl : ∀ x ∈ l, x.1.OnlyAppends)
    (hs : CrashSession nd root l fs fs') :
    Content root fs' (c ++ t) ∨
    ∃ line, t <+: line ∧ loadGraph nd root fs' = .done (.error (.parse (.atLine ((lines c).length + 1) line))) := by
  have key : ∃ x, CommandStart x ∧ Has root (c ++ t ++ x) fs' := by
    have h0 : ∃ x, CommandStart x ∧ Has root (c ++ t ++ x) fs := ⟨[], .inl rfl, by rw [List.append_nil]; exact ⟨hr, hc⟩⟩
    clear hr hc
    induction hs with
    | nil => exact h0
    | ran _ ih => exact ih (fun x hx => hl x (by simp [hx])) (appending_exec (hl _ List.mem_cons_self) h0)
    | killed hk _ ih => exact ih (fun x hx => hl x (by simp [hx])) (appending_killed (hl _ List.mem_cons_self) hk h0)
  obtain ⟨x, h1, h2⟩ := key
  by_cases hx : x = []
  · left
    subst hx
    rw [List.append_nil] at h2
    exact h2.2
  · right
    exact torn_load ht hb htorn hne h1 hx h2.2

/-- C91 (partial): a file that became unreadable in this way stays unreadable, at the same line, whatever is run and killed, until gc-clean or
gc-random remove it. -/
theorem C91_stays_broken_partial (nd : Char → Bool) (root : FPath) (fs fs' : FS) (c t x : Text) (cmd : GraphCommand)
    (base : List GraphCommand) (hr : Ready root fs) (hc : Content root fs (c ++ t ++ x)) (ht : NewlineTerminated c)
    (hb : Gcmd.readAsCommands nd c = .done (.ok base)) (hne : t ≠ []) (htorn : t <+: Gcmd.commandIntoLine cmd)
    (hx : x.head? = some 'A' ∨ x.head? = some 'R') (l : List (Cmd × Bool)) (hl : ∀ x ∈ l, x.1.KeepsFile)
    (hs : CrashSession nd root l fs fs') :
    ∃ line, t <+: line ∧ loadGraph nd root fs' = .done (.error (.parse (.atLine ((lines c).length + 1) line))) := by
  have hxne : x ≠ [] := by rintro rfl; simp at hx
  have start : ∀ y, CommandStart (x ++ y) := by
    intro y
    right
    cases x with
    | nil => exact (hxne rfl).elim
    | cons a x => exact hx
  have key : ∃ y, CommandStart y ∧ Has root (c ++ t ++ x ++ y) fs' := by
    have h0 : ∃ y, CommandStart y ∧ Has root (c ++ t ++ x ++ y) fs := ⟨[], .inl rfl, by rw [List.append_nil]; exact ⟨hr, hc⟩⟩
    clear hr hc
    have hbad : ∀ z, (∃ y, CommandStart y ∧ Has root (c ++ t ++ x ++ y) z) → ∀ g, loadGraph nd root z ≠ .done (.ok g) := by
      rintro z ⟨y, h2, h3⟩ g hg
      rw [List.append_assoc] at h3
      obtain ⟨line, _, h4⟩ := torn_load ht hb htorn hne (start y) (by simp [hxne]) h3.2
      rw [hg] at h4
      cases h4
    induction hs with
    | nil => exact h0
    | ran _ ih => exact ih (fun x hx => hl x (by simp [hx])) (broken_exec (hl _ List.mem_cons_self) (hbad _ h0) h0)
    | killed hk _ ih => exact ih (fun x hx => hl x (by simp [hx])) (broken_killed (hl _ List.mem_cons_self) hk (hbad _ h0) h0)
  obtain ⟨y, _, h3⟩ := key
  rw [List.append_assoc] at h3
  exact torn_load ht hb htorn hne (start y) (by simp [hxne]) h3.2

/-- C91 is false: gc-add is killed after 11 bytes, another gc-add ends with success, and from then on the graph cannot be loaded. -/
theorem C91_counterexample (nd : Char → Bool) :
    ∃ fs1 fs2, Killed nd [['d']] (.add { vertex := some ["12".toList] }) (sampleFS []) fs1 ∧
      exec nd [['d']] (.add { vertex := some ["5".toList] }) fs1 = (fs2, .success) ∧
      loadGraph nd [['d']] fs2 = .done (.error (.parse (.atLine 1 "AddVertex 1AddVertex 5".toList))) := by
  refine ⟨appendText (commandPath [['d']]) "AddVertex 1".toList (lock [['d']] (sampleFS [])).1, _, ?_, Prod.ext rfl ?_, ?_⟩
  · exact .inl (.inr ⟨_, [.AddVertex 12], rfl, by decide +kernel, .inr ⟨_, Prod.ext rfl (by decide +kernel),
      .inl ⟨_, ⟨"2\n".toList, by decide +kernel⟩, rfl⟩⟩⟩)
  · have : (gcAdd [['d']] { vertex := some ["5".toList] } (appendText (commandPath [['d']]) "AddVertex 1".toList (lock [['d']] (sampleFS [])).1)).2 =
        .success := by decide +kernel
    exact this
  · refine loadGraph_error (c := "AddVertex 1AddVertex 5\n".toList) ?_ rfl
    show (gcAdd [['d']] { vertex := some ["5".toList] } (appendText (commandPath [['d']]) "AddVertex 1".toList (lock [['d']] (sampleFS [])).1)).1
      (commandPath [['d']]) = _
    decide +kernel

/-- The state after the kill in `C91_counterexample`. -/
def tornFS : FS := appendText (commandPath [['d']]) "AddVertex 1".toList (lock [['d']] (sampleFS [])).1

theorem sampleFS_holds (nd : Char → Bool) : Holds nd [['d']] (sampleFS []) (some .empty) :=
  ⟨sampleFS_ready [], [], .new, by unfold Content; decide +kernel, .inl rfl, rfl, toSet_new⟩

theorem tornFS_killed (nd : Char → Bool) : Killed nd [['d']] (.add { vertex := some ["12".toList] }) (sampleFS []) tornFS :=
  .inl (.inr ⟨_, [.AddVertex 12], rfl, by decide +kernel, .inr ⟨_, Prod.ext rfl (by decide +kernel),
    .inl ⟨_, ⟨"2\n".toList, by decide +kernel⟩, rfl⟩⟩⟩)

theorem tornFS_ready : Ready [['d']] tornFS := by
  have h := C91_killed_mutation_partial (fun _ => false) _ _ _ _ (sampleFS_holds _) (.add { vertex := some ["12".toList] }) trivial (tornFS_killed _)
  obtain ⟨_, _, _, _, h | ⟨_, _, _, _, h, _⟩⟩ := h
  · exact h.1
  · exact h

/-- The hypotheses of `C91_recovery_partial` and `C91_killed_mutation_partial`: a killed and a successful command. -/
example (nd : Char → Bool) : Holds nd [['d']] (sampleFS []) (some .empty) ∧
    ∃ fs', CrashSession nd [['d']] [(.add { vertex := some ["12".toList] }, true), (.add { vertex := some ["5".toList] }, false)] (sampleFS []) fs' :=
  ⟨sampleFS_holds nd, _, .killed (tornFS_killed nd) (.ran .nil)⟩

/-- The hypotheses of `C91_build_repairs_partial`: the torn file can be loaded, as a graph with vertex 1. -/
example (nd : Char → Bool) : Ready [['d']] tornFS ∧ loadGraph nd [['d']] tornFS = .done (.ok (DirectedGraph.new.addVertex 1).2) :=
  ⟨tornFS_ready, loadGraph_commands (c := "AddVertex 1".toList) (by unfold Content; decide +kernel) rfl⟩

/-- The hypotheses of `C91_torn_line_partial`. -/
example (nd : Char → Bool) : Ready [['d']] tornFS ∧ Content [['d']] tornFS ([] ++ "AddVertex 1".toList) ∧ NewlineTerminated [] ∧
    Gcmd.readAsCommands nd [] = .done (.ok []) ∧ "AddVertex 1".toList <+: Gcmd.commandIntoLine (.AddVertex 12) ∧
    ∃ fs', CrashSession nd [['d']] [(.init, false), (.add { vertex := some ["5".toList] }, false)] tornFS fs' :=
  ⟨tornFS_ready, by unfold Content; decide +kernel, .inl rfl, rfl, ⟨"2".toList, by decide +kernel⟩, _, .ran (.ran .nil)⟩

/-- The hypotheses of `C91_stays_broken_partial`: gc-build is run and fails. -/
example (nd : Char → Bool) : Content [['d']] (sampleFS "AddVertex 1AddVertex 5\n".toList) ([] ++ "AddVertex 1".toList ++ "AddVertex 5\n".toList) ∧
    Ready [['d']] (sampleFS "AddVertex 1AddVertex 5\n".toList) ∧
    ∃ fs', CrashSession nd [['d']] [(.build id, false), (.add { vertex := some ["5".toList] }, false)]
      (sampleFS "AddVertex 1AddVertex 5\n".toList) fs' :=
  ⟨by unfold Content; decide +kernel, sampleFS_ready _, _, .ran (.ran .nil)⟩

/-! ### C92 -/

/-- C92: a killed gc-init changed nothing that can be loaded, or there was no graph and now there is the empty one. -/
theorem C92_init (nd : Char → Bool) (root : FPath) (fs fs' : FS) (hk : Killed nd root .init fs fs') :
    loadGraph nd root fs' = loadGraph nd root fs ∨
    (loadGraph nd root fs = .done (.error (.io .notFound)) ∧ loadGraph nd root fs' = .done (.ok .new)) := by
  rcases touchKilled_command_command hk with h | ⟨h1, h2⟩
  · exact .inl (loadGraph_congr h)
  · right
    unfold loadGraph
    rw [h1, h2]
    exact ⟨rfl, rfl⟩

/-- C92: a killed gc-clean left the graph as it was, or there is none any more. -/
theorem C92_clean (nd : Char → Bool) (root : FPath) (fs fs' : FS) (force : Bool) (answer : Text)
    (hk : Killed nd root (.clean force answer) fs fs') :
    loadGraph nd root fs' = loadGraph nd root fs ∨ loadGraph nd root fs' = .done (.error (.io .notFound)) := by
  rcases hk with rfl | ⟨_, hk⟩
  · exact .inl rfl
  rcases cleanKilled_command hk with h | h
  · exact .inl (loadGraph_congr h)
  · right
    unfold loadGraph
    rw [h]

/-- C92: run again, gc-init completes what a killed gc-init began. -/
theorem C92_init_again (nd : Char → Bool) (root : FPath) (fs fs' : FS) (S : Option SetGraph) (h : Holds nd root fs S)
    (hk : Killed nd root .init fs fs') :
    (exec nd root .init fs').2 = .success ∧ Holds nd root (exec nd root .init fs').1 (some (S.getD .empty)) := by
  obtain ⟨fs2, h1, h2, h3⟩ := ((UsableFrom.killed (fs0 := fs) ⟨h.usable, Elsewhere.refl root fs⟩ hk).1).init
  have e : exec nd root .init fs' = (fs2, .success) := by
    show expectOk (Store.init root fs') = _
    rw [h1]; rfl
  rw [e]
  refine ⟨rfl, ?_⟩
  cases S with
  | some G =>
    have := h.1.touchKilled_command hk
    subst this
    obtain ⟨_, c, g, hc, ht, hg, hG⟩ := h
    unfold Content at hc
    rw [hc] at h3
    exact ⟨h2, c, g, h3, ht, hg, hG⟩
  | none =>
    have hnone : fs (commandPath root) = none := Fresh.command h
    refine ⟨h2, [], .new, ?_, .inl rfl, rfl, toSet_new⟩
    rcases touchKilled_command_command hk with h | ⟨_, h⟩
    · rw [h, hnone] at h3; exact h3
    · rw [h] at h3; exact h3

/-- `C92_init_again` for a gc-init killed once it had created the file: run again, it leaves the empty graph. -/
example (nd : Char → Bool) : (exec nd [['d']] .init (init [['d']] emptyFS).1).2 = .success ∧
    Holds nd [['d']] (exec nd [['d']] .init (init [['d']] emptyFS).1).1 (some .empty) :=
  C92_init_again nd _ emptyFS _ none emptyFS_fresh (.inr (.inr rfl))

/-- C92: run again, gc-clean completes what a killed gc-clean began (it may end with an error message, if there is nothing left to remove). -/
theorem C92_clean_again (nd : Char → Bool) (root : FPath) (fs fs' : FS) (S : Option SetGraph) (h : Holds nd root fs S) (force : Bool)
    (answer : Text) (hk : Killed nd root (.clean force answer) fs fs') : Holds nd root (exec nd root (.clean true answer) fs').1 none := by
  obtain ⟨fs1, e, h1, h2, _⟩ := ((UsableFrom.killed (fs0 := fs) ⟨h.usable, Elsewhere.refl root fs⟩ hk).1).clean_fresh
  show Holds nd root (gcClean root true answer fs').1 none
  unfold gcClean
  rw [if_neg (by simp), h1, expectOk_fst]
  exact h2

/-- `C92_clean_again` for a gc-clean killed at its end, over the graph of one edge: run again, it leaves no graph. -/
example (nd : Char → Bool) : Holds nd [['d']]
    (exec nd [['d']] (.clean true []) (clean [['d']] (sampleFS (Gcmd.commandsText [.AddEdge 1 2]))).1).1 none :=
  C92_clean_again nd _ _ _ _ (sample_holds nd [.AddEdge 1 2]) true []
    (.inr ⟨rfl, .inr ⟨_, Prod.ext rfl (by decide +kernel), .inr (.inr rfl)⟩⟩)

/-- A killed gc-init that had created the file, and a killed gc-clean that had removed the file but not the directory. -/
example (nd : Char → Bool) : Killed nd [['d']] .init emptyFS (init [['d']] emptyFS).1 ∧ Holds nd [['d']] emptyFS none ∧
    loadGraph nd [['d']] (init [['d']] emptyFS).1 = .done (.ok .new) :=
  ⟨.inr (.inr rfl), emptyFS_fresh, rfl⟩

example (nd : Char → Bool) : ∃ fs', Killed nd [['d']] (.clean true []) (sampleFS []) fs' ∧ fs' (rootPath [['d']]) = some .dir ∧
    loadGraph nd [['d']] fs' = .done (.error (.io .notFound)) := by
  refine ⟨(lock [['d']] (sampleFS [])).1.set (commandPath [['d']]) none, .inr ⟨rfl, .inr ⟨_, Prod.ext rfl (by decide +kernel), .inl ⟨?_, ?_⟩⟩⟩,
    by decide +kernel, ?_⟩
  · intro q
    by_cases hq : q = commandPath [['d']]
    · subst hq
      exact .inr ⟨⟨[commandsFile], rfl⟩, FS.set_self _ _ _⟩
    · exact .inl (FS.set_other _ _ hq)
  · intro q r hqr h1 h2
    by_cases hr : r = commandPath [['d']]
    · subst hr; exact FS.set_self _ _ _
    · have hq : q = commandPath [['d']] := by
        by_contra hq
        rw [FS.set_other _ _ hq] at h2
        exact h1 h2
      subst hq
      rw [FS.set_other _ _ hr]
      obtain ⟨x, rfl⟩ := hqr
      have hx : x ≠ [] := by rintro rfl; simp at hr
      have e : (lock [['d']] (sampleFS [])).1 = touched [['d']] lockFile (sampleFS []) := by
        have h := touch_ok (d := [['d']]) (x := lockFile) (fs := sampleFS []) (sampleFS_ready []).usable.dirPossible (by decide)
        exact congrArg Prod.fst h
      have hlen : (commandPath [['d']] ++ x).length > 3 := by
        rw [List.length_append]
        have : 0 < x.length := List.length_pos_iff.2 hx
        have : (commandPath [['d']]).length = 3 := rfl
        omega
      have ne : ∀ y : FPath, y.length ≤ 3 → commandPath [['d']] ++ x ≠ y := by
        rintro y hy rfl
        omega
      rw [e, touched_other (ne _ (by simp)) (fun h => by have := h.length_le; rw [List.length_singleton] at this; omega)]
      unfold sampleFS
      rw [if_neg (by rintro (h | h | h) <;> exact ne _ (by simp [rootPath]) h), if_neg (ne _ (by decide))]
  · unfold loadGraph
    rw [FS.set_self]

/-! ### C93 -/

/-- C93 (partial): all possible outcomes when gc-random is killed: the old graph, no graph, the graph made of the first commands of the new file,
possibly with the last id cut short, or an error. Missing: the claim allows only the old and the new graph, see `C93_counterexample`. -/
theorem C93_killed_outcomes_partial (nd : Char → Bool) (root : FPath) (fs fs' : FS) (g : DirectedGraph) (order : DirectedGraph → DirectedGraph)
    (force : Bool) (answer : Text) (hk : Killed nd root (.random g order force answer) fs fs') :
    loadGraph nd root fs' = loadGraph nd root fs ∨
    loadGraph nd root fs' = .done (.error (.io .notFound)) ∨
    (∃ k, loadGraph nd root fs' = .done (.ok (GraphCommand.applyCommands ((GraphCommand.asCommands (order g)).take k) .new))) ∨
    (∃ k c c', (GraphCommand.asCommands (order g))[k]? = some c ∧ Truncated c c' ∧
      loadGraph nd root fs' = .done (.ok (GraphCommand.applyCommands ((GraphCommand.asCommands (order g)).take k ++ [c']) .new))) ∨
    (∃ k c l, (GraphCommand.asCommands (order g))[k]? = some c ∧ l <+: Gcmd.commandIntoLine c ∧
      loadGraph nd root fs' = .done (.error (.parse (.atLine (k + 1) l)))) := by
  rcases killedRandom_command hk with h | h | ⟨p, hp, h⟩
  · exact .inl (loadGraph_congr h)
  · right; left
    unfold loadGraph
    rw [h]
  · right; right
    rw [gcmd_save_eq] at hp
    obtain ⟨k, _, hor⟩ := C15_crash_outcomes_partial nd [] p [] _ (.inl rfl) rfl hp
    rw [List.nil_append] at hor
    rcases hor with hor | ⟨c, c', h1, h2, hor⟩ | ⟨c, l, h1, h2, hor⟩
    · exact .inl ⟨k, loadGraph_commands h hor⟩
    · exact .inr (.inl ⟨k, c, c', h1, h2, loadGraph_commands h hor⟩)
    · refine .inr (.inr ⟨k, c, l, h1, h2, ?_⟩)
      rw [loadGraph_error h hor]
      simp [lines, linesAux]

/-- C93 (partial): after a kill, gc-init and gc-random give the new graph. -/
theorem C93_again_partial (nd : Char → Bool) (root : FPath) (fs fs' : FS) (S : Option SetGraph) (h : Holds nd root fs S) (g g' : DirectedGraph)
    (order order' : DirectedGraph → DirectedGraph) (hg : Built g') (ho : IsOrder order') (force : Bool) (answer answer' : Text)
    (hk : Killed nd root (.random g order force answer) fs fs') :
    ∃ fs2, session nd root [.init, .random g' order' true answer'] fs' = (fs2, [.success, .success]) ∧ Holds nd root fs2 (some g'.toSet) := by
  obtain ⟨fs1, h1, h2, _⟩ := ((UsableFrom.killed (fs0 := fs) ⟨h.usable, Elsewhere.refl root fs⟩ hk).1).init
  obtain ⟨fs2, h3, h4⟩ := Ready.random (nd := nd) h2 hg ho (answer := answer')
  refine ⟨fs2, ?_, h4⟩
  have e1 : exec nd root .init fs' = (fs1, .success) := by
    show expectOk (Store.init root fs') = _
    rw [h1]; rfl
  unfold session
  rw [e1]
  dsimp only
  unfold session
  rw [h3]
  rfl

/-- `C93_again_partial` for a gc-random killed once it had removed the old graph: gc-init and gc-random, run again, leave the new one. -/
example (nd : Char → Bool) : ∃ fs2, session nd [['d']] [.init, .random (graphOf [.AddEdge 3 4]) id true []]
      (clean [['d']] (sampleFS (Gcmd.commandsText [.AddEdge 1 2]))).1 = (fs2, [.success, .success]) ∧
    Holds nd [['d']] fs2 (some (graphOf [.AddEdge 3 4]).toSet) :=
  C93_again_partial nd _ _ _ _ (sample_holds nd [.AddEdge 1 2]) (graphOf [.AddEdge 5 6]) _ id _ (graphOf_built _) isOrder_id true [] []
    (.inr ⟨rfl, .inl (.inr ⟨_, Prod.ext rfl (by decide +kernel), .inr (.inr rfl)⟩)⟩)

/-- C93 is false: gc-random is killed after it has removed the old graph (vertex 7): there is no graph any more; or after it has created the new
file: an empty graph is loaded. The new graph has the vertex 1. -/
theorem C93_counterexample (nd : Char → Bool) :
    ∃ g fs1 fs2, loadGraph nd [['d']] (sampleFS "AddVertex 7\n".toList) = .done (.ok (DirectedGraph.new.addVertex 7).2) ∧
      g = (DirectedGraph.new.addVertex 1).2 ∧
      Killed nd [['d']] (.random g id true []) (sampleFS "AddVertex 7\n".toList) fs1 ∧
      loadGraph nd [['d']] fs1 = .done (.error (.io .notFound)) ∧
      Killed nd [['d']] (.random g id true []) (sampleFS "AddVertex 7\n".toList) fs2 ∧ loadGraph nd [['d']] fs2 = .done (.ok .new) := by
  refine ⟨_, (clean [['d']] (sampleFS "AddVertex 7\n".toList)).1, (init [['d']] (clean [['d']] (sampleFS "AddVertex 7\n".toList)).1).1, rfl, rfl, ?_,
    ?_, ?_, loadGraph_commands (c := []) (by unfold Content; decide +kernel) rfl⟩
  · exact .inr ⟨rfl, .inl (.inr ⟨_, Prod.ext rfl (by decide +kernel), .inr (.inr rfl)⟩)⟩
  · have h : (clean [['d']] (sampleFS "AddVertex 7\n".toList)).1 (commandPath [['d']]) = none := by decide +kernel
    unfold loadGraph
    rw [h]
  · exact .inr ⟨rfl, .inr ⟨by decide +kernel, .inl (.inr (.inr rfl))⟩⟩

end GC
