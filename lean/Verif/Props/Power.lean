/-
Property C132: what a power failure leaves of a session.
-/
import Verif.Model.Power
import Verif.Props.Crash
import Verif.Proofs.Samples
namespace GC
open Text Format Store

theorem killed_refl (nd : Char → Bool) (root : FPath) (cmd : Cmd) (hc : cmd.OnlyAppends) (fs : FS) : Killed nd root cmd fs fs := by
  cases cmd with
  | init => exact .inl rfl
  | add a => exact .inl (.inl rfl)
  | delete v e => exact .inl (.inl rfl)
  | build _ => cases hc
  | clean _ _ => cases hc
  | random _ _ _ _ => cases hc

theorem appends_session (nd : Char → Bool) (root : FPath) (cmds : List Cmd) (hc : ∀ cmd ∈ cmds, cmd.OnlyAppends) (fs : FS) (G : SetGraph)
    (h : Holds nd root fs (some G)) : ∃ cs, Holds nd root (session nd root cmds fs).1 (some (G.run cs)) := by
  induction cmds generalizing fs G with
  | nil => exact ⟨[], h⟩
  | cons cmd cmds ih =>
    obtain ⟨cs, h1, _⟩ := C91_killed_mutation_partial nd root fs fs G h cmd (hc cmd List.mem_cons_self)
      (killed_refl nd root cmd (hc cmd List.mem_cons_self) fs)
    obtain ⟨ds, h2⟩ := ih (fun c hcm => hc c (List.mem_cons_of_mem _ hcm)) _ _ h1
    exact ⟨cs ++ ds, by rw [show G.run (cs ++ ds) = (G.run cs).run ds from List.foldl_append]; exact h2⟩

/-- C132 (partial): after a session of gc-init, gc-add and gc-delete, a power failure leaves the graph with a first part of the commands that the
session stored, or such a graph and a piece of the next line at the end of the file (C91). What was stored before the session stays.
Missing: that the whole session is there, which is false (`C132_counterexample`). -/
theorem C132_appends_partial (nd : Char → Bool) (root : FPath) (fs fs' : FS) (G : SetGraph) (h : Holds nd root fs (some G)) (cmds : List Cmd)
    (hc : ∀ cmd ∈ cmds, cmd.OnlyAppends) (hp : PowerLoss nd root cmds fs fs') :
    ∃ cs, Holds nd root (session nd root cmds fs).1 (some (G.run cs)) ∧
      ∃ k, k ≤ cs.length ∧ (Holds nd root fs' (some (G.run (cs.take k))) ∨
        ∃ c t next base, Ready root fs' ∧ Content root fs' (c ++ t) ∧ NewlineTerminated c ∧ Gcmd.readAsCommands nd c = .done (.ok base) ∧
          (GraphCommand.applyCommands base .new).toSet = G.run (cs.take k) ∧
          cs[k]? = some next ∧ t ≠ [] ∧ t <+: Gcmd.commandIntoLine next) := by
  have run : ∀ a b, G.run (a ++ b) = (G.run a).run b := fun a b => List.foldl_append
  obtain ⟨before, lost, rfl, hor⟩ := hp
  obtain ⟨cs, h1⟩ := appends_session nd root before (fun c hcm => hc c (List.mem_append_left _ hcm)) fs G h
  rw [session_append]
  rcases hor with rfl | ⟨cmd, rest, rfl, hk⟩
  · obtain ⟨ds, h2⟩ := appends_session nd root lost (fun c hcm => hc c (List.mem_append_right _ hcm)) _ _ h1
    refine ⟨cs ++ ds, by rw [run]; exact h2, cs.length, by simp, .inl ?_⟩
    rw [List.take_left]
    exact h1
  · obtain ⟨ds, h2, k, hk, hor⟩ := C91_killed_mutation_partial nd root _ fs' _ h1 cmd (hc cmd (by simp)) hk
    obtain ⟨es, h3⟩ := appends_session nd root rest (fun c hcm => hc c (by simp [hcm])) _ _ h2
    have e1 : (cs ++ (ds ++ es)).take (cs.length + k) = cs ++ ds.take k := by
      rw [List.take_append, List.take_of_length_le (by omega), Nat.add_sub_cancel_left, List.take_append_of_le_length hk]
    refine ⟨cs ++ (ds ++ es), ?_, cs.length + k, by simp; omega, ?_⟩
    · rw [run, show (G.run cs).run (ds ++ es) = ((G.run cs).run ds).run es from List.foldl_append]
      exact h3
    · rw [e1, run]
      rcases hor with hor | ⟨c, t, next, base, a1, a2, a3, a4, a5, a6, a7⟩
      · exact .inl hor
      · refine .inr ⟨c, t, next, base, a1, a2, a3, a4, a5, ?_, a7⟩
        rw [List.getElem?_append_right (by omega), Nat.add_sub_cancel_left, List.getElem?_append_left (List.getElem?_eq_some_iff.1 a6).1]
        exact a6

/-- C132 (partial): the same when the disk has, of every file and directory, a state of its own moment.
Missing: that the whole session is there, which is false (`C132_counterexample`). -/
theorem C132_appends_each_partial (nd : Char → Bool) (root : FPath) (fs fs' : FS) (G : SetGraph) (h : Holds nd root fs (some G)) (cmds : List Cmd)
    (hc : ∀ cmd ∈ cmds, cmd.OnlyAppends) (hp : PowerLossEach nd root cmds fs fs') :
    ∃ cs, Holds nd root (session nd root cmds fs).1 (some (G.run cs)) ∧
      ∃ k, k ≤ cs.length ∧ (Holds nd root fs' (some (G.run (cs.take k))) ∨
        ∃ c t next base, Ready root fs' ∧ Content root fs' (c ++ t) ∧ NewlineTerminated c ∧ Gcmd.readAsCommands nd c = .done (.ok base) ∧
          (GraphCommand.applyCommands base .new).toSet = G.run (cs.take k) ∧
          cs[k]? = some next ∧ t ≠ [] ∧ t <+: Gcmd.commandIntoLine next) := by
  have ready : ∀ fs1, PowerLoss nd root cmds fs fs1 → Ready root fs1 := by
    intro fs1 h1
    obtain ⟨_, _, _, _, h2 | ⟨_, _, _, _, h2, _⟩⟩ := C132_appends_partial nd root fs fs1 G h cmds hc h1
    · exact h2.1
    · exact h2
  have hr : Ready root fs' := by
    refine ⟨fun q hq => ?_, ?_, ?_⟩
    · obtain ⟨fs1, h1, e⟩ := hp q
      rw [e]
      exact (ready fs1 h1).1 q hq
    · obtain ⟨fs1, h1, e⟩ := hp (commandPath root)
      unfold FileAt
      rw [e]
      exact (ready fs1 h1).2.1
    · obtain ⟨fs1, h1, e⟩ := hp (lockPath root)
      rw [e]
      exact (ready fs1 h1).2.2
  obtain ⟨fs1, h1, e⟩ := hp (commandPath root)
  obtain ⟨cs, h2, k, hk, hor⟩ := C132_appends_partial nd root fs fs1 G h cmds hc h1
  refine ⟨cs, h2, k, hk, ?_⟩
  rcases hor with ⟨_, c, g, a1, a2⟩ | ⟨c, t, next, base, _, a1, a2⟩
  · exact .inl ⟨hr, c, g, e.trans a1, a2⟩
  · exact .inr ⟨c, t, next, base, hr, e.trans a1, a2⟩

/-- C132 (partial): after any session, a power failure leaves what the history of some first commands says, or what a killed next command
leaves (C91 to C93). Nothing outside `.graph` was touched but the lock file, and gc-clean and gc-init start again with an empty graph.
Missing: that the whole session is there, which is false (`C132_counterexample`). -/
theorem C132_any_session_partial (nd : Char → Bool) (root : FPath) (fs fs' : FS) (S : Option SetGraph) (h : Holds nd root fs S) (cmds : List Cmd)
    (hc : ∀ cmd ∈ cmds, cmd.Proper) (hp : PowerLoss nd root cmds fs fs') (answer : Text) :
    (∃ before lost S' es, cmds = before ++ lost ∧ History before S S' es ∧
      (Holds nd root fs' S' ∨ ∃ cmd rest fs1, lost = cmd :: rest ∧ Holds nd root fs1 S' ∧ Killed nd root cmd fs1 fs')) ∧
    Elsewhere root fs fs' ∧
    ∃ fs2 e, session nd root [.clean true answer, .init] fs' = (fs2, [e, .success]) ∧ Holds nd root fs2 (some .empty) := by
  obtain ⟨before, lost, rfl, hor⟩ := hp
  obtain ⟨S', h1, _, h2, _⟩ := C75_session nd root before (fun c hcm => hc c (List.mem_append_left _ hcm)) fs S h
  have cs : ∀ (l : List Cmd) (fs fs' : FS) (tl : List (Cmd × Bool)), CrashSession nd root tl (session nd root l fs).1 fs' →
      CrashSession nd root (l.map (·, false) ++ tl) fs fs' := by
    intro l
    induction l with
    | nil => exact fun _ _ _ h => h
    | cons c l ih => exact fun fs fs' tl h => .ran (ih _ _ _ h)
  rcases hor with rfl | ⟨cmd, rest, rfl, hk⟩
  · exact ⟨⟨before, lost, S', _, rfl, h1, .inl h2⟩, C91_recovery_partial nd root fs _ S h _ (cs before fs _ [] .nil) answer⟩
  · exact ⟨⟨before, _, S', _, rfl, h1, .inr ⟨cmd, rest, _, rfl, h2, hk⟩⟩,
      C91_recovery_partial nd root fs fs' S h _ (cs before fs fs' [(cmd, true)] (.killed hk .nil)) answer⟩

theorem sampleFS_truncated (c : Text) : appendText (commandPath [['d']]) [] (createTruncate (commandPath [['d']]) (sampleFS c)).1 = sampleFS [] := by
  funext q
  by_cases hq : q = commandPath [['d']]
  · subst hq; rfl
  · have h1 : (createTruncate (commandPath [['d']]) (sampleFS c)).1 = (sampleFS c).set (commandPath [['d']]) (some (.file [])) := rfl
    have h2 : appendText (commandPath [['d']]) [] ((sampleFS c).set (commandPath [['d']]) (some (.file []))) =
      ((sampleFS c).set (commandPath [['d']]) (some (.file []))).set (commandPath [['d']]) (some (.file [])) := rfl
    rw [h1, h2]
    simp only [FS.set, sampleFS, if_neg hq]

theorem sampleFS_five (nd : Char → Bool) :
    Holds nd [['d']] (sampleFS "AddVertex 5\n".toList) (some (SetGraph.empty.run [.AddVertex 5])) ∧
    loadGraph nd [['d']] (sampleFS "AddVertex 5\n".toList) = .done (.ok (GraphCommand.applyCommands [.AddVertex 5] .new)) := by
  have hc : Content [['d']] (sampleFS "AddVertex 5\n".toList) "AddVertex 5\n".toList := by unfold Content; decide +kernel
  have h5 : loadGraph nd [['d']] (sampleFS "AddVertex 5\n".toList) = .done (.ok (GraphCommand.applyCommands [.AddVertex 5] .new)) :=
    loadGraph_commands hc rfl
  exact ⟨⟨sampleFS_ready _, _, GraphCommand.applyCommands [.AddVertex 5] .new, hc, .inr rfl, rfl, by
    rw [toSet_applyCommands WF.new, toSet_new]⟩, h5⟩

/-- C132 is false: gc-add ends with success and a power failure takes the vertex; and gc-build ends with success and a power failure takes the whole
graph, although it was on the disk before. -/
theorem C132_counterexample (nd : Char → Bool) :
    ((exec nd [['d']] (.add { vertex := some ["5".toList] }) (sampleFS [])).2 = .success ∧
      PowerLoss nd [['d']] [.add { vertex := some ["5".toList] }] (sampleFS []) (sampleFS []) ∧
      Holds nd [['d']] (sampleFS []) (some .empty)) ∧
    (exec nd [['d']] (.build id) (sampleFS "AddVertex 5\n".toList)).2 = .success ∧
      PowerLoss nd [['d']] [.build id] (sampleFS "AddVertex 5\n".toList) (sampleFS []) ∧
      Holds nd [['d']] (sampleFS "AddVertex 5\n".toList) (some (SetGraph.empty.run [.AddVertex 5])) := by
  refine ⟨⟨?_, ⟨[], _, rfl, .inl rfl⟩, sampleFS_holds nd⟩, ?_, ⟨[], _, rfl, .inr ⟨_, _, rfl, .inr ⟨_, (sampleFS_five nd).2, .inr ⟨[], List.nil_prefix, ?_⟩⟩⟩⟩,
    (sampleFS_five nd).1⟩
  · have : (gcAdd [['d']] { vertex := some ["5".toList] } (sampleFS [])).2 = .success := by decide +kernel
    exact this
  · exact (C91_build_repairs_partial nd _ _ (sampleFS_ready _) _ (sampleFS_five nd).2 id isOrder_id).1
  · exact (sampleFS_truncated _).symm

/-- The hypotheses of `C132_appends_each_partial`: a killed gc-add (`tornFS`) of which the command file is on the disk and the lock file is not. -/
example (nd : Char → Bool) : ∃ fs', PowerLossEach nd [['d']] [.add { vertex := some ["12".toList] }] (sampleFS []) fs' ∧
    fs' (commandPath [['d']]) = some (.file "AddVertex 1".toList) ∧ fs' (lockPath [['d']]) = none ∧ tornFS (lockPath [['d']]) ≠ none := by
  refine ⟨tornFS.set (lockPath [['d']]) none, fun q => ?_, by decide +kernel, by decide +kernel, by decide +kernel⟩
  by_cases hq : q = lockPath [['d']]
  · exact ⟨sampleFS [], ⟨[], _, rfl, .inl rfl⟩, by subst hq; decide +kernel⟩
  · exact ⟨tornFS, ⟨[], _, rfl, .inr ⟨_, _, rfl, tornFS_killed nd⟩⟩, by simp only [FS.set, if_neg hq]⟩

/-- The hypotheses of `C132_appends_partial` and `C132_any_session_partial`: of three commands the first is on the disk, a piece of the second, and
nothing of the third. -/
example (nd : Char → Bool) : Holds nd [['d']] (sampleFS []) (some .empty) ∧
    (∀ cmd ∈ [Cmd.add { vertex := some ["7".toList] }, .add { vertex := some ["12".toList] }, .delete (some ["3".toList]) none],
      cmd.OnlyAppends ∧ cmd.Proper) ∧
    ∃ fs', fs' (commandPath [['d']]) = some (.file "AddVertex 7\nAddVertex 1".toList) ∧
      PowerLoss nd [['d']] [.add { vertex := some ["7".toList] }, .add { vertex := some ["12".toList] }, .delete (some ["3".toList]) none]
        (sampleFS []) fs' := by
  refine ⟨sampleFS_holds nd, by simp [Cmd.OnlyAppends, Cmd.Proper],
    appendText (commandPath [['d']]) "AddVertex 1".toList (lock [['d']] (gcAdd [['d']] { vertex := some ["7".toList] } (sampleFS [])).1).1,
    by decide +kernel, [.add { vertex := some ["7".toList] }], _, rfl, .inr ⟨_, _, rfl, ?_⟩⟩
  show Killed nd [['d']] _ (gcAdd [['d']] { vertex := some ["7".toList] } (sampleFS [])).1 _
  exact .inl (.inr ⟨_, [.AddVertex 12], rfl, by decide +kernel, .inr ⟨_, Prod.ext rfl (by decide +kernel),
    .inl ⟨_, ⟨"2\n".toList, by decide +kernel⟩, rfl⟩⟩⟩)

end GC
