/-
Property C80: queries while gc-build runs.
-/
import Verif.Proofs.BuildReaders
import Verif.Props.Concurrent
namespace GC
namespace Concurrent
open Store Text Format

variable (nd : Char → Bool) (order : Nat → DirectedGraph → DirectedGraph)

/-- The small-step model agrees with the model of the single program: gc-build run alone does what `gcBuild` does, on every file system, also
where it fails. -/
theorem C80_alone (root : FPath) (fs : FS) :
    ∃ n, ∀ m, n ≤ m →
      (run nd order root [.build] (List.replicate m 0) fs).fs = (gcBuild nd (order 0) root fs).1 ∧
      ((gcBuild nd (order 0) root fs).2 = .success → (run nd order root [.build] (List.replicate m 0) fs).pc 0 = .finished true) ∧
      ((gcBuild nd (order 0) root fs).2 = .panic → (run nd order root [.build] (List.replicate m 0) fs).pc 0 = .finished false) := by
  obtain ⟨n0, hn0⟩ := C78_alone nd order root fs
  obtain ⟨-, hq⟩ := hn0 n0 (Nat.le_refl _)
  obtain ⟨-, h2⟩ := run_query_alone nd order root n0 ⟨fs, fun _ => .start⟩
  obtain ⟨k, hk⟩ := iterBuild_load (order 0) n0 (.inl rfl) (h2.symm.trans hq)
  have key : ∃ n, ∀ m, n ≤ m → iterBuild nd (order 0) root m .start fs =
      ((gcBuild nd (order 0) root fs).1, .finished (match (gcBuild nd (order 0) root fs).2 with | .success => true | .panic => false)) := by
    have fin : ∀ res, loadGraph nd root fs = res → afterLoad (order 0) res = .finished false → gcBuild nd (order 0) root fs = (fs, .panic) →
        ∃ n, ∀ m, n ≤ m → iterBuild nd (order 0) root m .start fs =
          ((gcBuild nd (order 0) root fs).1, .finished (match (gcBuild nd (order 0) root fs).2 with | .success => true | .panic => false)) := by
      intro res hres ha hb
      refine ⟨k, fun m hm => ?_⟩
      obtain ⟨j, rfl⟩ : ∃ j, m = j + k := ⟨m - k, by omega⟩
      rw [hk, hres, ha, iterBuild_finished, hb]
    unfold gcBuild at fin ⊢
    rcases hl : loadGraph nd root fs with _ | _ | (e | g)
    · rw [hl] at fin; exact fin _ rfl rfl rfl
    · rw [hl] at fin; exact fin _ rfl rfl rfl
    · rw [hl] at fin; exact fin _ rfl rfl rfl
    · obtain ⟨k', hk'⟩ := iterBuild_loaded nd (order 0) root (order 0 g) fs
      refine ⟨k' + k, fun m hm => ?_⟩
      obtain ⟨j, rfl⟩ : ∃ j, m = j + k := ⟨m - k, by omega⟩
      rw [hk, hl]
      simp only [afterLoad]
      rw [hk' j (by omega)]
      unfold expectOk
      rcases saveGraphAsCommands root (order 0 g) fs with ⟨fs1, _ | _⟩ <;> rfl
  obtain ⟨n, h⟩ := key
  refine ⟨n, fun m hm => ?_⟩
  have h := (run_build_alone nd order root m ⟨fs, fun _ => .start⟩).trans (h m hm)
  rw [Prod.mk.injEq] at h
  refine ⟨h.1, fun e => ?_, fun e => ?_⟩
  · have := h.2; rw [e] at this; exact this
  · have := h.2; rw [e] at this; exact this

/-- C80 (partial): one gc-build and any number of queries, any schedule. A query that is answered before gc-build begins to write loads the
stored graph, and so does a query that begins after gc-build returned (vertices and edges are the same).
Missing: queries that are running while gc-build writes (`C80_counterexample`). -/
theorem C80_outside_partial (ho : ∀ i, IsOrder (order i)) (root : FPath) (jobs : List Job) (b : Nat) (hb : jobs[b]? = some .build)
    (hj : ∀ (j : Nat) (job : Job), jobs[j]? = some job → j = b ∨ job = .query)
    (before after : List Nat) (fs : FS) (c : Text) (g : DirectedGraph)
    (hc : Content root fs c) (ht : NewlineTerminated c) (hg : loadGraph nd root fs = .done (.ok g))
    (i : Nat) (hi : jobs[i]? = some .query) (res : Run (Except LoadError DirectedGraph)) :
    ((run nd order root jobs before fs).pc i = .answered res → NotWritten ((run nd order root jobs before fs).pc b) →
      res = .done (.ok g)) ∧
    (Finished ((run nd order root jobs before fs).pc b) → (run nd order root jobs before fs).pc i = .start →
      (run nd order root jobs (before ++ after) fs).pc i = .answered res →
      ∃ g', res = .done (.ok g') ∧ SameGraph g' g) := by
  have h0 : BuildInv nd root jobs b (order b g) fs c (fun _ => False) (run nd order root jobs before fs) :=
    buildInv_init.run hb hj hc ht hg before
  constructor
  · intro hres he
    have := h0.early he i hi
    rw [hres] at this
    cases this with
    | answered => rw [← loadGraph_lines hc]; exact hg
  · intro hf hs hres
    have h1 : BuildInv nd root jobs b (order b g) fs c (fun j => j = i) (run nd order root jobs before fs) :=
      ⟨h0.build, h0.early, fun j hjq hji => by subst hji; rw [hs]; exact ⟨hf, .start⟩⟩
    have h2 := h1.run (order := order) hb hj hc ht hg after
    unfold run at hres h2
    rw [List.foldl_append] at hres
    have h3 := (h2.late i hi rfl).2
    rw [hres] at h3
    obtain ⟨hbg, -⟩ := loadGraph_built hg
    obtain ⟨g', h4, -, h5⟩ := C09_gcmd_round_trip nd (order b g) (hbg.reorder (ho b g))
    have hcont : Content root (fs.set (commandPath root) (some (.file (Gcmd.save (order b g))))) (Gcmd.save (order b g)) := FS.set_self _ _ _
    have h6 := (loadGraph_content (nd := nd) hcont).2 h4
    rw [loadGraph_lines hcont] at h6
    cases h3 with
    | answered =>
      refine ⟨g', h6, ?_⟩
      rw [sameGraph_iff] at h5 ⊢
      rw [h5]
      exact toSet_perm hbg.wf (ho b g)

/-- C80 (partial): gc-build killed between any two of its system calls (queries may be running): the file then loads to the old graph, to a
part of it, or gives a parse error. Nothing appears that was not in the graph. See `C17_crash_outcomes_partial` for crashes that cut a single
`write`. -/
theorem C80_killed_partial (ho : ∀ i, IsOrder (order i)) (root : FPath) (jobs : List Job) (b : Nat) (hb : jobs[b]? = some .build)
    (hj : ∀ (j : Nat) (job : Job), jobs[j]? = some job → j = b ∨ job = .query)
    (schedule : List Nat) (fs : FS) (c : Text) (g : DirectedGraph)
    (hc : Content root fs c) (ht : NewlineTerminated c) (hg : loadGraph nd root fs = .done (.ok g)) :
    (∃ e, loadGraph nd root (run nd order root jobs schedule fs).fs = .done (.error (.parse e))) ∨
    ∃ g', loadGraph nd root (run nd order root jobs schedule fs).fs = .done (.ok g') ∧
      (∀ v, g'.containsVertex v = true → g.containsVertex v = true) ∧ (∀ e, g'.containsEdge e = true → g.containsEdge e = true) ∧
      (NotWritten ((run nd order root jobs schedule fs).pc b) ∨ Finished ((run nd order root jobs schedule fs).pc b) → SameGraph g' g) := by
  have h0 : BuildInv nd root jobs b (order b g) fs c (fun _ => False) (run nd order root jobs schedule fs) :=
    buildInv_init.run hb hj hc ht hg schedule
  have hbuild := h0.build
  obtain ⟨hbg, -⟩ := loadGraph_built hg
  have hbo : Built (order b g) := hbg.reorder (ho b g)
  have hsame : SameGraph (order b g) g := by
    rw [sameGraph_iff]
    exact toSet_perm hbg.wf (ho b g)
  generalize (run nd order root jobs schedule fs).fs = fs' at hbuild ⊢
  generalize (run nd order root jobs schedule fs).pc b = pc at hbuild ⊢
  have hold : (∃ e, loadGraph nd root fs = .done (.error (.parse e))) ∨ ∃ g', loadGraph nd root fs = .done (.ok g') ∧
      (∀ v, g'.containsVertex v = true → g.containsVertex v = true) ∧ (∀ e, g'.containsEdge e = true → g.containsEdge e = true) ∧
      (NotWritten pc ∨ Finished pc → SameGraph g' g) :=
    .inr ⟨g, hg, fun _ h => h, fun _ h => h, fun _ => ⟨fun _ => rfl, fun _ => rfl⟩⟩
  cases hbuild with
  | start => exact hold
  | reading => exact hold
  | loaded => exact hold
  | @rewriting done rest hd =>
    have hcont : Content root (fs.set (commandPath root) (some (.file done.flatten))) done.flatten := FS.set_self _ _ _
    rw [loadGraph_lines hcont]
    rcases cutText_saveWrites nd (order b g) hd with ⟨n, h⟩ | h
    · right
      have h1 := loadLines_readsAs (h.reads (nd := nd) (base := []) (bcs := []) (.inl rfl) .nil)
      rw [List.nil_append, List.nil_append] at h1
      obtain ⟨s1, s2⟩ := asCommands_take_sub hbo.wf n
      refine ⟨_, h1, fun v hv => ?_, fun e he => ?_, ?_⟩
      · rw [← hsame.1]; exact s1 v hv
      · rw [← hsame.2]; exact s2 e he
      · rintro (((h | ⟨_, h⟩) | ⟨_, h⟩) | ⟨_, h⟩) <;> cases h
    · exact .inl h.load
  | finished =>
    right
    obtain ⟨g', h4, -, h5⟩ := C09_gcmd_round_trip nd (order b g) hbo
    have h6 : SameGraph g' g := ⟨fun v => (h5.1 v).trans (hsame.1 v), fun e => (h5.2 e).trans (hsame.2 e)⟩
    exact ⟨g', (loadGraph_content (FS.set_self _ _ _)).2 h4, fun v hv => by rw [← h6.1]; exact hv, fun e he => by rw [← h6.2]; exact he,
      fun _ => h6⟩

/-- `C80_outside_partial` and `C80_killed_partial` for the build of a file with two commands, with a query before it wrote and one after. -/
example : ∃ g', (run (fun _ => false) (fun _ => id) [['d']] [.build, .query, .query] ([1, 0, 1, 0, 1, 0, 0, 0, 0] ++ [2, 2, 2])
      (sampleFS "AddEdge 1 2\nRemoveEdge 1 2\n".toList)).pc 2 = .answered (.done (.ok g')) ∧
    SameGraph g' (GraphCommand.applyCommands [.AddEdge 1 2, .RemoveEdge 1 2] .new) ∧
    ∀ schedule, (∃ e, loadGraph (fun _ => false) [['d']] (run (fun _ => false) (fun _ => id) [['d']] [.build, .query, .query] schedule
        (sampleFS "AddEdge 1 2\nRemoveEdge 1 2\n".toList)).fs = .done (.error (.parse e))) ∨
      ∃ g', loadGraph (fun _ => false) [['d']] (run (fun _ => false) (fun _ => id) [['d']] [.build, .query, .query] schedule
        (sampleFS "AddEdge 1 2\nRemoveEdge 1 2\n".toList)).fs = .done (.ok g') ∧ ∀ e, g'.containsEdge e = true →
          DirectedGraph.containsEdge (GraphCommand.applyCommands [.AddEdge 1 2, .RemoveEdge 1 2] .new) e = true := by
  have hj : ∀ (j : Nat) (job : Job), [Job.build, .query, .query][j]? = some job → j = 0 ∨ job = .query := by
    rintro (_ | _ | _ | i) job h <;> simp at h <;> simp [h]
  have ht : NewlineTerminated "AddEdge 1 2\nRemoveEdge 1 2\n".toList := .inr (by decide)
  obtain ⟨res, hres⟩ := answered_of (pc := (run (fun _ => false) (fun _ => id) [['d']] [.build, .query, .query] ([1, 0, 1, 0, 1, 0, 0, 0, 0] ++ [2, 2, 2])
      (sampleFS "AddEdge 1 2\nRemoveEdge 1 2\n".toList)).pc 2) (by decide +kernel)
  obtain ⟨g', e, h⟩ := (C80_outside_partial (fun _ => false) (fun _ => id) (fun _ _ => .refl _) [['d']] _ 0 rfl hj _ _ _ _ _ (sampleFS_content _) ht
    (load_sample _ [.AddEdge 1 2, .RemoveEdge 1 2]) 2 rfl res).2 (finished_of (by decide +kernel)) (start_of (by decide +kernel)) hres
  refine ⟨g', hres.trans (congrArg _ e), h, fun schedule => ?_⟩
  exact (C80_killed_partial (fun _ => false) (fun _ => id) (fun _ _ => .refl _) [['d']] _ 0 rfl hj schedule _ _ _ (sampleFS_content _) ht
    (load_sample _ [.AddEdge 1 2, .RemoveEdge 1 2])).imp_right fun ⟨g', h1, _, h2, _⟩ => ⟨g', h1, h2⟩

/-- C80 is false. While gc-build (process 0) runs, a query (process 1) can load the empty graph; it can fail with a parse error; and it can
load an edge and a vertex that were never in the graph, made of the beginning of a line of the old file and the end of a line of the new
one (here the old file is small and its last line has no line feed; in general the line in which the first 8192 bytes end will do). In all
three cases gc-build returns normally and leaves a readable file. -/
theorem C80_counterexample :
    (∃ schedule, ∀ s, s = run (fun _ => false) (fun _ => id) [['d']] [.build, .query] schedule (sampleFS "AddVertex 1\n".toList) →
      (s.pc 0 matches .finished true) = true ∧
      (match s.pc 1 with | .answered (.done (.ok g)) => g.vertices.isEmpty | _ => false) = true ∧
      (match loadGraph (fun _ => false) [['d']] s.fs with | .done (.ok g) => g.containsVertex 1 | _ => false) = true) ∧
    (∃ schedule, ∀ s, s = run (fun _ => false) (fun _ => id) [['d']] [.build, .query] schedule (sampleFS "AddEdge 10 20\n".toList) →
      (s.pc 0 matches .finished true) = true ∧ (s.pc 1 matches .answered (.done (.error _))) = true ∧
      (match loadGraph (fun _ => false) [['d']] s.fs with | .done (.ok g) => g.containsEdge ⟨10, 20⟩ | _ => false) = true) ∧
    (∃ schedule, ∀ s, s = run (fun _ => false) (fun _ => id) [['d']] [.build, .query] schedule (sampleFS "AddEdge 1            2".toList) →
      (s.pc 0 matches .finished true) = true ∧
      (match s.pc 1, loadGraph (fun _ => false) [['d']] s.fs with
        | .answered (.done (.ok g)), .done (.ok g') => g.containsEdge ⟨1, 22⟩ && !g'.containsEdge ⟨1, 22⟩ && !g'.containsVertex 22
        | _, _ => false) = true) := by
  refine ⟨⟨[0, 0, 0, 0, 1, 1, 0, 0], ?_⟩, ⟨[0, 0, 0, 1, 1, 0, 0, 0, 1, 1], ?_⟩, ⟨[1, 1] ++ List.replicate 9 0 ++ [1, 1, 1], ?_⟩⟩
  · rintro _ rfl; decide +kernel
  · rintro _ rfl; decide +kernel
  · rintro _ rfl; decide +kernel

/-- One gc-build (process 0) and two queries, the first answered before gc-build writes, the other one begun after gc-build returned. -/
example : let jobs : List Job := [.build, .query, .query]
    let s1 := run (fun _ => false) (fun _ => id) [['d']] jobs [1, 0, 1, 0, 1, 0] (sampleFS "AddEdge 1 2\nRemoveEdge 1 2\n".toList)
    let s2 := run (fun _ => false) (fun _ => id) [['d']] jobs ([1, 0, 1, 0, 1, 0] ++ [0, 0, 0]) (sampleFS "AddEdge 1 2\nRemoveEdge 1 2\n".toList)
    let s3 := run (fun _ => false) (fun _ => id) [['d']] jobs ([1, 0, 1, 0, 1, 0] ++ [0, 0, 0] ++ [2, 2, 2]) (sampleFS "AddEdge 1 2\nRemoveEdge 1 2\n".toList)
    (s1.pc 1 matches .answered _) ∧ (s1.pc 0 matches .loaded _) ∧ (s2.pc 0 matches .finished _) ∧ (s2.pc 2 matches .start) ∧
      (s3.pc 2 matches .answered (.done (.ok _))) := by
  decide +kernel

end Concurrent
end GC
