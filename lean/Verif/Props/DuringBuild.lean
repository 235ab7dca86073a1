/-
Property C80: queries that run while gc-build writes.
-/
import Verif.Proofs.DuringBuild
import Verif.Spec.DuringBuild
import Verif.Props.Concurrent
namespace GC
namespace Concurrent
open Store Text Format

variable (nd : Char → Bool) (order : Nat → DirectedGraph → DirectedGraph)

/-- C80 (partial): one gc-build and any number of queries, any schedule, any size of the file. `cs` are the stored commands and `g` is the stored
graph. A query that is running while gc-build writes may panic or report a line it cannot parse. If it returns a graph, then this is the graph
of a beginning of the stored commands, then at most one other command, and then only additions of vertices and edges of `g`.
Missing: the query need not load `g` (`C80_counterexample`, which also shows an edge that nobody wrote, there in a file whose last line has
no line feed). -/
theorem C80_during_partial (ho : ∀ i, IsOrder (order i)) (root : FPath) (jobs : List Job) (b : Nat) (hb : jobs[b]? = some .build)
    (hj : ∀ (j : Nat) (job : Job), jobs[j]? = some job → j = b ∨ job = .query)
    (schedule : List Nat) (fs : FS) (c : Text) (cs : List GraphCommand) (g : DirectedGraph)
    (hc : Content root fs c) (ht : NewlineTerminated c)
    (hcs : Format.readAsCommands (Gcmd.parseLine nd) c = .done (.ok cs)) (hg : loadGraph nd root fs = .done (.ok g))
    (i : Nat) (hi : jobs[i]? = some .query) (res : Run (Except LoadError DirectedGraph))
    (hr : (run nd order root jobs schedule fs).pc i = .answered res) :
    res = .panicked ∨ (∃ e, res = .done (.error (.parse e))) ∨
    ∃ n extra tail, extra.length ≤ 1 ∧ (∀ x ∈ tail, x.AddsPartOf g) ∧
      res = .done (.ok (GraphCommand.applyCommands (cs.take n ++ extra ++ tail) .new)) := by
  have h1 := during_answer (order := order) hb hj hc ht hg schedule hi hr
  rcases h1.outcome ((readAsCommands_ok_iff (gcmd_no_running nd)).1 hcs) with h | h | ⟨n, extra, tail, h2, h3, h4⟩
  · exact .inl h
  · exact .inr (.inl h)
  · refine .inr (.inr ⟨n, extra, tail, h2, fun x hx => ?_, h4⟩)
    obtain ⟨hbg, -⟩ := loadGraph_built hg
    have hbo : Built (order b g) := hbg.reorder (ho b g)
    have hsame : SameGraph (order b g) g := by
      rw [sameGraph_iff]
      exact toSet_perm hbg.wf (ho b g)
    have h5 := h3 x hx
    rw [asCommands_eq, List.mem_append, List.mem_map, List.mem_map] at h5
    rcases h5 with ⟨v, h5, rfl⟩ | ⟨e, h5, rfl⟩
    · show g.containsVertex v = true
      rw [← hsame.1, ← mem_vertices]
      exact h5
    · show g.containsEdge e = true
      rw [← hsame.2, ← hbo.wf.mem_edges]
      exact h5

/-- C80 (partial): if the stored commands only add (gc-build, gc-import and gc-random leave such files, and so does gc-add), then at most one
command separates what a query can load while gc-build writes from a part of the stored graph: all vertices and edges that are not in the
stored graph come from it.
Missing: as for `C80_during_partial`. -/
theorem C80_during_additions_partial (ho : ∀ i, IsOrder (order i)) (root : FPath) (jobs : List Job) (b : Nat) (hb : jobs[b]? = some .build)
    (hj : ∀ (j : Nat) (job : Job), jobs[j]? = some job → j = b ∨ job = .query)
    (schedule : List Nat) (fs : FS) (c : Text) (cs : List GraphCommand) (g : DirectedGraph)
    (hc : Content root fs c) (ht : NewlineTerminated c)
    (hcs : Format.readAsCommands (Gcmd.parseLine nd) c = .done (.ok cs)) (hg : loadGraph nd root fs = .done (.ok g))
    (hadd : ∀ x ∈ cs, x.Adds)
    (i : Nat) (hi : jobs[i]? = some .query) (g' : DirectedGraph)
    (hr : (run nd order root jobs schedule fs).pc i = .answered (.done (.ok g'))) :
    ((∀ v, g'.containsVertex v = true → g.containsVertex v = true) ∧ (∀ e, g'.containsEdge e = true → g.containsEdge e = true)) ∨
    (∃ x, (∀ v, g'.containsVertex v = true → g.containsVertex v = true ∨ v = x) ∧
      (∀ e, g'.containsEdge e = true → g.containsEdge e = true)) ∨
    (∃ x y, (∀ v, g'.containsVertex v = true → g.containsVertex v = true ∨ v = x ∨ v = y) ∧
      (∀ e, g'.containsEdge e = true → g.containsEdge e = true ∨ e = ⟨x, y⟩)) := by
  have hgc : g = GraphCommand.applyCommands cs .new := by
    have h1 := (loadGraph_content (nd := nd) hc).1 hg
    unfold Format.Gcmd.read Format.read at h1
    rw [hcs] at h1
    cases h1
    rfl
  obtain ⟨hbg, -⟩ := loadGraph_built hg
  have hset : g.toSet = SetGraph.empty.run cs := by
    rw [hgc, toSet_applyCommands WF.new, toSet_new]
  have hsub : ∀ x ∈ cs, Bounded g.toSet x := by
    rw [hset]
    exact bounded_run hadd _
  rcases C80_during_partial nd order ho root jobs b hb hj schedule fs c cs g hc ht hcs hg i hi _ hr with h | ⟨e, h⟩ | ⟨n, extra, tail, h1, h2, h3⟩
  · cases h
  · cases h
  · cases h3
    have key : ∀ U : SetGraph, (∀ v, g.toSet.V v → U.V v) ∧ (∀ e, g.toSet.E e → U.E e) → (∀ x ∈ extra, Bounded U x) →
        (∀ v, (GraphCommand.applyCommands (cs.take n ++ extra ++ tail) .new).toSet.V v → U.V v) ∧
        (∀ e, (GraphCommand.applyCommands (cs.take n ++ extra ++ tail) .new).toSet.E e → U.E e) := by
      intro U hU hx
      rw [toSet_applyCommands WF.new, toSet_new]
      refine run_bounded ?_ ⟨fun _ h => h.elim, fun _ h => h.elim⟩
      intro x hx'
      simp only [List.mem_append] at hx'
      rcases hx' with (hx' | hx') | hx'
      · exact (hsub x (List.mem_of_mem_take hx')).mono hU
      · exact hx x hx'
      · exact (bounded_part hbg.wf (h2 x hx')).mono hU
    have hrefl : (∀ v, g.toSet.V v → g.toSet.V v) ∧ (∀ e, g.toSet.E e → g.toSet.E e) := ⟨fun _ h => h, fun _ h => h⟩
    rcases extra with _ | ⟨x, _ | _⟩
    · exact .inl (key g.toSet hrefl (by simp))
    · cases x with
      | RemoveVertex v => exact .inl (key g.toSet hrefl (by intro y hy; rw [List.mem_singleton] at hy; subst hy; trivial))
      | RemoveEdge u v => exact .inl (key g.toSet hrefl (by intro y hy; rw [List.mem_singleton] at hy; subst hy; trivial))
      | AddVertex v =>
        refine .inr (.inl ⟨v, key (g.toSet.step (.AddVertex v)) ⟨fun _ h => .inl h, fun _ h => h⟩ ?_⟩)
        intro y hy
        rw [List.mem_singleton] at hy
        subst hy
        exact .inr rfl
      | AddEdge u v =>
        refine .inr (.inr ⟨u, v, key (g.toSet.step (.AddEdge u v)) ⟨fun _ h => .inl h, fun _ h => .inl h⟩ ?_⟩)
        intro y hy
        rw [List.mem_singleton] at hy
        subst hy
        exact ⟨.inr (.inl rfl), .inr (.inr rfl), .inr rfl⟩
    · simp at h1

/-- `C80_during_partial` and `C80_during_additions_partial` for the build of a file with three additions, in any schedule. -/
example (ho : ∀ i, IsOrder (order i)) (schedule : List Nat) (g' : DirectedGraph)
    (hr : (run nd order [['d']] [.build, .query] schedule (sampleFS (Gcmd.commandsText [.AddVertex 1, .AddEdge 1 2, .AddVertex 3]))).pc 1 =
      .answered (.done (.ok g'))) :
    (∃ n extra tail, extra.length ≤ 1 ∧
      g' = GraphCommand.applyCommands ([GraphCommand.AddVertex 1, .AddEdge 1 2, .AddVertex 3].take n ++ extra ++ tail) .new) ∧
    ∃ x y, ∀ v, g'.containsVertex v = true →
      DirectedGraph.containsVertex (GraphCommand.applyCommands [.AddVertex 1, .AddEdge 1 2, .AddVertex 3] .new) v = true ∨ v = x ∨ v = y := by
  have hj : ∀ (j : Nat) (job : Job), [Job.build, .query][j]? = some job → j = 0 ∨ job = .query := by
    rintro (_ | _ | i) job h <;> simp at h <;> simp [h]
  have ht : NewlineTerminated (Gcmd.commandsText [.AddVertex 1, .AddEdge 1 2, .AddVertex 3]) := .inr (by decide)
  have hcs := C13_own_files_do_not_panic_partial nd [.AddVertex 1, .AddEdge 1 2, .AddVertex 3]
  constructor
  · rcases C80_during_partial nd order ho [['d']] _ 0 rfl hj schedule _ _ _ _ (sampleFS_content _) ht hcs (load_sample nd _) 1 rfl _ hr with h | ⟨e, h⟩ | ⟨n, x, t, h1, _, h⟩
    · cases h
    · cases h
    · cases h; exact ⟨n, x, t, h1, rfl⟩
  · rcases C80_during_additions_partial nd order ho [['d']] _ 0 rfl hj schedule _ _ _ _ (sampleFS_content _) ht hcs (load_sample nd _)
        (by simp [GraphCommand.Adds]) 1 rfl _ hr with h | ⟨x, h, _⟩ | ⟨x, y, h, _⟩
    · exact ⟨0, 0, fun v hv => .inl (h.1 v hv)⟩
    · exact ⟨x, x, fun v hv => (h v hv).imp_right .inl⟩
    · exact ⟨x, y, h⟩

/-- While gc-build (process 0) runs, a query (process 1) opens the file after gc-build truncated it, and loads a graph. All stored commands
add. -/
example : let jobs : List Job := [.build, .query]
    let c := "AddVertex 1\nAddEdge 1 2\nAddVertex 3\n".toList
    let s := run (fun _ => false) (fun _ => id) [['d']] jobs [0, 0, 0, 0, 1, 1, 1] (sampleFS c)
    (jobs[0]? matches some Job.build) ∧ (jobs[1]? matches some Job.query) ∧ c.getLast? = some '\n' ∧
      (Format.readAsCommands (Gcmd.parseLine fun _ => false) c matches .done (.ok [.AddVertex _, .AddEdge _ _, .AddVertex _])) ∧
      (loadGraph (fun _ => false) [['d']] (sampleFS c) matches .done (.ok _)) ∧
      (s.pc 1 matches .answered (.done (.ok _))) := by
  decide +kernel

end Concurrent
end GC
