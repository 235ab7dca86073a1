/-
Property C79: one addition of any size while other processes read.
-/
import Verif.Proofs.OneWriter
import Verif.Props.Store
namespace GC
namespace Concurrent
open Store Text Format

variable (nd : Char → Bool) (order : Nat → DirectedGraph → DirectedGraph)

/-- The commands of a readable file. -/
theorem readsAs_of_load {nd : Char → Bool} {root : FPath} {fs : FS} {c : Text} {g : DirectedGraph} (hc : Content root fs c)
    (hg : loadGraph nd root fs = .done (.ok g)) :
    ∃ bcs, ReadsAs (Gcmd.parseLine nd) (lines c) bcs ∧ g = GraphCommand.applyCommands bcs .new := by
  have h := (loadGraph_content hc).1 hg
  unfold Gcmd.read Format.read at h
  obtain ⟨r, hr, h⟩ := Run.bind_eq_done.1 h
  cases r with
  | error e => cases h
  | ok bcs =>
    injection h with h
    injection h with h
    exact ⟨bcs, (readAsCommands_ok_iff (gcmd_no_running nd)).1 hr, h.symm⟩

/-- C79: one process adds a batch of any size and any number of processes read. At every point of every schedule (also if the adding process
crashed there) the stored graph is the old graph with the first `k` commands of the batch applied, with all of them once the adding process
returned. A query that begins after `before` loads the old graph with the first `n` commands applied, at least those stored when it
began and at most those stored in the end. -/
theorem C79_prefix (root : FPath) (jobs : List Job) (a : Nat) (cs : List GraphCommand) (ha : jobs[a]? = some (.add cs))
    (hj : ∀ (j : Nat) (job : Job), jobs[j]? = some job → j = a ∨ job = .query)
    (before after : List Nat) (fs : FS) (c : Text) (g : DirectedGraph)
    (hr : Ready root fs) (hc : Content root fs c) (ht : NewlineTerminated c) (hg : loadGraph nd root fs = .done (.ok g)) :
    ∃ k0 k, k0 ≤ k ∧ k ≤ cs.length ∧
      loadGraph nd root (run nd order root jobs before fs).fs = .done (.ok (GraphCommand.applyCommands (cs.take k0) g)) ∧
      loadGraph nd root (run nd order root jobs (before ++ after) fs).fs = .done (.ok (GraphCommand.applyCommands (cs.take k) g)) ∧
      (Finished ((run nd order root jobs before fs).pc a) → k0 = cs.length) ∧
      (Finished ((run nd order root jobs (before ++ after) fs).pc a) → k = cs.length) ∧
      ∀ (i : Nat) (res : Run (Except LoadError DirectedGraph)), jobs[i]? = some .query →
        (run nd order root jobs before fs).pc i = .start →
        (run nd order root jobs (before ++ after) fs).pc i = .answered res →
        ∃ n, k0 ≤ n ∧ n ≤ k ∧ res = .done (.ok (GraphCommand.applyCommands (cs.take n) g)) := by
  obtain ⟨bcs, hb, rfl⟩ := readsAs_of_load hc hg
  have happ : ∀ n, GraphCommand.applyCommands (bcs ++ cs.take n) .new =
      GraphCommand.applyCommands (cs.take n) (GraphCommand.applyCommands bcs .new) := by
    intro n
    unfold GraphCommand.applyCommands
    rw [List.foldl_append]
  obtain ⟨k0, t0, -, -, h0⟩ := (oneInv_init (jobs := jobs) (a := a) (bcs := bcs) (cs := cs) hr hc).run (order := order) ha hj ht hb before
  have h0' : OneInv root jobs a c bcs cs
      (fun i => match (before.foldl (step nd order root jobs) ⟨fs, fun _ => .start⟩).pc i with | .start => k0 | _ => 0) k0 t0
      (before.foldl (step nd order root jobs) ⟨fs, fun _ => .start⟩) := by
    refine ⟨h0.ready, h0.content, h0.cut, h0.log, fun i hi => ?_, fun i => ?_⟩
    · have := h0.query i hi
      generalize (before.foldl (step nd order root jobs) ⟨fs, fun _ => .start⟩).pc i = pc at this
      cases this with
      | start => exact .start
      | reading h => exact .reading h
      | answered h1 h2 => exact .answered h1 h2
    · split <;> omega
  obtain ⟨k, t, hk, -, h1⟩ := h0'.run (order := order) ha hj ht hb after
  unfold run
  rw [List.foldl_append]
  refine ⟨k0, k, hk, h1.cut.le, ?_, ?_, h0.done, h1.done, ?_⟩
  · rw [loadGraph_lines h0.content, loadLines_readsAs (h0.cut.reads ht hb), happ]
  · rw [loadGraph_lines h1.content, loadLines_readsAs (h1.cut.reads ht hb), happ]
  · intro i res hi hs hres
    have := h1.query i hi
    rw [hs, hres] at this
    cases this with
    | @answered n h1 h2 => exact ⟨n, h1, h2, by rw [happ]⟩

/-- A batch of more than 8500 bytes (170 times the same edge, and a vertex) is written in two pieces. The reader (process 1)
finds the first piece, which ends with a complete command. -/
example : let jobs : List Job := [.add (List.replicate 170 (.AddEdge 18446744073709551614 18446744073709551615) ++ [.AddVertex 2]), .query]
    let s := run (fun _ => false) (fun _ => id) [['d']] jobs ([0, 0, 0, 0] ++ [1, 1, 1, 1, 1]) (sampleFS "AddVertex 1\n".toList)
    (s.pc 0 matches .writing (_ :: _)) ∧
      (match s.pc 1 with
        | .answered (.done (.ok g)) => decide (g.vertices.length = 3)
        | _ => false) = true := by
  decide +kernel

/-- C79: next to one adding process, a query is answered after at most `2 * n + 4` steps, where `n` is the size of the complete file. -/
theorem C79_answers (root : FPath) (jobs : List Job) (a : Nat) (cs : List GraphCommand) (ha : jobs[a]? = some (.add cs))
    (hj : ∀ (j : Nat) (job : Job), jobs[j]? = some job → j = a ∨ job = .query)
    (schedule : List Nat) (fs : FS) (c : Text) (g : DirectedGraph)
    (hr : Ready root fs) (hc : Content root fs c) (ht : NewlineTerminated c) (hg : loadGraph nd root fs = .done (.ok g))
    (i : Nat) (hi : jobs[i]? = some .query)
    (hn : 2 * (c ++ Gcmd.commandsText cs).length + 4 ≤ schedule.count i) :
    ∃ res, (run nd order root jobs schedule fs).pc i = .answered res := by
  obtain ⟨bcs, hb, rfl⟩ := readsAs_of_load hc hg
  rcases oneReader_progress (order := order) ha hj ht hb i hi schedule (oneInv_init (jobs := jobs) (a := a) (bcs := bcs) (cs := cs) hr hc)
    with h | h
  · exact h
  · exfalso
    dsimp only [oneRank] at h
    omega

/-- `C79_prefix` and `C79_answers` for an addition of two commands and a query, in any schedule. -/
example (before after : List Nat) :
    (∃ k0 k, k0 ≤ k ∧ k ≤ 2 ∧
      loadGraph nd [['d']] (run nd order [['d']] [.add [.AddVertex 2, .AddEdge 2 3], .query] before (sampleFS (Gcmd.commandsText [.AddVertex 1]))).fs =
        .done (.ok (GraphCommand.applyCommands ([GraphCommand.AddVertex 2, .AddEdge 2 3].take k0) (GraphCommand.applyCommands [.AddVertex 1] .new))) ∧
      loadGraph nd [['d']] (run nd order [['d']] [.add [.AddVertex 2, .AddEdge 2 3], .query] (before ++ after)
          (sampleFS (Gcmd.commandsText [.AddVertex 1]))).fs =
        .done (.ok (GraphCommand.applyCommands ([GraphCommand.AddVertex 2, .AddEdge 2 3].take k) (GraphCommand.applyCommands [.AddVertex 1] .new)))) ∧
    (76 ≤ before.count 1 → ∃ res, (run nd order [['d']] [.add [.AddVertex 2, .AddEdge 2 3], .query] before
      (sampleFS (Gcmd.commandsText [.AddVertex 1]))).pc 1 = .answered res) := by
  have hj : ∀ (j : Nat) (job : Job), [Job.add [.AddVertex 2, .AddEdge 2 3], .query][j]? = some job → j = 0 ∨ job = .query := by
    rintro (_ | _ | i) job h <;> simp at h <;> simp [h]
  have ht : NewlineTerminated (Gcmd.commandsText [.AddVertex 1]) := .inr (by decide)
  obtain ⟨k0, k, h1, h2, h3, h4, _⟩ := C79_prefix nd order [['d']] _ 0 _ rfl hj before after _ _ _ (sampleFS_ready _) rfl ht (load_sample nd [.AddVertex 1])
  exact ⟨⟨k0, k, h1, h2, h3, h4⟩, fun hn => C79_answers nd order [['d']] _ 0 _ rfl hj before _ _ _ (sampleFS_ready _) rfl ht
    (load_sample nd [.AddVertex 1]) 1 rfl ((show 2 * (Gcmd.commandsText [.AddVertex 1] ++ Gcmd.commandsText [.AddVertex 2, .AddEdge 2 3]).length + 4 ≤ 76
      by decide).trans hn)⟩

end Concurrent
end GC
