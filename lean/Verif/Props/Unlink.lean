/-
Properties C94 to C97: processes running concurrently on one directory, some of which remove the graph.
-/
import Verif.Proofs.Unlink
import Verif.Props.Concurrent
import Verif.Model.Random
namespace GC
namespace Unlink
open Store Text Format

variable (nd : Char → Bool) (order : Nat → DirectedGraph → DirectedGraph)

/-- The small-step model agrees with the model of the single operation: gc-clean that runs alone does what `clean` does, on every file
system. -/
theorem C94_clean_alone (root : FPath) (fs : FS) (hw : fs.WF) :
    ∃ n, ∀ m, n ≤ m →
      (run nd order root [.clean] (List.replicate m 0) fs).world.fs = (clean root fs).1 ∧
      ((clean root fs).2 = .ok () → (run nd order root [.clean] (List.replicate m 0) fs).pc 0 = .finished true) ∧
      (∀ e, (clean root fs).2 = .error e → (run nd order root [.clean] (List.replicate m 0) fs).pc 0 = .finished false) := by
  refine ⟨7, fun m hm => ?_⟩
  have h := run_one nd order root .clean m ⟨⟨fs, 0, fun _ => []⟩, fun _ => .start⟩
  have h' := clean_alone (nd := nd) (order := order 0) (root := root) ⟨fs, 0, fun _ => []⟩ (nothingBelow_of_wf hw) m hm
  dsimp only at h h'
  rw [← h] at h'
  refine ⟨h'.1, fun e => ?_, fun e he => ?_⟩
  · have := h'.2; rw [e] at this; exact this
  · have := h'.2; rw [he] at this; exact this

/-- The same for gc-random after the confirmation. -/
theorem C94_random_alone (root : FPath) (g : DirectedGraph) (fs : FS) (hw : fs.WF) :
    ∃ n, ∀ m, n ≤ m →
      (run nd order root [.random g] (List.replicate m 0) fs).world.fs = (Random.replaceGraph root (order 0 g) fs).1 ∧
      ((Random.replaceGraph root (order 0 g) fs).2 = .success → (run nd order root [.random g] (List.replicate m 0) fs).pc 0 = .finished true) ∧
      ((Random.replaceGraph root (order 0 g) fs).2 = .panic → (run nd order root [.random g] (List.replicate m 0) fs).pc 0 = .finished false) := by
  refine ⟨11 + (Concurrent.saveWrites (order 0 g)).length, fun m hm => ?_⟩
  have h := run_one nd order root (.random g) m ⟨⟨fs, 0, fun _ => []⟩, fun _ => .start⟩
  have h' := random_alone (nd := nd) (order := order 0) (root := root) g ⟨fs, 0, fun _ => []⟩ (nothingBelow_of_wf hw) m hm
  obtain ⟨e1, e2⟩ := replaceGraph_eq root (order 0 g) fs
  dsimp only at h h'
  rw [← h, e1] at h'
  refine ⟨h'.1, fun e => ?_, fun e => ?_⟩
  · have := h'.2; rw [e2.1 e] at this; exact this
  · have := h'.2; rw [e2.2 e] at this; exact this

/-- C94 (partial): gc-add, gc-delete, gc-init, gc-clean and queries run in any order, step by step. At any two moments there are histories
that explain what is stored and what was answered: every writing process is in one command file, once and with all its commands, and a query
has the graph of one command file. The later history extends the earlier one; and a process that had not opened the command file at the
first moment sees or extends what was there then (or a later file).
Missing: batches longer than the buffer (8192 bytes), for which this is false (`C63_counterexample`), and gc-build and gc-random
(`C95_build_counterexample`, `C94_random_counterexample`). -/
theorem C94_lives_partial (root : FPath) (jobs : List Job) (ho : Ordinary jobs) (before after : List Nat) (fs : FS) (c : Text) (g : DirectedGraph)
    (hc : Content root fs c) (ht : NewlineTerminated c) (hg : loadGraph nd root fs = .done (.ok g)) :
    let s0 := run nd order root jobs before fs
    let s := run nd order root jobs (before ++ after) fs
    ∃ L0 L : Nat → List Nat, Explains nd root jobs g L0 s0 ∧ Explains nd root jobs g L s ∧
      (∀ k, L0 k <+: L k) ∧ s0.world.gen ≤ s.world.gen ∧
      (∀ i k, NotOpened (s0.pc i) → i ∈ L k → s0.world.gen ≤ k ∧ i ∉ L0 k) ∧
      (∀ i res, NotOpened (s0.pc i) → jobs[i]? = some .query → s.pc i = .answered res → res = .done (.error (.io .notFound)) ∨
        ∃ k pre, s0.world.gen ≤ k ∧ k ≤ s.world.gen ∧ L0 k <+: pre ∧ pre <+: L k ∧ res = .done (.ok (lifeGraph jobs g k pre))) := by
  intro s0 s
  have hg' := (loadGraph_content hc).1 hg
  obtain ⟨L0, h0, _⟩ := (inv_init (nd := nd) (jobs := jobs) hc).run (order := order) ht ho before
  change Inv nd root jobs c _ L0 s0 at h0
  have h1 := h0.rebase (b := s0.world.gen + 1) (Nat.le_succ _) (fun _ => Nat.lt_succ_self _)
  obtain ⟨L, h2, he⟩ := h1.run (order := order) ht ho after
  have es : s = after.foldl (step nd order root jobs) s0 := List.foldl_append
  rw [es]
  refine ⟨L0, L, h0.explains ht hg', h2.explains ht hg', he, h2.gen, ?_, ?_⟩
  · intro i k hn hi
    exact h2.log.late i k hi hn
  · intro i res hn hj hpc
    have := h2.proc i _ hj
    rw [hpc] at this
    rcases this with e | ⟨k, pre, hop, hp, hl, e⟩
    · exact .inl e
    · exact .inr ⟨k, pre, hop.2.2.1 hn, hop.1, hl hn, hp, e.trans (lifeText_load ht hg' _ _)⟩

/-- C95 (partial): if there is no command file at some moment, then nothing of what was stored before comes back. Whatever is stored later,
and whatever a query finds that opens the command file later, was added by processes that opened the command file later.
Missing: gc-build and gc-random, for which this is false (`C95_build_counterexample`); batches longer than the buffer. -/
theorem C95_nothing_back_partial (root : FPath) (jobs : List Job) (ho : Ordinary jobs) (before after : List Nat) (fs : FS) (c : Text) (g : DirectedGraph)
    (hc : Content root fs c) (ht : NewlineTerminated c) (hg : loadGraph nd root fs = .done (.ok g))
    (hnone : (run nd order root jobs before fs).world.fs (commandPath root) = none) :
    let s0 := run nd order root jobs before fs
    let s := run nd order root jobs (before ++ after) fs
    let Late := fun l : List Nat => l.Nodup ∧ ∀ i ∈ l, (∃ cs, jobs[i]? = some (.add cs)) ∧ NotOpened (s0.pc i)
    (s.world.fs (commandPath root) = none ∨
      ∃ l, Late l ∧ loadGraph nd root s.world.fs = .done (.ok (GraphCommand.applyCommands (l.flatMap (batchOf jobs)) .new))) ∧
    (∀ i res, NotOpened (s0.pc i) → jobs[i]? = some .query → s.pc i = .answered res → res = .done (.error (.io .notFound)) ∨
      ∃ l, Late l ∧ res = .done (.ok (GraphCommand.applyCommands (l.flatMap (batchOf jobs)) .new))) := by
  intro s0 s Late
  have hg' := (loadGraph_content hc).1 hg
  obtain ⟨L0, h0, _⟩ := (inv_init (nd := nd) (jobs := jobs) hc).run (order := order) ht ho before
  change Inv nd root jobs c _ L0 s0 at h0
  have h1 := h0.rebase (b := s0.world.gen) le_rfl (fun h => absurd hnone h)
  have hpos : s0.world.gen ≠ 0 := by
    rcases h0.world.slot with ⟨_, _, h⟩ | h
    · exact h
    · exact absurd (hnone.symm.trans h) (by simp)
  obtain ⟨L, h2, he⟩ := h1.run (order := order) ht ho after
  have es : s = after.foldl (step nd order root jobs) s0 := List.foldl_append
  have hlate : ∀ k, s0.world.gen ≤ k → ∀ l, l <+: L k → Late l := by
    intro k hk l hl
    refine ⟨(h2.log.nodup k).sublist hl.sublist, fun i hi => ?_⟩
    have hi' := hl.subset hi
    obtain ⟨cs, _, hj⟩ := h2.log.adds i k hi'
    refine ⟨⟨cs, hj⟩, ?_⟩
    by_contra hn
    have := h2.log.early i k hi' hn
    dsimp only at this
    omega
  have hgraph : ∀ k l, s0.world.gen ≤ k → lifeGraph jobs g k l = GraphCommand.applyCommands (l.flatMap (batchOf jobs)) .new := by
    intro k l hk
    unfold lifeGraph
    rw [if_neg (by omega)]
  rw [es]
  have hgen : s0.world.gen ≤ (after.foldl (step nd order root jobs) s0).world.gen := h2.gen
  refine ⟨?_, ?_⟩
  · rcases (h2.explains ht hg').stored with h | h
    · exact .inl h.1
    · refine .inr ⟨L (after.foldl (step nd order root jobs) s0).world.gen, hlate _ hgen _ List.prefix_rfl, ?_⟩
      rw [← hgraph _ _ hgen]
      exact h
  · intro i res hn hj hpc
    have := h2.proc i _ hj
    rw [hpc] at this
    rcases this with e | ⟨k, pre, hop, hp, hl, e⟩
    · exact .inl e
    · have hk := hop.2.2.1 hn
      refine .inr ⟨pre, hlate k hk pre hp, ?_⟩
      rw [← hgraph k pre hk]
      exact e.trans (lifeText_load ht hg' _ _)

/-- C96 (partial): an addition that opened the command file after a given moment, and that reported success, is in the stored graph, if no
gc-clean made a step after that moment, whatever else happened. So no addition is lost to a gc-clean that returned before it began.
Missing: gc-build and gc-random, see `C96_build_counterexample`; batches longer than the buffer. -/
theorem C96_kept_partial (root : FPath) (jobs : List Job) (ho : Ordinary jobs) (before after : List Nat) (fs : FS) (c : Text) (g : DirectedGraph)
    (hc : Content root fs c) (ht : NewlineTerminated c) (hg : loadGraph nd root fs = .done (.ok g))
    (hclean : ∀ j ∈ after, jobs[j]? ≠ some .clean) :
    let s0 := run nd order root jobs before fs
    let s := run nd order root jobs (before ++ after) fs
    ∃ (base : DirectedGraph) (l : List Nat), (base = g ∨ base = .new) ∧ l.Nodup ∧
      (∀ i cs, jobs[i]? = some (.add cs) → cs ≠ [] → NotOpened (s0.pc i) → s.pc i = .finished true →
        i ∈ l ∧ loadGraph nd root s.world.fs = .done (.ok (GraphCommand.applyCommands (l.flatMap (batchOf jobs)) base))) := by
  intro s0 s
  obtain ⟨L0, L, _, h2, _, _, h5, _⟩ := C94_lives_partial nd order root jobs ho before after fs c g hc ht hg
  have es : s = after.foldl (step nd order root jobs) s0 := List.foldl_append
  have hgen : s.world.gen = s0.world.gen := by
    rw [es]
    exact gen_run after hclean ho.1 ho.2.1 s0
  refine ⟨if s.world.gen = 0 then g else .new, L s.world.gen, ?_, h2.once _, ?_⟩
  · split
    · exact .inl rfl
    · exact .inr rfl
  · intro i cs hj hcs hn hf
    obtain ⟨k, hk, hi⟩ := h2.success i cs hj hcs hf
    have hk' := (h5 i k hn hi).1
    have e : k = s.world.gen := by
      change k ≤ s.world.gen at hk
      change s0.world.gen ≤ k at hk'
      omega
    rw [e] at hi
    refine ⟨hi, ?_⟩
    rcases h2.stored with h | h
    · have := h.2.1
      rw [this] at hi
      cases hi
    · exact h

/-- C97 (partial): after a gc-clean that reported success, a query finds nothing of what was added by processes that had opened the command file
when gc-clean began. (Process `i` is that gc-clean: not yet begun after `before`, returned after `before ++ during`; process `q` is a query
that begins later.)
Missing: gc-build and gc-random (`C95_build_counterexample`); batches longer than the buffer. -/
theorem C97_cleaned_partial (root : FPath) (jobs : List Job) (ho : Ordinary jobs) (before during after : List Nat) (fs : FS) (c : Text) (g : DirectedGraph)
    (hc : Content root fs c) (ht : NewlineTerminated c) (hg : loadGraph nd root fs = .done (.ok g))
    (i : Nat) (hi : jobs[i]? = some .clean) (hstart : (run nd order root jobs before fs).pc i = .start)
    (hend : (run nd order root jobs (before ++ during) fs).pc i = .finished true)
    (q : Nat) (hq : jobs[q]? = some .query) (hqs : (run nd order root jobs (before ++ during) fs).pc q = .start)
    (res : Run (Except LoadError DirectedGraph)) (hres : (run nd order root jobs (before ++ during ++ after) fs).pc q = .answered res) :
    res = .done (.error (.io .notFound)) ∨
    ∃ l : List Nat, l.Nodup ∧ (∀ j ∈ l, (∃ cs, jobs[j]? = some (.add cs)) ∧ NotOpened ((run nd order root jobs before fs).pc j)) ∧
      res = .done (.ok (GraphCommand.applyCommands (l.flatMap (batchOf jobs)) .new)) := by
  have es : run nd order root jobs (before ++ during) fs = during.foldl (step nd order root jobs) (run nd order root jobs before fs) :=
    List.foldl_append
  rw [es] at hend hqs
  obtain ⟨a, b, rfl, hnone⟩ := clean_moment (order := order) hi during (by rw [hstart]; simp) (by rw [hstart]; simp) hend
  have ea : run nd order root jobs (before ++ a) fs = a.foldl (step nd order root jobs) (run nd order root jobs before fs) := List.foldl_append
  rw [← ea] at hnone
  rw [List.foldl_append, ← ea] at hqs
  have h := (C95_nothing_back_partial nd order root jobs ho (before ++ a) (b ++ after) fs c g hc ht hg hnone).2 q res
    (notOpened_run (order := order) b hq (.inr rfl) (.inl hqs)) hq (by simpa [List.append_assoc] using hres)
  refine h.imp id ?_
  rintro ⟨l, ⟨h1, h2⟩, h3⟩
  refine ⟨l, h1, fun j hj => ?_, h3⟩
  obtain ⟨⟨cs, hcs⟩, hn⟩ := h2 j hj
  rw [ea] at hn
  exact ⟨⟨cs, hcs⟩, notOpened_run (order := order) a hcs (.inl ⟨cs, rfl⟩) hn⟩

/-- The answer of a query: the vertices of its graph, or `none` for an error. -/
def answerOf (pc : Pc) : Option (List VertexId) :=
  match pc with
  | .answered (.done (.ok g)) => some g.vertices
  | _ => none

/-- The report of a process that returned. -/
def reportOf (pc : Pc) : Option Bool :=
  match pc with
  | .finished ok => some ok
  | _ => none

/-- For `C94_lives_partial`: a query (2) that has opened the command file, an addition (0) that has opened it too and writes after
gc-clean (1) removed it, gc-init (3), another addition (4), and a query (5). The first query sees the old graph with the first addition, the
second only what was added after. -/
def exJobs : List Job := [.add [.AddVertex 2], .clean, .query, .init, .add [.AddVertex 4], .query]

theorem exJobs_ordinary : Ordinary exJobs := by
  have hsix : ∀ {j : Nat} {job : Job}, exJobs[j]? = some job → job ∈ exJobs := fun h => List.mem_of_getElem? h
  refine ⟨fun j h => ?_, fun j g h => ?_, fun j cs h => ?_⟩
  · have := hsix h; simp [exJobs] at this
  · have := hsix h; simp [exJobs] at this
  · have := hsix h
    simp [exJobs] at this
    rcases this with rfl | rfl <;> decide

theorem sample_content (t : Text) : Content [['d']] (sampleFS t) t := rfl

example : let schedule : List Nat := [0, 0, 0] ++ [2] ++ [1, 1, 1, 1, 1, 1] ++ [0] ++ [1] ++ [3, 3] ++ [4, 4, 4, 4, 4, 4] ++ [2, 2, 2] ++ [5, 5, 5, 5]
    let s := run (fun _ => false) (fun _ => id) [['d']] exJobs schedule (sampleFS "AddVertex 1\n".toList)
    reportOf (s.pc 1) = some true ∧ reportOf (s.pc 3) = some true ∧ reportOf (s.pc 4) = some true ∧ s.world.gen = 1 ∧
      answerOf (s.pc 2) = some [1, 2] ∧ answerOf (s.pc 5) = some [4] := by
  decide +kernel

/-- For `C95_nothing_back_partial` and `C97_cleaned_partial`: the moment at which there is no command file, and a query that begins later. -/
example : let s0 := run (fun _ => false) (fun _ => id) [['d']] exJobs ([0, 0, 0] ++ [1, 1, 1, 1, 1, 1]) (sampleFS "AddVertex 1\n".toList)
    (s0.world.fs (commandPath [['d']])).isNone ∧ (s0.pc 0 matches .writing 0 _) ∧ (s0.pc 4 matches .start) := by
  decide +kernel

example : ∃ res : Run (Except LoadError DirectedGraph), res = .done (.error (.io .notFound)) ∨
    ∃ l : List Nat, l.Nodup ∧
      (∀ j ∈ l, (∃ cs, exJobs[j]? = some (.add cs)) ∧ NotOpened ((run (fun _ => false) (fun _ => id) [['d']] exJobs [0, 0, 0] (sampleFS "AddVertex 1\n".toList)).pc j)) ∧
      res = .done (.ok (GraphCommand.applyCommands (l.flatMap (batchOf exJobs)) .new)) :=
  have hl : loadGraph (fun _ => false) [['d']] (sampleFS "AddVertex 1\n".toList) = .done (.ok (GraphCommand.applyCommands [.AddVertex 1] .new)) := rfl
  ⟨_, C97_cleaned_partial (fun _ => false) (fun _ => id) [['d']] exJobs exJobs_ordinary [0, 0, 0] [1, 1, 1, 1, 1, 1, 1] [3, 3, 4, 4, 4, 4, 4, 4, 5, 5, 5, 5]
    (sampleFS "AddVertex 1\n".toList) _ _ (sample_content _) (.inr rfl) hl 1 rfl rfl rfl 5 rfl rfl _ rfl⟩

/-- For `C96_kept_partial`: after gc-clean returned, gc-init and an addition. -/
example : let s0 := run (fun _ => false) (fun _ => id) [['d']] exJobs [1, 1, 1, 1, 1, 1, 1] (sampleFS "AddVertex 1\n".toList)
    let s := run (fun _ => false) (fun _ => id) [['d']] exJobs ([1, 1, 1, 1, 1, 1, 1] ++ [3, 3, 4, 4, 4, 4, 4, 4]) (sampleFS "AddVertex 1\n".toList)
    (s0.pc 4 matches .start) ∧ reportOf (s0.pc 1) = some true ∧ reportOf (s.pc 4) = some true ∧
      (match loadGraph (fun _ => false) [['d']] s.world.fs with
      | .done (.ok g) => decide (g.vertices = [4])
      | _ => false) = true := by
  decide +kernel

/-- Beside `C95_nothing_back_partial`: with gc-build it is false. gc-build (0) loads the graph; gc-clean (1) removes it and gc-init (2) creates a new
one, and both report success; gc-build writes the old graph into the new command file, and a later query (3) finds it. -/
theorem C95_build_counterexample :
    let jobs : List Job := [.build, .clean, .init, .query]
    let s0 := run (fun _ => false) (fun _ => id) [['d']] jobs ([0, 0, 0] ++ [1, 1, 1, 1, 1, 1, 1] ++ [2, 2]) (sampleFS "AddVertex 1\n".toList)
    let s := run (fun _ => false) (fun _ => id) [['d']] jobs (([0, 0, 0] ++ [1, 1, 1, 1, 1, 1, 1] ++ [2, 2]) ++ [0, 0, 0] ++ [3, 3, 3, 3]) (sampleFS "AddVertex 1\n".toList)
    reportOf (s0.pc 1) = some true ∧ reportOf (s0.pc 2) = some true ∧ reportOf (s.pc 0) = some true ∧ (s0.pc 3 matches .start) ∧
      answerOf (s.pc 3) = some [1] := by
  decide +kernel

/-- Beside `C96_kept_partial`: with gc-build it is false. gc-clean (0) and gc-init (1) returned; gc-build (2) loads the graph; an addition (3) begins
and reports success; gc-build writes the graph it loaded and reports success, and the addition is lost. -/
theorem C96_build_counterexample :
    let jobs : List Job := [.clean, .init, .build, .add [.AddVertex 4]]
    let s0 := run (fun _ => false) (fun _ => id) [['d']] jobs ([0, 0, 0, 0, 0, 0, 0] ++ [1, 1] ++ [2, 2]) (sampleFS "AddVertex 1\n".toList)
    let s := run (fun _ => false) (fun _ => id) [['d']] jobs (([0, 0, 0, 0, 0, 0, 0] ++ [1, 1] ++ [2, 2]) ++ [3, 3, 3, 3, 3, 3] ++ [2, 2, 2])
      (sampleFS "AddVertex 1\n".toList)
    reportOf (s0.pc 0) = some true ∧ reportOf (s0.pc 1) = some true ∧ (s0.pc 3 matches .start) ∧ reportOf (s.pc 3) = some true ∧
      reportOf (s.pc 2) = some true ∧
      (match loadGraph (fun _ => false) [['d']] s.world.fs with
      | .done (.ok g) => decide (g.vertices = [])
      | _ => false) = true := by
  decide +kernel

/-- Beside `C94_lives_partial`: with gc-random it is false. A query (1) while gc-random (0) replaces the graph with vertex 1 by a graph with
vertex 7 finds a graph without vertices, which is neither of them. -/
theorem C94_random_counterexample :
    let jobs : List Job := [.random (GraphCommand.applyCommands [.AddVertex 7] .new), .query]
    let s := run (fun _ => false) (fun _ => id) [['d']] jobs ([0, 0, 0, 0, 0, 0, 0] ++ [0, 0] ++ [1, 1, 1] ++ [0, 0, 0, 0]) (sampleFS "AddVertex 1\n".toList)
    reportOf (s.pc 0) = some true ∧ answerOf (s.pc 1) = some [] ∧
      (match loadGraph (fun _ => false) [['d']] s.world.fs with
      | .done (.ok g) => decide (g.vertices = [7])
      | _ => false) = true := by
  decide +kernel

/-- Beside `C97_cleaned_partial`: two gc-clean at once may both report an error, although the graph is gone. The second finds the command file
removed in the meantime (an error of `remove_dir_all` in the versions of std of the time of this code; later ones only fail when `.graph`
itself is gone), and takes away the lock file of the first. -/
theorem C97_two_cleans_counterexample :
    let jobs : List Job := [.clean, .clean]
    let s := run (fun _ => false) (fun _ => id) [['d']] jobs ([0, 0, 0] ++ [1, 1, 1] ++ [0] ++ [1, 1] ++ [0, 0, 0]) (sampleFS "AddVertex 1\n".toList)
    reportOf (s.pc 0) = some false ∧ reportOf (s.pc 1) = some false ∧ s.world.fs (rootPath [['d']]) = none := by
  refine ⟨by decide +kernel, by decide +kernel, by rfl⟩

/-- Beside `C97_cleaned_partial`: the failure of gc-clean does not mean that the graph is still there. gc-init (1) creates a command file before
gc-clean (0) removes the directory; gc-clean reports an error, but the graph is lost. -/
theorem C97_failure_counterexample :
    let jobs : List Job := [.clean, .init]
    let s := run (fun _ => false) (fun _ => id) [['d']] jobs ([0, 0, 0, 0, 0] ++ [1, 1] ++ [0, 0]) (sampleFS "AddVertex 1\n".toList)
    reportOf (s.pc 0) = some false ∧ reportOf (s.pc 1) = some true ∧
      (match loadGraph (fun _ => false) [['d']] s.world.fs with
      | .done (.ok g) => decide (g.vertices = [])
      | _ => false) = true := by
  decide +kernel

end Unlink
end GC
