/-
Property C98: several gc-build processes at once.
-/
import Verif.Proofs.Builds
import Verif.Props.BuildReaders
import Mathlib.Data.List.Perm.Subperm
namespace GC
namespace Concurrent
open Store Text Format

variable (nd : Char → Bool) (order : Nat → DirectedGraph → DirectedGraph)

/-- The graph has no vertex. -/
def NoVertex (g : DirectedGraph) : Prop := ∀ v, g.containsVertex v = false

/-- C98 (partial): any number of gc-build processes and queries run at once, in any schedule, on a file that gc-build has written before and
that is at most 8192 bytes large. At all times the file loads to the same graph or to the empty graph; the same holds for what a query loads;
and every gc-build that returns reports success.
Missing: the graph can be lost (`C98_lost_counterexample`), and larger files and files not written by gc-build
(`C98_large_counterexample`, `C98_phantom_counterexample`). -/
theorem C98_all_or_nothing_partial (ho : ∀ i, IsOrder (order i)) (root : FPath) (jobs : List Job)
    (hj : ∀ (j : Nat) (job : Job), jobs[j]? = some job → job = .build ∨ job = .query) (schedule : List Nat)
    (fs : FS) (g : DirectedGraph) (hb : Built g) (hc : Content root fs (Gcmd.save g)) (hsmall : (Gcmd.save g).length ≤ 8192) :
    (∃ g', loadGraph nd root (run nd order root jobs schedule fs).fs = .done (.ok g') ∧ (SameGraph g' g ∨ NoVertex g')) ∧
    (∀ (i : Nat) res, jobs[i]? = some .query → (run nd order root jobs schedule fs).pc i = .answered res →
      ∃ g', res = .done (.ok g') ∧ (SameGraph g' g ∨ NoVertex g')) ∧
    (∀ (i : Nat) ok, jobs[i]? = some .build → (run nd order root jobs schedule fs).pc i = .finished ok → ok = true) := by
  have hf : Form g (Gcmd.save g) := ⟨g, hb, ⟨fun _ => rfl, fun _ => rfl⟩, rfl⟩
  have h := (buildsInv_init (jobs := jobs) hf hc).run (nd := nd) (order := order) ho hf hsmall hj schedule
  change BuildsInv root jobs g _ True (run nd order root jobs schedule fs) at h
  refine ⟨?_, ?_, ?_⟩
  · obtain ⟨t, hc', ht⟩ := h.content
    rcases ht with ht | ⟨rfl, _⟩
    · obtain ⟨x, h1, _, h3⟩ := ht.load (nd := nd)
      exact ⟨x, by rw [loadGraph_lines hc', h1], .inl h3⟩
    · exact ⟨.new, by rw [loadGraph_lines hc']; rfl, .inr fun _ => rfl⟩
  · intro i res hi hres
    have := h.query i hi
    rw [hres] at this
    obtain ⟨x, h1, h2⟩ := this
    refine ⟨x, h1, h2.imp id ?_⟩
    rintro rfl
    exact fun _ => rfl
  · intro i ok hi hres
    have := h.build i hi
    rw [hres] at this
    exact this

/-- C98 (partial): the same, if all gc-build processes have loaded the graph before any of them opens the file for writing. Then the graph is
kept: it is in the file as soon as all of them have returned (and at any time at which none of them is about to write).
Missing: other schedules (`C98_lost_counterexample`), and larger files. -/
theorem C98_loaded_first_partial (ho : ∀ i, IsOrder (order i)) (root : FPath) (jobs : List Job)
    (hj : ∀ (j : Nat) (job : Job), jobs[j]? = some job → job = .build ∨ job = .query) (before after : List Nat)
    (fs : FS) (g : DirectedGraph) (hb : Built g) (hc : Content root fs (Gcmd.save g)) (hsmall : (Gcmd.save g).length ≤ 8192)
    (hloaded : ∀ j, jobs[j]? = some .build → ∃ x, (run nd order root jobs before fs).pc j = .loaded x)
    (hquiet : ∀ j offset t rest, jobs[j]? = some .build → (run nd order root jobs (before ++ after) fs).pc j ≠ .rewriting offset (t :: rest)) :
    ∃ g', loadGraph nd root (run nd order root jobs (before ++ after) fs).fs = .done (.ok g') ∧ SameGraph g' g := by
  have hf : Form g (Gcmd.save g) := ⟨g, hb, ⟨fun _ => rfl, fun _ => rfl⟩, rfl⟩
  have h := (buildsInv_init (jobs := jobs) hf hc).run (nd := nd) (order := order) ho hf hsmall hj before
  change BuildsInv root jobs g _ True (run nd order root jobs before fs) at h
  have h2 := (h.settle hf hloaded).run (nd := nd) (order := order) ho hf hsmall hj after
  have e : after.foldl (step nd order root jobs) (run nd order root jobs before fs) = run nd order root jobs (before ++ after) fs := by
    unfold run
    rw [List.foldl_append]
  rw [e] at h2
  obtain ⟨t, hc', ht⟩ := h2.content
  rcases ht with ht | ⟨rfl, h3 | ⟨j, T, rest, h3, h4⟩⟩
  · obtain ⟨x, h1, _, h3⟩ := ht.load (nd := nd)
    exact ⟨x, by rw [loadGraph_lines hc', h1], h3⟩
  · exact h3.elim
  · exact absurd h4 (hquiet j 0 T rest h3)

/-- `C98_all_or_nothing_partial` for two builds and a query of a one-edge graph, in any schedule. -/
example (ho : ∀ i, IsOrder (order i)) (schedule : List Nat) :
    ∃ g', loadGraph nd [['d']] (run nd order [['d']] [.build, .build, .query] schedule
        (sampleFS (Gcmd.save (GraphCommand.applyCommands [.AddEdge 1 2] .new)))).fs = .done (.ok g') ∧
      (SameGraph g' (GraphCommand.applyCommands [.AddEdge 1 2] .new) ∨ NoVertex g') :=
  (C98_all_or_nothing_partial nd order ho [['d']] _ (by rintro (_ | _ | _ | i) job h <;> simp at h <;> simp [← h]) schedule _ _
    (Built.new.applyCommands _) (sampleFS_content _) (by decide)).1

/-- C98 is false: one gc-build loads the file that another one has just truncated; both report success, and the graph is gone. -/
theorem C98_lost_counterexample :
    ∃ schedule, ∀ s, s = run (fun _ => false) (fun _ => id) [['d']] [.build, .build] schedule (sampleFS "AddVertex 1\nAddVertex 2\nAddEdge 1 2\n".toList) →
      (s.pc 0 matches .finished true) = true ∧ (s.pc 1 matches .finished true) = true ∧
      (match loadGraph (fun _ => false) [['d']] s.fs with | .done (.ok g) => g.vertices.isEmpty | _ => false) = true := by
  refine ⟨[0, 0, 0, 0, 1, 1, 0, 0, 1, 1], ?_⟩
  rintro _ rfl
  decide +kernel

set_option maxRecDepth 10000 in
/-- C98 is false in another way on a file that was not written by gc-build: both gc-build processes report success, and the file then has an
edge and a vertex that were never in the graph (see also `C80_counterexample`). -/
theorem C98_phantom_counterexample :
    ∃ schedule, ∀ s, s = run (fun _ => false) (fun _ => id) [['d']] [.build, .build] schedule (sampleFS "AddEdge 1            2".toList) →
      (s.pc 0 matches .finished true) = true ∧ (s.pc 1 matches .finished true) = true ∧
      (match loadGraph (fun _ => false) [['d']] (sampleFS "AddEdge 1            2".toList), loadGraph (fun _ => false) [['d']] s.fs with
        | .done (.ok g), .done (.ok g') => !g.containsVertex 22 && !g.containsEdge ⟨1, 22⟩ && g'.containsVertex 22 && g'.containsEdge ⟨1, 22⟩
        | _, _ => false) = true := by
  refine ⟨[1, 1] ++ List.replicate 9 0 ++ List.replicate 8 1, ?_⟩
  rintro _ rfl
  decide +kernel

/-- C98 is false in a third way for every graph whose file is larger than 8192 bytes: there is a schedule of two gc-build processes after
which both have reported success and the file cannot be read any more (it begins with NUL characters). -/
theorem C98_large_counterexample (ho : ∀ i, IsOrder (order i)) (root : FPath) (fs : FS) (g : DirectedGraph) (hb : Built g)
    (hc : Content root fs (Gcmd.save g)) (hlarge : 8192 < (Gcmd.save g).length) :
    ∃ schedule, (run nd order root [.build, .build] schedule fs).pc 0 = .finished true ∧
      (run nd order root [.build, .build] schedule fs).pc 1 = .finished true ∧
      (∃ rest, Content root (run nd order root [.build, .build] schedule fs).fs (Char.ofNat 0 :: rest)) ∧
      ∃ e, loadGraph nd root (run nd order root [.build, .build] schedule fs).fs = .done (.error (.parse e)) := by
  have hf : Form g (Gcmd.save g) := ⟨g, hb, ⟨fun _ => rfl, fun _ => rfl⟩, rfl⟩
  obtain ⟨x, hx1, hx2, hx3⟩ := hf.load (nd := nd)
  have hl : loadGraph nd root fs = .done (.ok x) := by rw [loadGraph_lines hc, hx1]
  have hk := form_order ho (lossy := False) ⟨hx2, .inl hx3⟩ 0
  have hsame : SameGraph (order 0 x) g := by
    rcases hk.2 with h | h
    · exact h
    · exact h.1.elim
  obtain ⟨t1, t2, rest, hw, hne⟩ := saveWrites_large (x := order 0 x) (by rw [save_length hk.1 hb hsame]; exact hlarge)
  -- process 0 loads the graph
  obtain ⟨n0, hn0⟩ := C78_alone nd order root fs
  obtain ⟨-, hq⟩ := hn0 n0 (Nat.le_refl _)
  obtain ⟨-, h2⟩ := run_query_alone nd order root n0 ⟨fs, fun _ => .start⟩
  obtain ⟨k, hk'⟩ := iterBuild_load (order 0) n0 (.inl rfl) (h2.symm.trans hq)
  have p1 := hk' 0
  rw [hl, Nat.zero_add] at p1
  change iterBuild nd (order 0) root k .start fs = (fs, .loaded (order 0 x)) at p1
  have hj0 : ([.build, .build] : List Job)[0]? = some .build := rfl
  have hj1 : ([.build, .build] : List Job)[1]? = some .build := rfl
  have hfile : ∀ (fs : FS) (t : Text), Content root fs t →
      createTruncate (commandPath root) fs = (fs.set (commandPath root) (some (.file [])), .ok ()) := by
    intro fs t h
    unfold Content at h
    unfold createTruncate
    rw [h]
  have hset : ∀ (fs : FS) (t : Text), Content root (fs.set (commandPath root) (some (.file t))) t := fun fs t => FS.set_self _ _ _
  let fs1 := fs.set (commandPath root) (some (.file []))
  let fs2 := writeAt (commandPath root) 0 t1 fs1
  have hc2 : Content root fs2 t1 := by
    show writeAt _ _ _ _ _ = _
    unfold writeAt
    rw [show fs1 (commandPath root) = some (.file []) from hset fs []]
    dsimp only
    rw [FS.set_self]
    simp
  let fs3 := fs2.set (commandPath root) (some (.file []))
  let fs4 := writeAt (commandPath root) t1.length t2 fs3
  have hc4 : Content root fs4 (List.replicate t1.length (Char.ofNat 0) ++ t2) := by
    show writeAt _ _ _ _ _ = _
    unfold writeAt
    rw [show fs3 (commandPath root) = some (.file []) from hset fs2 []]
    dsimp only
    rw [FS.set_self]
    simp
  let fs5 := appendText (commandPath root) rest.flatten fs4
  have hc5 : Content root fs5 (List.replicate t1.length (Char.ofNat 0) ++ t2 ++ rest.flatten) := by
    show appendText _ _ _ _ = _
    unfold appendText
    rw [show fs4 (commandPath root) = _ from hc4]
    exact FS.set_self _ _ _
  -- process 0 opens the file for writing
  have p2 : iterBuild nd (order 0) root 1 (.loaded (order 0 x)) fs = (fs1, .rewriting 0 (t1 :: t2 :: rest)) := by
    simp only [iterBuild, stepBuild]
    rw [hfile fs _ hc, ← hw]
  -- process 1 loads the empty file
  have p3 : iterBuild nd (order 1) root 2 .start fs1 = (fs1, .loaded .new) := by
    have h1 : stepBuild nd (order 1) root .start fs1 = (fs1, .reading ⟨[], [], 0⟩) := by
      simp only [stepBuild]
      rw [stepOpen_content (hset fs [])]
    have h2 : stepBuild nd (order 1) root (.reading ⟨[], [], 0⟩) fs1 = (fs1, .loaded .new) := by
      simp only [stepBuild, stepRead]
      rw [show fs1 (commandPath root) = some (.file []) from hset fs []]
      dsimp only
      simp only [readChunk, List.drop_nil, List.take_nil, ne_eq, not_true, if_false, true_or, if_true]
      show (fs1, Pc.loaded (order 1 .new)) = _
      rw [order_new (ho 1)]
    simp only [iterBuild, h1, h2]
  -- process 0 writes the first buffer
  have p4 : iterBuild nd (order 0) root 1 (.rewriting 0 (t1 :: t2 :: rest)) fs1 = (fs2, .rewriting t1.length (t2 :: rest)) := by
    simp only [iterBuild, stepBuild, Nat.zero_add]
    rfl
  -- process 1 truncates the file and returns
  have p5 : iterBuild nd (order 1) root 2 (.loaded .new) fs2 = (fs3, .finished true) := by
    have h1 : stepBuild nd (order 1) root (.loaded .new) fs2 = (fs3, .rewriting 0 []) := by
      simp only [stepBuild]
      rw [hfile fs2 _ hc2]
      rfl
    simp only [iterBuild, h1]
    simp only [stepBuild]
  -- process 0 writes the rest
  have p6 : iterBuild nd (order 0) root (0 + 1 + rest.length + 1) (.rewriting t1.length (t2 :: rest)) fs3 = (fs5, .finished true) := by
    rw [iterBuild]
    show iterBuild nd (order 0) root (0 + 1 + rest.length) (.rewriting (t1.length + t2.length) rest) fs4 = _
    have := iterBuild_rewriting nd (order 0) root rest 0 fs4 _ hc4
    rw [List.length_append, List.length_replicate] at this
    exact this
  let pcs : Pc → Pc → Nat → Pc := fun a b j => if j = 0 then a else if j = 1 then b else .start
  have at0 : ∀ n a b fs fs' a', iterBuild nd (order 0) root n a fs = (fs', a') →
      (List.replicate n 0).foldl (step nd order root [.build, .build]) ⟨fs, pcs a b⟩ = ⟨fs', pcs a' b⟩ := by
    intro n a b fs fs' a' h
    rw [run_build_at nd order root hj0]
    have e : pcs a b 0 = a := rfl
    simp only [e, h, Sys.mk.injEq, true_and]
    funext j
    by_cases h0 : j = 0 <;> simp [pcs, h0]
  have at1 : ∀ n a b fs fs' b', iterBuild nd (order 1) root n b fs = (fs', b') →
      (List.replicate n 1).foldl (step nd order root [.build, .build]) ⟨fs, pcs a b⟩ = ⟨fs', pcs a b'⟩ := by
    intro n a b fs fs' a' h
    rw [run_build_at nd order root hj1]
    have e : pcs a b 1 = b := rfl
    simp only [e, h, Sys.mk.injEq, true_and]
    funext j
    by_cases h1 : j = 1
    · simp [pcs, h1]
    · simp [pcs, h1]
  have hrun : run nd order root [.build, .build] (List.replicate k 0 ++ List.replicate 1 0 ++ List.replicate 2 1 ++ List.replicate 1 0 ++
      List.replicate 2 1 ++ List.replicate (0 + 1 + rest.length + 1) 0) fs = ⟨fs5, pcs (.finished true) (.finished true)⟩ := by
    unfold run
    have e : (fun _ => .start : Nat → Pc) = pcs .start .start := by
      funext j
      simp [pcs]
    rw [e, List.foldl_append, List.foldl_append, List.foldl_append, List.foldl_append, List.foldl_append]
    rw [at0 _ _ _ _ _ _ p1, at0 _ _ _ _ _ _ p2, at1 _ _ _ _ _ _ p3, at0 _ _ _ _ _ _ p4, at1 _ _ _ _ _ _ p5,
      at0 _ _ _ _ _ _ p6]
  refine ⟨List.replicate k 0 ++ List.replicate 1 0 ++ List.replicate 2 1 ++ List.replicate 1 0 ++ List.replicate 2 1 ++
    List.replicate (0 + 1 + rest.length + 1) 0, ?_⟩
  rw [hrun]
  refine ⟨rfl, rfl, ?_⟩
  cases t1 with
  | nil => exact absurd rfl hne
  | cons c cs =>
    rw [List.length_cons, List.replicate_succ, List.cons_append, List.cons_append] at hc5
    refine ⟨⟨_, hc5⟩, ?_⟩
    rw [loadGraph_lines hc5]
    exact load_nul nd _

/-- Two gc-build processes and a query that meet the hypotheses of `C98_loaded_first_partial`; the query meets the empty file. -/
example : let text := "AddVertex 1\nAddVertex 2\nAddEdge 1 2\n".toList
    let jobs : List Job := [.build, .build, .query]
    let s1 := run (fun _ => false) (fun _ => id) [['d']] jobs [0, 1, 0, 1, 0, 1] (sampleFS text)
    let s2 := run (fun _ => false) (fun _ => id) [['d']] jobs ([0, 1, 0, 1, 0, 1] ++ [0, 0, 1, 2, 2, 1, 0, 1]) (sampleFS text)
    (s1.pc 0 matches .loaded _) ∧ (s1.pc 1 matches .loaded _) ∧ (s2.pc 0 matches .finished true) ∧ (s2.pc 1 matches .finished true) ∧
      (match s2.pc 2 with | .answered (.done (.ok g)) => g.vertices.isEmpty | _ => false) = true ∧
      (match loadGraph (fun _ => false) [['d']] s2.fs with | .done (.ok g) => g.containsEdge ⟨1, 2⟩ | _ => false) = true := by
  decide +kernel

/-- The file of these two is a file gc-build has written. -/
example : Built (GraphCommand.applyCommands [.AddEdge 1 2] .new) ∧
    Gcmd.save (GraphCommand.applyCommands [.AddEdge 1 2] .new) = "AddVertex 1\nAddVertex 2\nAddEdge 1 2\n".toList ∧
    Content [['d']] (sampleFS "AddVertex 1\nAddVertex 2\nAddEdge 1 2\n".toList) "AddVertex 1\nAddVertex 2\nAddEdge 1 2\n".toList :=
  ⟨Built.new.applyCommands _, by decide +kernel, rfl⟩

/-- A graph that meets the hypotheses of `C98_large_counterexample`. -/
example : let g := GraphCommand.applyCommands ((List.range 700).map fun n => .AddVertex ⟨UInt64.ofNat n⟩) .new
    Built g ∧ 8192 < (Gcmd.save g).length := by
  refine ⟨Built.new.applyCommands _, ?_⟩
  have h1 : ∀ (l : List Nat) (g : DirectedGraph) (v : VertexId), (g.containsVertex v = true ∨ v ∈ l.map fun n => ⟨UInt64.ofNat n⟩) →
      (GraphCommand.applyCommands (l.map fun n => .AddVertex ⟨UInt64.ofNat n⟩) g).containsVertex v = true := by
    intro l
    induction l with
    | nil => intro g v h; exact h.resolve_right (by simp)
    | cons n l ih =>
      intro g v h
      refine ih (g.addVertex ⟨UInt64.ofNat n⟩).2 v ?_
      rw [containsVertex_addVertex]
      simp only [List.map_cons, List.mem_cons] at h
      tauto
  have h2 : ((List.range 700).map fun n => (⟨UInt64.ofNat n⟩ : VertexId)).Nodup := by
    refine List.Nodup.map_on ?_ List.nodup_range
    intro a ha b hb e
    rw [List.mem_range] at ha hb
    have e := congrArg (fun v : VertexId => v.id.toNat) e
    simp only [UInt64.toNat_ofNat'] at e
    omega
  have h3 : 700 ≤ (GraphCommand.applyCommands ((List.range 700).map fun n => .AddVertex ⟨UInt64.ofNat n⟩) .new).vertices.length := by
    have := (List.subperm_of_subset h2 (l₂ := (GraphCommand.applyCommands ((List.range 700).map fun n => .AddVertex ⟨UInt64.ofNat n⟩) .new).vertices) fun v hv =>
      mem_vertices.2 (h1 _ _ _ (.inr hv))).length_le
    simpa using this
  have h4 : ∀ l : List VertexId, 12 * l.length ≤ (l.flatMap fun v => Gcmd.kwAddVertex ++ showId v ++ ['\n']).length := by
    intro l
    induction l with
    | nil => simp
    | cons v l ih =>
      have := List.length_pos_iff.2 (showId_ne_nil v)
      have : Gcmd.kwAddVertex.length = 10 := rfl
      simp only [List.flatMap_cons, List.length_append, List.length_cons, List.length_nil]
      omega
  generalize GraphCommand.applyCommands ((List.range 700).map fun n => .AddVertex ⟨UInt64.ofNat n⟩) .new = g at h3 ⊢
  have := h4 g.vertices
  unfold Gcmd.save
  rw [List.length_append]
  omega

end Concurrent
end GC
