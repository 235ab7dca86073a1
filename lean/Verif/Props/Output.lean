/-
Properties C104 and C105: what the commands that change the stored graph print, and what happens when they cannot print.
-/
import Verif.Spec.Output
import Verif.Props.Store
namespace GC
namespace Output
open DirectedGraph Store Text

/-! ### C104: standard output breaks -/

/-- With a working standard output the files and the exit code are those of the model without printing. -/
theorem gcBuild_full (nd : Char → Bool) (order : DirectedGraph → DirectedGraph) (root : FPath) (verbose : Bool) (fs : FS) (l : List Text) :
    ((gcBuild nd order root verbose ⟨fs, l, none⟩).1.fs, (gcBuild nd order root verbose ⟨fs, l, none⟩).2) = Store.gcBuild nd order root fs := by
  unfold gcBuild Store.gcBuild buildReport
  rcases loadGraph nd root fs with _ | _ | ⟨_ | g⟩ <;> try rfl
  dsimp only
  rcases h : expectOk (saveGraphAsCommands root (order g) fs) with ⟨fs', _ | _⟩ <;> cases verbose <;>
    simp [seq, say, skip, onFiles, h]

theorem gcClean_full (path : Text) (root : FPath) (force silent : Bool) (answer : Text) (fs : FS) (l : List Text) :
    ((gcClean path root force silent answer ⟨fs, l, none⟩).1.fs, (gcClean path root force silent answer ⟨fs, l, none⟩).2) =
      Store.gcClean root force answer fs := by
  unfold gcClean Store.gcClean confirm cleanVerbosely
  rcases h : expectOk (clean root fs) with ⟨fs', _ | _⟩ <;> cases force <;> cases silent <;>
    cases hy : Args.confirmationYesNo answer <;> simp [seq, say, skip, onFiles, h]

theorem randomFinish_full (order : DirectedGraph → DirectedGraph) (path : Text) (root : FPath) (force : Bool) (answer : Text) (fs : FS)
    (l : List Text) (g : Option DirectedGraph) :
    ((randomFinish order path root force answer ⟨fs, l, none⟩ g).1.fs, (randomFinish order path root force answer ⟨fs, l, none⟩ g).2) =
      Random.finish order root force answer fs g := by
  unfold randomFinish Random.finish confirm
  cases g with
  | none => rfl
  | some g =>
    cases force <;> cases hy : Args.confirmationYesNo answer <;> simp [seq, say, onFiles]

/-- C104: gc-build, for every file system and every number of lines that standard output still takes: the files are untouched or completely
written, the lines printed are the first ones of those of an undisturbed run, and exit code 0 means that all was done. An undisturbed run
ends as in the model without printing. -/
theorem C104_gc_build (nd : Char → Bool) (order : DirectedGraph → DirectedGraph) (root : FPath) (verbose : Bool) (fs : FS) (room : Option Nat) :
    CutShort fs (gcBuild nd order root verbose ⟨fs, [], none⟩) (gcBuild nd order root verbose ⟨fs, [], room⟩) ∧
    (gcBuild nd order root verbose ⟨fs, [], none⟩).1.fs = (Store.gcBuild nd order root fs).1 ∧
    (gcBuild nd order root verbose ⟨fs, [], none⟩).2 = (Store.gcBuild nd order root fs).2 := by
  refine ⟨?_, congrArg Prod.fst (gcBuild_full nd order root verbose fs []), congrArg Prod.snd (gcBuild_full nd order root verbose fs [])⟩
  unfold gcBuild buildReport
  rcases loadGraph nd root fs with _ | _ | ⟨_ | g⟩ <;> try exact ⟨.inl rfl, List.prefix_refl _, fun h => nomatch h⟩
  dsimp only
  rcases h : expectOk (saveGraphAsCommands root (order g) fs) with ⟨fs', _ | _⟩ <;> cases verbose <;>
    rcases room with _ | _ | _ | _ | n <;> constructor <;> simp [seq, say, skip, onFiles, h]

/-- C104: gc-clean. -/
theorem C104_gc_clean (path : Text) (root : FPath) (force silent : Bool) (answer : Text) (fs : FS) (room : Option Nat) :
    CutShort fs (gcClean path root force silent answer ⟨fs, [], none⟩) (gcClean path root force silent answer ⟨fs, [], room⟩) ∧
    (gcClean path root force silent answer ⟨fs, [], none⟩).1.fs = (Store.gcClean root force answer fs).1 ∧
    (gcClean path root force silent answer ⟨fs, [], none⟩).2 = (Store.gcClean root force answer fs).2 := by
  refine ⟨?_, congrArg Prod.fst (gcClean_full path root force silent answer fs []),
    congrArg Prod.snd (gcClean_full path root force silent answer fs [])⟩
  unfold gcClean confirm cleanVerbosely
  rcases h : expectOk (clean root fs) with ⟨fs', _ | _⟩ <;> cases force <;> cases silent <;>
    cases hy : Args.confirmationYesNo answer <;> rcases room with _ | _ | _ | _ | n <;> constructor <;> simp [seq, say, skip, onFiles, h]

theorem randomFinish_cut (order : DirectedGraph → DirectedGraph) (path : Text) (root : FPath) (force : Bool) (answer : Text) (fs : FS)
    (room : Option Nat) (g : Option DirectedGraph) :
    CutShort fs (randomFinish order path root force answer ⟨fs, [], none⟩ g) (randomFinish order path root force answer ⟨fs, [], room⟩ g) := by
  unfold randomFinish confirm
  cases g with
  | none => rcases room with _ | _ | n <;> constructor <;> simp [say]
  | some g =>
    rcases h : Random.replaceGraph root (order g) fs with ⟨fs', _ | _⟩ <;> cases force <;>
      cases hy : Args.confirmationYesNo answer <;> rcases room with _ | _ | _ | n <;> constructor <;> simp [seq, say, onFiles, h]

/-- C104: gc-random. It ends if and only if it ends on a working standard output. -/
theorem C104_gc_random (rng : Nat → UInt64) (order : DirectedGraph → DirectedGraph) (path : Text) (root : FPath) (force : Bool)
    (answer vertexCount : Text) (edgeCount : Option Text) (fs : FS) (room : Option Nat) :
    (∀ r, Returns (Random.gcRandom rng order root force answer vertexCount edgeCount fs) r →
      ∃ full broken, Returns (gcRandom rng order path root force answer vertexCount edgeCount ⟨fs, [], none⟩) full ∧
        full.1.fs = r.1 ∧ full.2 = r.2 ∧
        Returns (gcRandom rng order path root force answer vertexCount edgeCount ⟨fs, [], room⟩) broken ∧ CutShort fs full broken) ∧
    (Diverges (Random.gcRandom rng order root force answer vertexCount edgeCount fs) →
      Diverges (gcRandom rng order path root force answer vertexCount edgeCount ⟨fs, [], room⟩)) := by
  unfold Random.gcRandom gcRandom
  rcases Random.sizes vertexCount edgeCount with _ | _ | ⟨vc, ec⟩
  case done =>
    have hm : Mono (Random.createsRandomDag rng vc ec) := Mono.bind (Mono.loop (fun s => by
      unfold Random.randomStep
      split <;> exact Mono.ret _) _) fun _ => Mono.ret _
    refine ⟨?_, ?_⟩
    · intro r hr
      obtain ⟨n, hn⟩ := hr
      have e := hn n (Nat.le_refl _)
      obtain ⟨g, hg, e⟩ := Run.bind_eq_done.1 e
      have hg' := hm.returns hg
      have hf := randomFinish_full order path root force answer fs [] g
      cases e
      exact ⟨_, _, Returns.bind hg' (Returns.ret _), congrArg Prod.fst hf, congrArg Prod.snd hf, Returns.bind hg' (Returns.ret _),
        randomFinish_cut order path root force answer fs room g⟩
    · intro h n
      have := h n
      dsimp only [Prog.bind, Prog.ret] at this ⊢
      cases hx : Random.createsRandomDag rng vc ec n with
      | done g => rw [hx] at this; cases this
      | panicked => rw [hx] at this; cases this
      | running => rfl
  all_goals
    refine ⟨fun r hr => ?_, fun h => absurd h (Returns.ret _).not_diverges⟩
    rw [hr.unique (Returns.ret _)]
    exact ⟨_, _, Returns.ret _, rfl, rfl, Returns.ret _, .inl rfl, List.prefix_refl _, fun h => nomatch h⟩

example : (gcBuild (fun _ => false) id [['d']] true ⟨sampleFS "AddEdge 1 2\n".toList, [], none⟩).1.printed =
      ["Vertices: 2".toList, "Edges: 1".toList, "Done.".toList] ∧
    (gcBuild (fun _ => false) id [['d']] true ⟨sampleFS "AddEdge 1 2\n".toList, [], some 1⟩).1.printed = ["Vertices: 2".toList] ∧
    (gcBuild (fun _ => false) id [['d']] true ⟨sampleFS "AddEdge 1 2\n".toList, [], some 1⟩).2 = .panic := by
  decide +kernel

/-! ### C105: what is printed -/

/-- C105 (partial): gc-build on a graph that can be loaded prints, in verbose mode, the number of its vertices and, if there are no
self-loops, the number of its edges, then `Done.`; the graph stored in the end is the same. Missing: self-loops, see
`C105_counterexample_gc_build`. -/
theorem C105_gc_build_partial (nd : Char → Bool) (order : DirectedGraph → DirectedGraph) (ho : IsOrder order) (root : FPath) (verbose : Bool)
    (fs : FS) (g : DirectedGraph) (h : loadGraph nd root fs = .done (.ok g)) (hl : LoopFree g) :
    ∃ (s : State) (g' : DirectedGraph) (vs : List VertexId) (es : List Edge),
      gcBuild nd order root verbose ⟨fs, [], none⟩ = (s, .success) ∧ loadGraph nd root s.fs = .done (.ok g') ∧ SameGraph g' g ∧
      vs.Nodup ∧ (∀ v, v ∈ vs ↔ g.containsVertex v = true) ∧ es.Nodup ∧ (∀ e, e ∈ es ↔ g.containsEdge e = true) ∧
      s.printed = (if verbose then ["Vertices: ".toList ++ GcCycle.showNat vs.length, "Edges: ".toList ++ GcCycle.showNat es.length] else []) ++
        ["Done.".toList] := by
  obtain ⟨fs', g', h1, h2, h3, _⟩ := C17_build_preserves_partial nd order ho root fs g h
  have hb := (loadGraph_built h).1
  have hf := gcBuild_full nd order root verbose fs []
  rw [h1] at hf
  have hf2 : (gcBuild nd order root verbose ⟨fs, [], none⟩).2 = .success := congrArg Prod.snd hf
  have hv : g.vertexCount = g.vertices.length := by simp [vertexCount, vertices, HMap.keys]
  have he := C04_edge_count_partial g hb hl
  refine ⟨(gcBuild nd order root verbose ⟨fs, [], none⟩).1, g', g.vertices, g.edges, Prod.ext rfl hf2, ?_, h3, hb.wf.nodup_vertices,
    fun _ => mem_vertices, hb.wf.nodup_edges, fun e => hb.wf.mem_edges, ?_⟩
  · rw [show (gcBuild nd order root verbose ⟨fs, [], none⟩).1.fs = fs' from congrArg Prod.fst hf]
    exact h2
  · have hx : expectOk (saveGraphAsCommands root (order g) fs) = (fs', .success) := by
      unfold Store.gcBuild at h1
      rw [h] at h1
      exact h1
    unfold gcBuild buildReport
    rw [h]
    cases verbose <;> simp [seq, say, skip, onFiles, hx, hv, he]

/-- `C105_gc_build_partial` for the file of one edge. -/
example (nd : Char → Bool) := C105_gc_build_partial nd id isOrder_id [['d']] true _ _ (load_sample nd [.AddEdge 1 2])
  (loopFree_graphOf (by decide))

/-- C105 is false for gc-build: for the stored graph with the one edge 1→1 it prints that there are no edges. -/
theorem C105_counterexample_gc_build (nd : Char → Bool) :
    ∃ g, loadGraph nd [['d']] (sampleFS "AddEdge 1 1\n".toList) = .done (.ok g) ∧ g.containsEdge ⟨1, 1⟩ = true ∧
      (gcBuild nd id [['d']] true ⟨sampleFS "AddEdge 1 1\n".toList, [], none⟩).1.printed =
        ["Vertices: 1".toList, "Edges: 0".toList, "Done.".toList] := by
  have h1 : loadGraph nd [['d']] (sampleFS "AddEdge 1 1\n".toList) = .done (.ok (GraphCommand.applyCommands [.AddEdge 1 1] .new)) := by
    rfl
  refine ⟨_, h1, by decide, ?_⟩
  unfold gcBuild
  rw [h1]
  decide +kernel

/-- C105 (partial): what gc-clean prints when it succeeds. With `--force --silent` it prints nothing. Missing: see
`C105_counterexample_silent`. -/
theorem C105_gc_clean_partial (path : Text) (root : FPath) (force silent : Bool) (answer : Text) (fs : FS)
    (h : (Store.gcClean root force answer fs).2 = .success) :
    (gcClean path root force silent answer ⟨fs, [], none⟩).1.printed =
      (if force then [] else ["Are you sure you want to clean graph at '".toList ++ path ++ "' ? (yes/no)".toList]) ++
      if force = true ∨ Args.confirmationYesNo answer = true then
        (if silent then [] else ["Cleaning graph under '".toList ++ path ++ "' ...".toList, "Done.".toList])
      else ["Aborting.".toList] := by
  unfold Store.gcClean at h
  unfold gcClean confirm cleanVerbosely
  rcases hx : expectOk (clean root fs) with ⟨fs', _ | _⟩ <;> cases force <;> cases silent <;>
    cases hy : Args.confirmationYesNo answer <;> simp_all [seq, say, skip, onFiles]

/-- `C105_gc_clean_partial` for a graph that is cleaned after the answer `yes`. -/
example : (gcClean "d".toList [['d']] false false "yes\n".toList ⟨sampleFS [], [], none⟩).1.printed =
    ["Are you sure you want to clean graph at 'd' ? (yes/no)".toList, "Cleaning graph under 'd' ...".toList, "Done.".toList] :=
  (C105_gc_clean_partial "d".toList [['d']] false false "yes\n".toList (sampleFS []) (by decide +kernel)).trans (by decide +kernel)

/-- C105 is false for `--silent` ("Don't print anything on stdout in case of success"): without `--force` the question is always printed,
also when the graph is then removed. -/
theorem C105_counterexample_silent (path : Text) (root : FPath) (answer : Text) (fs : FS) :
    (gcClean path root false true answer ⟨fs, [], none⟩).1.printed ≠ [] := by
  unfold gcClean confirm cleanVerbosely
  rcases hx : expectOk (clean root fs) with ⟨fs', _ | _⟩ <;> cases Args.confirmationYesNo answer <;> simp [seq, say, skip, onFiles, hx]

/-- C105: gc-build prints `Done.` only when it has saved the graph: its exit code is 0 and the files are those of a successful run. This holds
for every file system and every number of lines that standard output takes. -/
theorem C105_done_gc_build (nd : Char → Bool) (order : DirectedGraph → DirectedGraph) (root : FPath) (verbose : Bool) (fs : FS)
    (room : Option Nat) (h : "Done.".toList ∈ (gcBuild nd order root verbose ⟨fs, [], room⟩).1.printed) :
    (gcBuild nd order root verbose ⟨fs, [], room⟩).2 = .success ∧
    Store.gcBuild nd order root fs = ((gcBuild nd order root verbose ⟨fs, [], room⟩).1.fs, .success) := by
  have h1 : ∀ n, "Done.".toList ≠ "Vertices: ".toList ++ GcCycle.showNat n := fun n => by simp
  have h2 : ∀ n, "Done.".toList ≠ "Edges: ".toList ++ GcCycle.showNat n := fun n => by simp
  revert h
  unfold gcBuild Store.gcBuild buildReport
  generalize "Done.".toList = d at h1 h2 ⊢
  rcases loadGraph nd root fs with _ | _ | ⟨_ | g⟩ <;> try (intro h; cases h)
  dsimp only
  have h1 := h1 g.vertexCount
  have h2 := h2 g.edgeCount
  generalize "Vertices: ".toList ++ GcCycle.showNat g.vertexCount = l1 at h1 ⊢
  generalize "Edges: ".toList ++ GcCycle.showNat g.edgeCount = l2 at h2 ⊢
  rcases h : expectOk (saveGraphAsCommands root (order g) fs) with ⟨fs', _ | _⟩ <;> cases verbose <;>
    rcases room with _ | _ | _ | _ | n <;> simp [seq, say, skip, onFiles, h, h1, h2]

example : "Done.".toList ∈ (gcBuild (fun _ => false) id [['d']] true ⟨sampleFS "AddEdge 1 2\n".toList, [], some 3⟩).1.printed ∧
    "Done.".toList ∉ (gcBuild (fun _ => false) id [['d']] true ⟨sampleFS "AddEdge 1 2\n".toList, [], some 2⟩).1.printed := by
  decide +kernel

/-- C105: the last line that gc-clean prints is `Done.` only when the graph was removed. (The first lines contain the path, which can be
any text.) -/
theorem C105_done_gc_clean (path : Text) (root : FPath) (force silent : Bool) (answer : Text) (fs : FS) (room : Option Nat)
    (h : (gcClean path root force silent answer ⟨fs, [], room⟩).1.printed.getLast? = some "Done.".toList) :
    (gcClean path root force silent answer ⟨fs, [], room⟩).2 = .success ∧
    clean root fs = ((gcClean path root force silent answer ⟨fs, [], room⟩).1.fs, .ok ()) := by
  revert h
  have hok : ∀ fs', expectOk (clean root fs) = (fs', .success) → clean root fs = (fs', .ok ()) := by
    intro fs' h
    unfold expectOk at h
    split at h
    · rename_i fs1 e; cases h; exact e
    · cases h
  unfold gcClean confirm cleanVerbosely
  rcases h : expectOk (clean root fs) with ⟨fs', _ | _⟩ <;> cases force <;> cases silent <;>
    cases hy : Args.confirmationYesNo answer <;> rcases room with _ | _ | _ | _ | n <;>
    simp [seq, say, skip, onFiles, h] <;> exact hok _ h

example : (gcClean "d".toList [['d']] true false [] ⟨sampleFS [], [], none⟩).1.printed.getLast? = some "Done.".toList := by
  decide +kernel

end Output
end GC
