/-
Properties C17, C57 (effect of gc-add), C62, C64, C65, C67, C68, C69: the stored graph.
-/
import Verif.Proofs.Store
import Verif.Props.Format
import Verif.Props.Args
import Verif.Props.Graph
namespace GC
open Text Store

/-- The files the statements are about: `.graph`, `.graph/commands` and `lock`, all in the root directory. -/
example (root : FPath) : rootPath root = root ++ [".graph".toList] ∧ commandPath root = root ++ [".graph".toList, "commands".toList] ∧
    lockPath root = root ++ ["lock".toList] := by
  have h1 : graphRootDir = ".graph".toList := by decide +kernel
  have h2 : commandsFile = "commands".toList := by decide +kernel
  have h3 : lockFile = "lock".toList := by decide +kernel
  simp [rootPath, commandPath, lockPath, h1, h2, h3]

/-! ### C17 -/

/-- C17 (partial): gc-build, when it succeeds in loading the graph, leaves a file that loads to a graph with the same vertices and edges,
and changes nothing else. Missing: crash safety, see `C17_crash_outcomes_partial` and `C17_counterexample`. -/
theorem C17_build_preserves_partial (nd : Char → Bool) (order : DirectedGraph → DirectedGraph) (ho : IsOrder order) (root : FPath)
    (fs : FS) (g : DirectedGraph) (h : loadGraph nd root fs = .done (.ok g)) :
    ∃ fs' g', gcBuild nd order root fs = (fs', .success) ∧ loadGraph nd root fs' = .done (.ok g') ∧ SameGraph g' g ∧
      ∀ q, q ≠ commandPath root → fs' q = fs q := by
  obtain ⟨hb, c, hc, hr⟩ := loadGraph_built h
  have hb' : Built (order g) := hb.reorder (ho g)
  obtain ⟨g', h1, _, h3⟩ := C09_gcmd_round_trip nd (order g) hb'
  have hsave : saveGraphAsCommands root (order g) fs =
      ((fs.set (commandPath root) (some (.file []))).set (commandPath root) (some (.file (Format.Gcmd.save (order g)))), .ok ()) := by
    unfold saveGraphAsCommands createTruncate
    unfold Content at hc
    rw [hc]
    simp [appendText, FS.set_self]
  refine ⟨(fs.set (commandPath root) (some (.file []))).set (commandPath root) (some (.file (Format.Gcmd.save (order g)))), g', ?_, ?_,
    ?_, ?_⟩
  · unfold gcBuild
    rw [h]
    simp only
    rw [hsave]
    rfl
  · exact (loadGraph_content (FS.set_self _ _ _)).2 h1
  · rw [sameGraph_iff] at h3 ⊢
    rw [h3]
    exact toSet_perm hb.wf (ho g)
  · intro q hq
    rw [FS.set_other _ _ hq, FS.set_other _ _ hq]

/-- C17: gc-build on a graph that cannot be loaded changes nothing. -/
theorem C17_build_fails_safely (nd : Char → Bool) (order : DirectedGraph → DirectedGraph) (root : FPath) (fs : FS)
    (h : ∀ g, loadGraph nd root fs ≠ .done (.ok g)) : gcBuild nd order root fs = (fs, .panic) := by
  unfold gcBuild
  split
  · rename_i g hg; exact absurd hg (h g)
  · rfl

/-- C17 (partial): all possible outcomes when gc-build dies while rewriting: the old graph, or the graph made of the first commands of the
new file, possibly with the last id cut short, or an error. -/
theorem C17_crash_outcomes_partial (nd : Char → Bool) (root : FPath) (fs fs' : FS) (g : DirectedGraph)
    (h : loadGraph nd root fs = .done (.ok g)) (hc : RewriteInterrupted root (Format.Gcmd.save g) fs fs') :
    loadGraph nd root fs' = .done (.ok g) ∨
    (∃ k, loadGraph nd root fs' = .done (.ok (GraphCommand.applyCommands ((GraphCommand.asCommands g).take k) .new))) ∨
    (∃ k c c', (GraphCommand.asCommands g)[k]? = some c ∧ Truncated c c' ∧
      loadGraph nd root fs' = .done (.ok (GraphCommand.applyCommands ((GraphCommand.asCommands g).take k ++ [c']) .new))) ∨
    (∃ e, loadGraph nd root fs' = .done (.error e)) := by
  rcases hc with rfl | ⟨p, hp, rfl⟩
  · exact .inl h
  right
  rw [gcmd_save_eq] at hp
  have hload : ∀ cs, Format.Gcmd.readAsCommands nd ([] ++ p) = .done (.ok cs) →
      loadGraph nd root (fs.set (commandPath root) (some (.file p))) = .done (.ok (GraphCommand.applyCommands cs .new)) := by
    intro cs hcs
    refine (loadGraph_content (FS.set_self _ _ _)).2 ?_
    unfold Format.Gcmd.readAsCommands at hcs
    unfold Format.Gcmd.read Format.read
    rw [List.nil_append] at hcs
    rw [hcs]
    rfl
  obtain ⟨k, _, h1 | ⟨c, c', h1, h2, h3⟩ | ⟨c, l, _, _, h3⟩⟩ :=
    C15_crash_outcomes_partial nd [] p [] (GraphCommand.asCommands g) (.inl rfl) rfl hp
  · exact .inl ⟨k, hload _ (by simpa using h1)⟩
  · exact .inr (.inl ⟨k, c, c', h1, h2, hload _ (by simpa using h3)⟩)
  · refine .inr (.inr ⟨.parse (.atLine ((lines []).length + k + 1) l), ?_⟩)
    unfold loadGraph
    rw [FS.set_self]
    simp only
    unfold Format.Gcmd.readAsCommands at h3
    unfold Format.Gcmd.read Format.read
    rw [List.nil_append] at h3
    rw [h3]
    rfl

/-- A file system with directory `d` holding a graph with the given command file. -/
def sampleFS (content : Text) : FS := fun q =>
  if q = [] ∨ q = [['d']] ∨ q = rootPath [['d']] then some .dir
  else if q = commandPath [['d']] then some (.file content) else none

theorem sampleFS_ready (c : Text) : Ready [['d']] (sampleFS c) := by
  have hlock : sampleFS c (lockPath [['d']]) = none := rfl
  refine ⟨?_, ⟨c, rfl⟩, by rw [hlock]; simp⟩
  intro q hq
  obtain ⟨t, ht⟩ := hq
  have hl := congrArg List.length ht
  have hlen : (rootPath [['d']]).length = 2 := rfl
  rw [List.length_append, hlen] at hl
  have hq : q = (rootPath [['d']]).take q.length := by rw [← ht]; simp
  have : q.length = 0 ∨ q.length = 1 ∨ q.length = 2 := by omega
  rcases this with h | h | h <;> rw [h] at hq <;> rw [hq] <;> rfl

theorem sampleFS_wf (content : Text) : (sampleFS content).WF := by
  refine ⟨by simp [sampleFS], fun p x h => ?_⟩
  unfold sampleFS at h ⊢
  have e1 : rootPath [['d']] = [['d']] ++ [graphRootDir] := rfl
  have e2 : commandPath [['d']] = rootPath [['d']] ++ [commandsFile] := rfl
  split at h
  · rename_i hq
    rcases hq with hq | hq | hq
    · simp at hq
    · have := (List.append_inj' (s₁ := p) (t₁ := [x]) (s₂ := []) (t₂ := [['d']]) hq rfl).1
      simp [this]
    · rw [e1] at hq
      simp [(List.append_inj' hq rfl).1]
  · split at h
    · rename_i hq
      rw [e2] at hq
      simp [(List.append_inj' hq rfl).1]
    · exact absurd rfl h

example : Ready [['d']] (sampleFS "AddEdge 1 2\n".toList) := sampleFS_ready _

theorem sampleFS_content (c : Text) : Content [['d']] (sampleFS c) c := rfl

theorem load_sample (nd : Char → Bool) (cs : List GraphCommand) :
    loadGraph nd [['d']] (sampleFS (Format.Gcmd.commandsText cs)) = .done (.ok (GraphCommand.applyCommands cs .new)) := by
  refine (loadGraph_content (show Content [['d']] (sampleFS (Format.Gcmd.commandsText cs)) _ from rfl)).2 ?_
  have h := C13_own_files_do_not_panic_partial nd cs
  unfold Format.Gcmd.read Format.read
  unfold Format.Gcmd.readAsCommands at h
  rw [h]
  rfl

/-- gc-build on a stored graph (`C17_build_preserves_partial`), killed right after it truncated the file (`C17_crash_outcomes_partial`), and on
a directory without graph (`C17_build_fails_safely`). -/
example (nd : Char → Bool) : let cs : List GraphCommand := [.AddEdge 1 2, .AddEdge 2 3, .RemoveVertex 3]
    let fs := sampleFS (Format.Gcmd.commandsText cs)
    (∃ fs' g', gcBuild nd id [['d']] fs = (fs', .success) ∧ loadGraph nd [['d']] fs' = .done (.ok g') ∧
      SameGraph g' (GraphCommand.applyCommands cs .new)) ∧
    RewriteInterrupted [['d']] (Format.Gcmd.save (GraphCommand.applyCommands cs .new)) fs
      (fs.set (commandPath [['d']]) (some (.file "AddVer".toList))) ∧
    gcBuild nd id [['e']] fs = (fs, .panic) := by
  intro cs fs
  obtain ⟨fs', g', h1, h2, h3, _⟩ := C17_build_preserves_partial nd id (fun _ => .refl _) [['d']] fs _ (load_sample nd cs)
  have hi : RewriteInterrupted [['d']] (Format.Gcmd.save (GraphCommand.applyCommands cs .new)) fs
      (fs.set (commandPath [['d']]) (some (.file "AddVer".toList))) := .inr ⟨_, by decide, rfl⟩
  have := C17_crash_outcomes_partial nd [['d']] fs _ _ (load_sample nd cs) hi
  refine ⟨⟨fs', g', h1, h2, h3⟩, hi, C17_build_fails_safely nd id [['e']] fs fun g hg => ?_⟩
  have h4 : loadGraph nd [['e']] fs = .done (.error (.io .notFound)) := rfl
  rw [h4] at hg
  cases hg

/-- C17 is false: a crash right after the file was truncated loses the whole graph. -/
theorem C17_counterexample (nd : Char → Bool) :
    ∃ g fs', loadGraph nd [['d']] (sampleFS "AddEdge 1 2\n".toList) = .done (.ok g) ∧ g.containsEdge ⟨1, 2⟩ = true ∧
      RewriteInterrupted [['d']] (Format.Gcmd.save g) (sampleFS "AddEdge 1 2\n".toList) fs' ∧
      loadGraph nd [['d']] fs' = .done (.ok .new) := by
  refine ⟨GraphCommand.applyCommands [.AddEdge 1 2] .new, _, rfl, by decide, .inr ⟨[], List.nil_prefix, rfl⟩, ?_⟩
  exact (loadGraph_content (FS.set_self _ _ _)).2 rfl

/-! ### C57, C65, C68, C69: gc-add and gc-delete -/

/-- C57: the effect of gc-add on a stored graph: if it ends normally, then exactly the requested vertices and edges were added. -/
theorem C57_gc_add_effect (nd : Char → Bool) (root : FPath) (a : AddArgs) (fs : FS) (c : Text) (g : DirectedGraph)
    (hr : Ready root fs) (hc : Content root fs c) (ht : NewlineTerminated c) (hg : loadGraph nd root fs = .done (.ok g))
    (hs : (gcAdd root a fs).2 = .success) :
    ∃ g', loadGraph nd root (gcAdd root a fs).1 = .done (.ok g') ∧
      (∀ e : Edge, g'.containsEdge e = true ↔ g.containsEdge e = true ∨ RequestsEdge a e.src e.dst) ∧
      (∀ v, g'.containsVertex v = true ↔ g.containsVertex v = true ∨ (∃ vs, Given a.vertex vs ∧ v ∈ vs) ∨
        ∃ w, RequestsEdge a v w ∨ RequestsEdge a w v) ∧
      Ready root (gcAdd root a fs).1 ∧
      ∀ q, q ≠ lockPath root → q ≠ commandPath root → (gcAdd root a fs).1 q = fs q := by
  unfold gcAdd at hs ⊢
  rw [andThen_success] at hs
  obtain ⟨s1, hs⟩ := hs
  rw [andThen_of_success s1]
  obtain ⟨cs1, d1⟩ := mutateStep_success.1 s1
  have a1 := mutateStep_ready hr d1
  generalize (mutateStep root a.vertex _ fs).1 = fs1 at hs a1 ⊢
  rw [andThen_success] at hs
  obtain ⟨s2, hs⟩ := hs
  rw [andThen_of_success s2]
  obtain ⟨cs2, d2⟩ := mutateStep_success.1 s2
  have a2 := a1.trans (mutateStep_ready a1.1 d2)
  generalize (mutateStep root a.edge _ fs1).1 = fs2 at hs a2 ⊢
  rw [andThen_success] at hs
  obtain ⟨s3, hs⟩ := hs
  rw [andThen_of_success s3]
  obtain ⟨cs3, d3⟩ := mutateStep_success.1 s3
  have a3 := a2.trans (mutateStep_ready a2.1 d3)
  generalize (mutateStep root a.chain _ fs2).1 = fs3 at hs a3 ⊢
  rw [andThen_success] at hs
  obtain ⟨s4, hs⟩ := hs
  rw [andThen_of_success s4]
  obtain ⟨cs4, d4⟩ := mutateStep_success.1 s4
  have a4 := a3.trans (mutateStep_ready a3.1 d4)
  generalize (mutateStep root a.cycle _ fs3).1 = fs4 at hs a4 ⊢
  rw [andThen_success] at hs
  obtain ⟨s5, hs⟩ := hs
  rw [andThen_of_success s5]
  obtain ⟨cs5, d5⟩ := mutateStep_success.1 s5
  have a5 := a4.trans (mutateStep_ready a4.1 d5)
  generalize (mutateStep root a.star _ fs4).1 = fs5 at hs a5 ⊢
  obtain ⟨cs6, d6⟩ := mutateStep_success.1 hs
  have a6 := a5.trans (mutateStep_ready a5.1 d6)
  generalize (mutateStep root a.clique _ fs5).1 = fs6 at hs a6 ⊢
  obtain ⟨hb, c0, hc0, hr0⟩ := loadGraph_built hg
  have hcc : c0 = c := by
    unfold Content at hc hc0
    rw [hc] at hc0
    cases hc0
    rfl
  subst hcc
  have happ := C14_append_applies nd c0 g (cs1 ++ cs2 ++ cs3 ++ cs4 ++ cs5 ++ cs6) ht hr0
  refine ⟨_, (loadGraph_content (a6.2.1 _ hc)).2 happ, ?_⟩
  -- membership of the commands
  have o1 : OnlyAdds cs1 ∧ (∀ x y, .AddEdge x y ∉ cs1) ∧ ∀ v, .AddVertex v ∈ cs1 ↔ ∃ vs, Given a.vertex vs ∧ v ∈ vs := by
    rcases d1 with ⟨h, rfl⟩ | ⟨vs, hv, hm⟩
    · refine ⟨(fun c hc => by cases hc), by simp, ?_⟩
      intro v
      simp [Given, h]
    · cases hm
      refine ⟨?_, by simp, ?_⟩
      · intro c hc
        obtain ⟨v, _, rfl⟩ := List.mem_map.1 hc
        exact .inl ⟨v, rfl⟩
      · intro v
        simp only [List.mem_map, GraphCommand.AddVertex.injEq, exists_eq_right]
        exact ⟨fun h => ⟨vs, hv, h⟩, fun ⟨ws, hw, h⟩ => by rwa [hv.unique hw]⟩
  have shape : ∀ {o : Option (List Text)} {mk : List VertexId → Run (List (VertexId × VertexId))} {cs : List GraphCommand}
      {P : List VertexId → VertexId → VertexId → Prop},
      StepCommands o (fun vs => (mk vs).bind fun ps => .done (edgeCommands (Args.reverseIfNeeded a.reverse ps))) cs →
      (∀ vs ps, mk vs = .done ps → ∀ x y, (x, y) ∈ ps ↔ P vs x y) →
      OnlyAdds cs ∧ (∀ v, .AddVertex v ∉ cs) ∧ ∀ x y, .AddEdge x y ∈ cs ↔
        (a.reverse = false ∧ ∃ vs, Given o vs ∧ P vs x y) ∨ (a.reverse = true ∧ ∃ vs, Given o vs ∧ P vs y x) := by
    intro o mk cs P hd hP
    rcases hd with ⟨h, rfl⟩ | ⟨vs, hv, hm⟩
    · refine ⟨(fun c hc => by cases hc), by simp, ?_⟩
      intro x y
      simp [Given, h]
    · obtain ⟨ps, h1, h2⟩ := Run.bind_eq_done.1 hm
      cases h2
      refine ⟨onlyAdds_edgeCommands _, fun v => not_mem_edgeCommands, ?_⟩
      intro x y
      rw [mem_edgeCommands_reverse, hP vs ps h1, hP vs ps h1]
      constructor
      · rintro (⟨h, hp⟩ | ⟨h, hp⟩)
        · exact .inl ⟨h, vs, hv, hp⟩
        · exact .inr ⟨h, vs, hv, hp⟩
      · rintro (⟨h, ws, hw, hp⟩ | ⟨h, ws, hw, hp⟩)
        · rw [hw.unique hv] at hp; exact .inl ⟨h, hp⟩
        · rw [hw.unique hv] at hp; exact .inr ⟨h, hp⟩
  have memi : ∀ (ps : List (VertexId × VertexId)) x y, (x, y) ∈ ps ↔ ∃ i : Nat, ps[i]? = some (x, y) := by
    intro ps x y
    exact List.mem_iff_getElem?
  have o2 := shape (P := fun vs x y => ∃ k, vs[2 * k]? = some x ∧ vs[2 * k + 1]? = some y) (mk := fun vs => Run.unwrap (Args.asVertexTuple vs))
    d2 (by
      intro vs ps h x y
      have h' : Args.asVertexTuple vs = some ps := by
        cases he : Args.asVertexTuple vs with
        | none => rw [he] at h; cases h
        | some qs => rw [he] at h; cases h; rfl
      rw [memi]
      exact exists_congr fun i => ((C58_pairs vs).2 ps h').2 i x y)
  have o3 := shape (P := fun vs x y => ∃ i : Nat, vs[i]? = some x ∧ vs[i + 1]? = some y) (mk := Args.chainFromVertices)
    d3 (by
      intro vs ps h x y
      have hne : vs ≠ [] := by rintro rfl; cases h
      obtain ⟨ps', h1, _, h3⟩ := C57_chain vs hne
      rw [h1] at h; cases h
      rw [memi]
      exact exists_congr fun i => h3 i x y)
  have d4' : StepCommands a.cycle (fun vs => ((Run.unwrap (Args.cycleFromVertices vs)).bind fun r => r).bind
      fun ps => .done (edgeCommands (Args.reverseIfNeeded a.reverse ps))) cs4 := by
    rcases d4 with h | ⟨vs, hv, hm⟩
    · exact .inl h
    · refine .inr ⟨vs, hv, ?_⟩
      refine Eq.trans ?_ hm
      show _ = mkCycle a.reverse vs
      unfold mkCycle
      dsimp only
      cases Args.cycleFromVertices vs <;> rfl
  have o4 := shape (P := fun vs x y => ∃ i : Nat, i < vs.length ∧ vs[i]? = some x ∧ vs[(i + 1) % vs.length]? = some y)
    d4' (by
      intro vs ps h x y
      by_cases hne : vs = []
      · subst hne; cases h
      · obtain ⟨ps', h1, _, h3⟩ := (C57_cycle vs).2 hne
        rw [h1] at h; cases h
        rw [memi]
        exact exists_congr fun i => h3 i x y)
  have o5 := shape (P := fun vs x y => ∃ i : Nat, vs[0]? = some x ∧ vs[i + 1]? = some y) (mk := Args.starFromVertices)
    d5 (by
      intro vs ps h x y
      obtain ⟨ps', h1, _, h3⟩ := C57_star vs
      rw [h1] at h; cases h
      rw [memi]
      exact exists_congr fun i => h3 i x y)
  have o6 : OnlyAdds cs6 ∧ (∀ v, .AddVertex v ∉ cs6) ∧ ∀ x y, .AddEdge x y ∈ cs6 ↔
      ∃ vs, Given a.clique vs ∧ ∃ i j : Nat, i ≠ j ∧ vs[i]? = some x ∧ vs[j]? = some y := by
    rcases d6 with ⟨h, rfl⟩ | ⟨vs, hv, hm⟩
    · refine ⟨(fun c hc => by cases hc), by simp, ?_⟩
      intro x y
      simp [Given, h]
    · obtain ⟨ps, h1, h2⟩ := Run.bind_eq_done.1 hm
      cases h2
      obtain ⟨ps', h1', h3⟩ := C57_clique vs
      rw [h1'] at h1; cases h1
      refine ⟨onlyAdds_edgeCommands _, fun v => not_mem_edgeCommands, ?_⟩
      intro x y
      rw [mem_edgeCommands, h3]
      exact ⟨fun h => ⟨vs, hv, h⟩, fun ⟨ws, hw, h⟩ => by rwa [hv.unique hw]⟩
  have hall : OnlyAdds (cs1 ++ cs2 ++ cs3 ++ cs4 ++ cs5 ++ cs6) :=
    ((((o1.1.append o2.1).append o3.1).append o4.1).append o5.1).append o6.1
  have hE : ∀ x y, .AddEdge x y ∈ cs1 ++ cs2 ++ cs3 ++ cs4 ++ cs5 ++ cs6 ↔ RequestsEdge a x y := by
    intro x y
    simp only [List.mem_append, o1.2.1 x y, false_or, o2.2.2, o3.2.2, o4.2.2, o5.2.2, o6.2.2]
    unfold RequestsEdge
    constructor
    · rintro (((((⟨h, vs, hv, k, h1, h2⟩ | ⟨h, vs, hv, k, h1, h2⟩) | ⟨h, vs, hv, k, h1, h2⟩ | ⟨h, vs, hv, k, h1, h2⟩) |
        ⟨h, vs, hv, k, h1, h2, h3⟩ | ⟨h, vs, hv, k, h1, h2, h3⟩) | ⟨h, vs, hv, k, h1, h2⟩ | ⟨h, vs, hv, k, h1, h2⟩) | h)
      · exact .inl ⟨h, .edge hv h1 h2⟩
      · exact .inr (.inl ⟨h, .edge hv h1 h2⟩)
      · exact .inl ⟨h, .chain hv h1 h2⟩
      · exact .inr (.inl ⟨h, .chain hv h1 h2⟩)
      · exact .inl ⟨h, .cycle hv h1 h2 h3⟩
      · exact .inr (.inl ⟨h, .cycle hv h1 h2 h3⟩)
      · exact .inl ⟨h, .star hv h1 h2⟩
      · exact .inr (.inl ⟨h, .star hv h1 h2⟩)
      · exact .inr (.inr h)
    · rintro (⟨h, hs⟩ | ⟨h, hs⟩ | h)
      · cases hs with
        | edge hv h1 h2 => exact .inl (.inl (.inl (.inl (.inl ⟨h, _, hv, _, h1, h2⟩))))
        | chain hv h1 h2 => exact .inl (.inl (.inl (.inr (.inl ⟨h, _, hv, _, h1, h2⟩))))
        | cycle hv h1 h2 h3 => exact .inl (.inl (.inr (.inl ⟨h, _, hv, _, h1, h2, h3⟩)))
        | star hv h1 h2 => exact .inl (.inr (.inl ⟨h, _, hv, _, h1, h2⟩))
      · cases hs with
        | edge hv h1 h2 => exact .inl (.inl (.inl (.inl (.inr ⟨h, _, hv, _, h1, h2⟩))))
        | chain hv h1 h2 => exact .inl (.inl (.inl (.inr (.inr ⟨h, _, hv, _, h1, h2⟩))))
        | cycle hv h1 h2 h3 => exact .inl (.inl (.inr (.inr ⟨h, _, hv, _, h1, h2, h3⟩)))
        | star hv h1 h2 => exact .inl (.inr (.inr ⟨h, _, hv, _, h1, h2⟩))
      · exact .inr h
  have hV : ∀ v, .AddVertex v ∈ cs1 ++ cs2 ++ cs3 ++ cs4 ++ cs5 ++ cs6 ↔ ∃ vs, Given a.vertex vs ∧ v ∈ vs := by
    intro v
    simp only [List.mem_append, o1.2.2, o2.2.1, o3.2.1, o4.2.1, o5.2.1, o6.2.1, or_false]
  have hset := toSet_applyCommands hb.wf (cs1 ++ cs2 ++ cs3 ++ cs4 ++ cs5 ++ cs6)
  have hrun := run_adds hall g.toSet
  rw [← hset] at hrun
  refine ⟨?_, ?_, a6.1, a6.2.2⟩
  · intro e
    have := hrun.1 e
    rwa [hE] at this
  · intro v
    have := hrun.2 v
    simp only [hE, hV] at this
    exact this

/-- C65: gc-add ends normally exactly when its arguments are valid, whatever the state of the file system. -/
theorem C65_add_exit_code (root : FPath) (a : AddArgs) (fs : FS) :
    (gcAdd root a fs).2 = .success ↔ ValidAdd a := by
  have step : ∀ (o : Option (List Text)) (mk : List VertexId → Run (List GraphCommand)) (Q : List VertexId → Prop) (fs : FS),
      (∀ vs, (∃ cs, mk vs = .done cs) ↔ Q vs) →
      ((mutateStep root o mk fs).2 = .success ↔ ∀ l, o = some l → ∃ vs, ArgIds l vs ∧ Q vs) := by
    intro o mk Q fs hQ
    rw [mutateStep_success]
    cases o with
    | none => exact ⟨fun _ l h => (by cases h), fun _ => ⟨[], .inl ⟨rfl, rfl⟩⟩⟩
    | some l =>
      constructor
      · rintro ⟨cs, ⟨h, _⟩ | ⟨vs, ⟨l', h, hl⟩, hm⟩⟩
        · cases h
        · intro l2 h2
          cases h
          cases h2
          exact ⟨vs, hl, (hQ vs).1 ⟨cs, hm⟩⟩
      · intro h
        obtain ⟨vs, hl, hq⟩ := h l rfl
        obtain ⟨cs, hm⟩ := (hQ vs).2 hq
        exact ⟨cs, .inr ⟨vs, ⟨l, rfl, hl⟩, hm⟩⟩
  have q1 : ∀ vs : List VertexId, (∃ cs, (Run.done (vs.map GraphCommand.AddVertex)) = .done cs) ↔ True := by
    intro vs; simp
  have q2 : ∀ vs, (∃ cs, mkEdges a.reverse vs = .done cs) ↔ vs.length % 2 = 0 := by
    intro vs
    unfold mkEdges Args.asVertexTuple
    by_cases h : vs.length % 2 = 0
    · simp [h, Run.unwrap, Run.bind]
    · simp [h, Run.unwrap, Run.bind]
  have q3 : ∀ vs, (∃ cs, mkChain a.reverse vs = .done cs) ↔ vs ≠ [] := by
    intro vs
    unfold mkChain
    constructor
    · rintro ⟨cs, h⟩ rfl
      cases h
    · intro h
      obtain ⟨ps, h1, _⟩ := C57_chain vs h
      rw [h1]
      exact ⟨_, rfl⟩
  have q4 : ∀ vs, (∃ cs, mkCycle a.reverse vs = .done cs) ↔ vs ≠ [] := by
    intro vs
    unfold mkCycle
    constructor
    · rintro ⟨cs, h⟩ rfl
      cases h
    · intro h
      obtain ⟨ps, h1, _⟩ := (C57_cycle vs).2 h
      rw [h1]
      exact ⟨_, rfl⟩
  have q5 : ∀ vs, (∃ cs, mkStar a.reverse vs = .done cs) ↔ True := by
    intro vs
    obtain ⟨ps, h1, _⟩ := C57_star vs
    unfold mkStar
    rw [h1]
    simp [Run.bind]
  have q6 : ∀ vs, (∃ cs, mkClique vs = .done cs) ↔ True := by
    intro vs
    obtain ⟨ps, h1, _⟩ := C57_clique vs
    unfold mkClique
    rw [h1]
    simp [Run.bind]
  unfold gcAdd
  simp only [andThen_success]
  rw [step _ _ _ _ q1, step _ _ _ _ q2, step _ _ _ _ q3, step _ _ _ _ q4, step _ _ _ _ q5, step _ _ _ _ q6]
  simp only [and_true, ValidAdd]

/-- C65 is false: without an initialised graph, gc-add with valid arguments reports success although nothing is stored. -/
theorem C65_counterexample (nd : Char → Bool) :
    ∃ fs : FS, fs.WF ∧ (gcAdd [] { vertex := some [['1']] } fs).2 = .success ∧
      loadGraph nd [] (gcAdd [] { vertex := some [['1']] } fs).1 = .done (.error (.io .notFound)) := by
  refine ⟨fun q => if q = [] then some .dir else none, ⟨rfl, ?_⟩, rfl, rfl⟩
  intro p x h
  simp at h

/-- C65 (partial): on an initialised graph, success means that the commands were stored. Missing: the claim for directories without
graph, which is false (`C65_counterexample`). -/
theorem C65_add_stores_partial (root : FPath) (cs : List GraphCommand) (fs : FS) (c : Text) (hr : Ready root fs) (hc : Content root fs c) :
    ∃ fs', applyGraphCommands root cs fs = (fs', .ok ()) ∧ Content root fs' (Format.Gcmd.addCommands c cs) ∧ Ready root fs' :=
  let ⟨fs', h1, h2, h3, _⟩ := applyGraphCommands_ready hr hc cs
  ⟨fs', h1, h2, h3⟩

/-- `C57_gc_add_effect` and `C65_add_stores_partial` for a stored graph with the edge 1 → 2: adding a reversed chain and a vertex. -/
example (nd : Char → Bool) : let a : AddArgs := { vertex := some [['9']], chain := some [['3'], ['2'], ['1']], reverse := true }
    let fs := sampleFS (Format.Gcmd.commandsText [.AddEdge 1 2])
    (∃ g', loadGraph nd [['d']] (gcAdd [['d']] a fs).1 = .done (.ok g') ∧ ∀ e : Edge, g'.containsEdge e = true ↔
      (GraphCommand.applyCommands [.AddEdge 1 2] .new).containsEdge e = true ∨ RequestsEdge a e.src e.dst) ∧
    ∃ fs', applyGraphCommands [['d']] [.AddVertex 7, .RemoveEdge 1 2] fs = (fs', .ok ()) := by
  intro a fs
  obtain ⟨g', h1, h2, _⟩ := C57_gc_add_effect nd [['d']] a fs _ _ (sampleFS_ready _) rfl (.inr (by decide)) (load_sample nd _)
    (by decide +kernel)
  obtain ⟨fs', h3, _⟩ := C65_add_stores_partial [['d']] [.AddVertex 7, .RemoveEdge 1 2] fs _ (sampleFS_ready _) rfl
  exact ⟨⟨g', h1, h2⟩, fs', h3⟩

/-- C68 (partial): with a single option, a failing gc-add changes nothing. Missing: several options, see `C68_counterexample`. -/
theorem C68_single_option_atomic_partial (root : FPath) (l : List Text) (rev : Bool) (fs : FS) :
    ∀ a ∈ [({ vertex := some l } : AddArgs), { edge := some l, reverse := rev }, { chain := some l, reverse := rev },
        { cycle := some l, reverse := rev }, { star := some l, reverse := rev }, { clique := some l }],
      (gcAdd root a fs).2 = .panic → (gcAdd root a fs).1 = fs := by
  have none_step : ∀ mk fs, mutateStep root none mk fs = (fs, .success) := fun _ _ => rfl
  have one : ∀ (r : FS × Exit) (f : FS → FS × Exit), (∀ fs, f fs = (fs, .success)) → andThen r f = r := by
    rintro ⟨fs, e⟩ f hf
    cases e <;> simp [andThen, hf]
  have hs : ∀ (fs : FS) (f : FS → FS × Exit), andThen (fs, .success) f = f fs := fun _ _ => rfl
  intro a ha h
  simp only [List.mem_cons, List.not_mem_nil, or_false] at ha
  rcases ha with rfl | rfl | rfl | rfl | rfl | rfl <;> unfold gcAdd at h ⊢ <;> simp only [none_step, hs] at h ⊢ <;>
    first
      | exact mutateStep_panic h
      | (rw [one _ _ (fun fs => rfl)] at h ⊢; exact mutateStep_panic h)

/-- C68 is false: `gc-add --vertex 7 --edge 1` fails, but vertex 7 was stored. -/
theorem C68_counterexample (nd : Char → Bool) :
    ∃ g, (gcAdd [['d']] { vertex := some [['7']], edge := some [['1']] } (sampleFS [])).2 = .panic ∧
      loadGraph nd [['d']] (gcAdd [['d']] { vertex := some [['7']], edge := some [['1']] } (sampleFS [])).1 = .done (.ok g) ∧
      g.containsVertex 7 = true := by
  refine ⟨GraphCommand.applyCommands [.AddVertex 7] .new, by rfl, by rfl, by decide⟩

/-- C69: the effect of gc-delete on a stored graph. -/
theorem C69_gc_delete_effect (nd : Char → Bool) (root : FPath) (vertex edge : Option (List Text)) (fs : FS) (c : Text) (g : DirectedGraph)
    (hr : Ready root fs) (hc : Content root fs c) (ht : NewlineTerminated c) (hg : loadGraph nd root fs = .done (.ok g))
    (hs : (gcDelete root vertex edge fs).2 = .success) :
    ∃ g', loadGraph nd root (gcDelete root vertex edge fs).1 = .done (.ok g') ∧
      (∀ v, g'.containsVertex v = true ↔ g.containsVertex v = true ∧ ∀ vs, Given vertex vs → v ∉ vs) ∧
      (∀ e : Edge, g'.containsEdge e = true ↔ g.containsEdge e = true ∧ (∀ vs, Given vertex vs → e.src ∉ vs ∧ e.dst ∉ vs) ∧
        ∀ vs, Given edge vs → ∀ k, ¬ (vs[2 * k]? = some e.src ∧ vs[2 * k + 1]? = some e.dst)) ∧
      Ready root (gcDelete root vertex edge fs).1 ∧
      ∀ q, q ≠ lockPath root → q ≠ commandPath root → (gcDelete root vertex edge fs).1 q = fs q := by
  unfold gcDelete at hs ⊢
  rw [andThen_success] at hs
  obtain ⟨s1, s2⟩ := hs
  rw [andThen_of_success s1]
  obtain ⟨cs1, d1⟩ := mutateStep_success.1 s1
  have a1 := mutateStep_ready hr d1
  generalize (mutateStep root vertex _ fs).1 = fs1 at s2 a1 ⊢
  obtain ⟨cs2, d2⟩ := mutateStep_success.1 s2
  have a2 := a1.trans (mutateStep_ready a1.1 d2)
  generalize (mutateStep root edge _ fs1).1 = fs2 at s2 a2 ⊢
  obtain ⟨hb, c0, hc0, hr0⟩ := loadGraph_built hg
  have hcc : c0 = c := by
    unfold Content at hc hc0
    rw [hc] at hc0
    cases hc0
    rfl
  subst hcc
  have happ := C14_append_applies nd c0 g (cs1 ++ cs2) ht hr0
  refine ⟨_, (loadGraph_content (a2.2.1 _ hc)).2 happ, ?_⟩
  have r1 : ∀ (vs : List VertexId) (G : SetGraph),
      (∀ v, (G.run (vs.map .RemoveVertex)).V v ↔ G.V v ∧ v ∉ vs) ∧
      ∀ e, (G.run (vs.map .RemoveVertex)).E e ↔ G.E e ∧ e.src ∉ vs ∧ e.dst ∉ vs := by
    intro vs
    induction vs with
    | nil => intro G; simp [SetGraph.run]
    | cons u vs ih =>
      intro G
      have e : G.run ((u :: vs).map .RemoveVertex) = (G.step (.RemoveVertex u)).run (vs.map .RemoveVertex) := rfl
      rw [e]
      refine ⟨fun v => ?_, fun e => ?_⟩
      · rw [(ih _).1]; simp [SetGraph.step, and_assoc]
      · rw [(ih _).2]
        simp only [SetGraph.step, List.mem_cons, not_or]
        tauto
  have r2 : ∀ (ps : List (VertexId × VertexId)) (G : SetGraph),
      (∀ v, (G.run (ps.map fun p => .RemoveEdge p.1 p.2)).V v ↔ G.V v) ∧
      ∀ e : Edge, (G.run (ps.map fun p => .RemoveEdge p.1 p.2)).E e ↔ G.E e ∧ (e.src, e.dst) ∉ ps := by
    intro ps
    induction ps with
    | nil => intro G; simp [SetGraph.run]
    | cons p ps ih =>
      intro G
      have e : G.run ((p :: ps).map fun p => .RemoveEdge p.1 p.2) =
        (G.step (.RemoveEdge p.1 p.2)).run (ps.map fun p => .RemoveEdge p.1 p.2) := rfl
      rw [e]
      refine ⟨fun v => ?_, fun e => ?_⟩
      · rw [(ih _).1]; simp [SetGraph.step]
      · rw [(ih _).2]
        obtain ⟨x, y⟩ := e
        obtain ⟨a, b⟩ := p
        simp only [SetGraph.step, List.mem_cons, not_or, Prod.mk.injEq, Ne, Edge.mk.injEq]
        tauto
  have v1 : ∀ G : SetGraph, (∀ v, (G.run cs1).V v ↔ G.V v ∧ ∀ vs, Given vertex vs → v ∉ vs) ∧
      ∀ e, (G.run cs1).E e ↔ G.E e ∧ ∀ vs, Given vertex vs → e.src ∉ vs ∧ e.dst ∉ vs := by
    intro G
    rcases d1 with ⟨h, rfl⟩ | ⟨vs, hv, hm⟩
    · simp [SetGraph.run, Given, h]
    · cases hm
      refine ⟨fun v => ?_, fun e => ?_⟩
      · rw [(r1 vs G).1]
        exact and_congr_right fun _ => ⟨fun h ws hw => by rwa [hw.unique hv], fun h => h vs hv⟩
      · rw [(r1 vs G).2]
        exact and_congr_right fun _ => ⟨fun h ws hw => by rwa [hw.unique hv], fun h => h vs hv⟩
  have v2 : ∀ G : SetGraph, (∀ v, (G.run cs2).V v ↔ G.V v) ∧
      ∀ e : Edge, (G.run cs2).E e ↔ G.E e ∧
        ∀ vs, Given edge vs → ∀ k, ¬ (vs[2 * k]? = some e.src ∧ vs[2 * k + 1]? = some e.dst) := by
    intro G
    rcases d2 with ⟨h, rfl⟩ | ⟨vs, hv, hm⟩
    · simp [SetGraph.run, Given, h]
    · obtain ⟨ps, h1, h2⟩ := Run.bind_eq_done.1 hm
      cases h2
      have h' : Args.asVertexTuple vs = some ps := by
        cases he : Args.asVertexTuple vs with
        | none => rw [he] at h1; cases h1
        | some qs => rw [he] at h1; cases h1; rfl
      refine ⟨(r2 ps G).1, fun e => ?_⟩
      rw [(r2 ps G).2]
      refine and_congr_right fun _ => ?_
      rw [List.mem_iff_getElem?]
      constructor
      · intro h ws hw k hk
        rw [hw.unique hv] at hk
        exact h ⟨k, (((C58_pairs vs).2 ps h').2 k _ _).2 hk⟩
      · rintro h ⟨k, hk⟩
        exact h vs hv k ((((C58_pairs vs).2 ps h').2 k _ _).1 hk)
  have hset := toSet_applyCommands hb.wf (cs1 ++ cs2)
  rw [run_append] at hset
  have hV : ∀ v, (GraphCommand.applyCommands (cs1 ++ cs2) g).toSet.V v ↔ ((g.toSet.run cs1).run cs2).V v := by
    intro v; rw [hset]
  have hE : ∀ e, (GraphCommand.applyCommands (cs1 ++ cs2) g).toSet.E e ↔ ((g.toSet.run cs1).run cs2).E e := by
    intro v; rw [hset]
  refine ⟨?_, ?_, a2.1, a2.2.2⟩
  · intro v
    have := hV v
    rw [(v2 _).1, (v1 _).1] at this
    exact this
  · intro e
    have := hE e
    rw [(v2 _).2, (v1 _).2] at this
    rw [and_assoc] at this
    exact this

/-- Deleting the vertex 1 and the edge 2 → 3. -/
example (nd : Char → Bool) : ∃ g', loadGraph nd [['d']] (gcDelete [['d']] (some [['1']]) (some [['2'], ['3']])
      (sampleFS (Format.Gcmd.commandsText [.AddEdge 1 2, .AddEdge 2 3, .AddEdge 3 4]))).1 = .done (.ok g') ∧
    ∀ v, g'.containsVertex v = true ↔ (GraphCommand.applyCommands [.AddEdge 1 2, .AddEdge 2 3, .AddEdge 3 4] .new).containsVertex v = true ∧
      ∀ vs, Given (some [['1']]) vs → v ∉ vs := by
  obtain ⟨g', h1, h2, _⟩ := C69_gc_delete_effect nd [['d']] (some [['1']]) (some [['2'], ['3']]) _ _ _ (sampleFS_ready _) rfl
    (.inr (by decide)) (load_sample nd [.AddEdge 1 2, .AddEdge 2 3, .AddEdge 3 4]) (by decide +kernel)
  exact ⟨g', h1, h2⟩

example (nd : Char → Bool) : ∃ g, loadGraph nd [['d']] (gcDelete [['d']] (some [['1']]) (some [['2'], ['3']])
    (sampleFS "AddEdge 1 2\nAddEdge 2 3\nAddEdge 3 4\n".toList)).1 = .done (.ok g) ∧ g.edges = [⟨3, 4⟩] :=
  ⟨GraphCommand.applyCommands [.AddEdge 1 2, .AddEdge 2 3, .AddEdge 3 4, .RemoveVertex 1, .RemoveEdge 2 3] .new, rfl, by decide⟩

/-! ### C62 -/

/-- C62: if the lock can be taken and the block leaves the lock file alone, then the block runs with the lock taken, its result is the
result of `with_lock`, and afterwards the graph is unlocked; the block's other changes are kept. -/
theorem C62_lock_released {α : Type} (root : FPath) (block : FS → Io α) (fs : FS) (h : Lockable root fs)
    (hk : ∀ fs', FileAt fs' (lockPath root) → FileAt (block fs').1 (lockPath root)) :
    ∃ fs1, LockedFrom root fs fs1 ∧ isLocked root fs1 = true ∧ (withLock root block fs).2 = (block fs1).2 ∧
      isLocked root (withLock root block fs).1 = false ∧
      ∀ q, q ≠ lockPath root → (withLock root block fs).1 q = (block fs1).1 q := by
  obtain ⟨fs1, h1, h2, _⟩ := withLock_ok (block := block) h
  have h3 := h2 (hk fs1 h1.1)
  refine ⟨fs1, h1, ?_, by rw [h3], ?_, ?_⟩
  · obtain ⟨c, hc⟩ := h1.1
    simp [isLocked, hc]
  · rw [h3]; simp [isLocked, FS.set_self]
  · intro q hq
    rw [h3]
    exact FS.set_other _ _ hq

/-- C62: if the lock cannot be taken, an error is returned, nothing is changed and the block does not run. -/
theorem C62_no_lock_no_block {α : Type} (root : FPath) (block : FS → Io α) (fs : FS) (hw : fs.WF) (h : ¬ Lockable root fs) :
    ∃ e, withLock root block fs = (fs, .error e) := by
  obtain ⟨e, he⟩ := touch_fail hw (d := root) (x := lockFile) h
  refine ⟨e, ?_⟩
  unfold withLock lock lockPath
  rw [he]

/-- C62: if the lock file disappears while the block runs (another process released it), `with_lock` returns an error although the
changes of the block are kept. -/
theorem C62_lost_lock {α : Type} (root : FPath) (block : FS → Io α) (fs : FS) (h : Lockable root fs)
    (hk : ∀ fs', (block fs').1 (lockPath root) = none) :
    ∃ fs1 e, LockedFrom root fs fs1 ∧ withLock root block fs = ((block fs1).1, .error e) := by
  obtain ⟨fs1, h1, _, h3⟩ := withLock_ok (block := block) h
  obtain ⟨e, he⟩ := h3 (by rintro ⟨c, hc⟩; rw [hk] at hc; cases hc)
  exact ⟨fs1, e, h1, he⟩

/-- A block that appends to the command file, under the lock of a graph (`C62_lock_released`); a directory called `lock` is in the way
(`C62_no_lock_no_block`); a block that removes the lock file itself (`C62_lost_lock`). -/
example (block : FS → Io Unit) (hb : block = fun fs => (fs.set (commandPath [['d']]) (some (.file ['x'])), .ok ())) :
    (isLocked [['d']] (withLock [['d']] block (sampleFS [])).1 = false ∧ (withLock [['d']] block (sampleFS [])).2 = .ok ()) ∧
    (∃ e, withLock [['d']] block ((sampleFS []).set (lockPath [['d']]) (some .dir)) =
      ((sampleFS []).set (lockPath [['d']]) (some .dir), .error e)) ∧
    ∃ fs1 e, withLock [['d']] (fun fs => ((fs.set (lockPath [['d']]) none, .ok ()) : Io Unit)) (sampleFS []) = (fs1, .error e) := by
  have hl : Lockable [['d']] (sampleFS []) := by
    refine ⟨fun q hq ⟨c, hc⟩ => ?_, by decide⟩
    have := (sampleFS_ready []).1 q (hq.trans ⟨_, rfl⟩)
    rw [hc] at this
    cases this
  obtain ⟨fs1, _, _, h2, h3, _⟩ := C62_lock_released [['d']] block (sampleFS []) hl (by
    subst hb
    rintro fs' ⟨c, hc⟩
    exact ⟨c, by rw [← hc]; simp [FS.set, show lockPath [['d']] ≠ commandPath [['d']] by decide]⟩)
  refine ⟨⟨h3, by rw [h2, hb]⟩, ?_, ?_⟩
  · refine C62_no_lock_no_block [['d']] block _ ⟨rfl, fun p x hx => ?_⟩ fun h => h.2 (by simp [FS.set])
    have hpx : p ++ [x] = lockPath [['d']] ∨ sampleFS [] (p ++ [x]) ≠ none := by
      by_cases h : p ++ [x] = lockPath [['d']]
      · exact .inl h
      · right
        simpa [FS.set, h] using hx
    have hp : sampleFS [] p = some .dir := by
      rcases hpx with h | h
      · have := (List.append_inj' (s₂ := [['d']]) (t₂ := [lockFile]) h rfl).1
        rw [this]
        rfl
      · exact (sampleFS_wf []).2 p x h
    by_cases h : p = lockPath [['d']]
    · simp [FS.set, h]
    · simpa [FS.set, h] using hp
  · obtain ⟨fs1, e, _, h⟩ := C62_lost_lock [['d']] (fun fs => ((fs.set (lockPath [['d']]) none, .ok ()) : Io Unit)) (sampleFS []) hl
      fun fs => by simp [FS.set]
    exact ⟨_, e, h⟩

/-! ### C64 -/

/-- C64: gc-init creates an empty graph if there is none, keeps an existing graph, and changes nothing that exists. -/
theorem C64_init (root : FPath) (fs : FS) (h : DirPossible fs (rootPath root)) (hc : fs (commandPath root) ≠ some .dir) :
    ∃ fs', gcInit root fs = (fs', .success) ∧ (∀ c, Content root fs c → Content root fs' c) ∧
      (fs (commandPath root) = none → Content root fs' []) ∧ (∀ q, fs q ≠ none → fs' q = fs q) ∧
      ∀ q, fs' q ≠ none → fs q ≠ none ∨ q <+: commandPath root := by
  refine ⟨touched (rootPath root) commandsFile fs, ?_, ?_, ?_, ?_, ?_⟩
  · unfold gcInit init
    have : commandPath root = rootPath root ++ [commandsFile] := rfl
    rw [this, touch_ok h hc]
    rfl
  · intro c hcc
    unfold Content at hcc ⊢
    unfold touched
    rw [if_pos (show commandPath root = rootPath root ++ [commandsFile] from rfl), hcc]
  · intro hn
    unfold Content touched
    rw [if_pos (show commandPath root = rootPath root ++ [commandsFile] from rfl), hn]
  · intro q hq
    unfold touched
    split
    · rename_i e
      subst e
      cases hn : fs (rootPath root ++ [commandsFile]) with
      | none => exact absurd hn hq
      | some n =>
        cases n with
        | dir => exact absurd hn hc
        | file c => rfl
    · split
      · rename_i hp
        cases hn : fs q with
        | none => exact absurd hn hq
        | some n =>
          cases n with
          | dir => rfl
          | file c => exact absurd ⟨c, hn⟩ (h q (isPrefixOf_iff.1 hp))
      · rfl
  · intro q hq
    unfold touched at hq
    split at hq
    · rename_i e; right; rw [e]; exact List.prefix_refl _
    · split at hq
      · rename_i hp; exact .inr ((isPrefixOf_iff.1 hp).trans (root_prefix_command root))
      · exact .inl hq

/-- C64: a second gc-init changes nothing. -/
theorem C64_init_idempotent (root : FPath) (fs : FS) (h : (gcInit root fs).2 = .success) (hw : fs.WF) :
    gcInit root (gcInit root fs).1 = ((gcInit root fs).1, .success) := by
  have hcan : DirPossible fs (rootPath root) ∧ fs (commandPath root) ≠ some .dir := by
    by_contra hn
    obtain ⟨e, he⟩ := touch_fail hw (d := rootPath root) (x := commandsFile) hn
    have e2 : init root fs = (fs, .error e) := he
    unfold gcInit at h
    rw [e2] at h
    cases h
  obtain ⟨fs', h1, h2, h3, h4, _⟩ := C64_init root fs hcan.1 hcan.2
  rw [h1]
  have hcmd : ∃ c, Content root fs' c := by
    cases hn : fs (commandPath root) with
    | none => exact ⟨_, h3 hn⟩
    | some n =>
      cases n with
      | dir => exact absurd hn hcan.2
      | file c => exact ⟨c, h2 c hn⟩
  obtain ⟨c, hcc⟩ := hcmd
  have hpre : ∀ q, q <+: rootPath root → fs' q = some .dir := by
    intro q hq
    have e : gcInit root fs = (touched (rootPath root) commandsFile fs, .success) := by
      unfold gcInit init
      have : commandPath root = rootPath root ++ [commandsFile] := rfl
      rw [this, touch_ok hcan.1 hcan.2]
      rfl
    rw [h1] at e
    cases e
    exact touched_prefix hq
  have hd' : DirPossible fs' (rootPath root) := by
    rintro q hq ⟨d, hd⟩
    rw [hpre q hq] at hd
    cases hd
  have hc' : fs' (commandPath root) ≠ some .dir := by rw [hcc]; simp
  have hcp : commandPath root = rootPath root ++ [commandsFile] := rfl
  have ht := touch_ok (x := commandsFile) hd' hc'
  unfold gcInit init
  rw [hcp, ht]
  refine congrArg (·, Exit.success) (funext fun q => ?_)
  unfold touched
  split
  · rename_i e
    subst e
    have : fs' (rootPath root ++ [commandsFile]) = some (.file c) := hcc
    simp only [this]
  · split
    · rename_i hp; exact (hpre q (isPrefixOf_iff.1 hp)).symm
    · rfl

/-- C64: after a successful gc-init the graph can be loaded if it was new; it is the empty graph. -/
theorem C64_init_new_graph_empty (nd : Char → Bool) (root : FPath) (fs : FS) (h : DirPossible fs (rootPath root))
    (hc : fs (commandPath root) = none) : loadGraph nd root (gcInit root fs).1 = .done (.ok .new) := by
  obtain ⟨fs', h1, _, h3, _⟩ := C64_init root fs h (by rw [hc]; simp)
  rw [h1]
  exact (loadGraph_content (h3 hc)).2 rfl

/-- C64: gc-clean (confirmed or forced) removes the stored graph, releases the lock, and changes nothing outside `.graph` and the lock
file. -/
theorem C64_clean (root : FPath) (force : Bool) (answer : Text) (fs : FS) (hw : fs.WF) (hg : fs (rootPath root) = some .dir)
    (hl : fs (lockPath root) ≠ some .dir) (ha : force = true ∨ Args.confirmationYesNo answer = true) :
    ∃ fs', gcClean root force answer fs = (fs', .success) ∧ (∀ q, rootPath root <+: q → fs' q = none) ∧
      fs' (lockPath root) = none ∧ ∀ q, q ≠ lockPath root → ¬ rootPath root <+: q → fs' q = fs q := by
  have hroot : ∀ q, q <+: root → fs q = some .dir := by
    intro q hq
    refine hw.dir_of_prefix (hq.trans (List.prefix_append root [graphRootDir])) ?_ (by unfold rootPath at hg; rw [hg]; simp)
    rintro rfl
    exact not_prefix_self_snoc root graphRootDir hq
  have hlock : Lockable root fs := by
    refine ⟨?_, hl⟩
    rintro q hq ⟨c, hc⟩
    rw [hroot q hq] at hc
    cases hc
  obtain ⟨fs1, h1, h2, _⟩ := withLock_ok (block := removeDirAll (rootPath root)) hlock
  have hdir : fs1 (rootPath root) = some .dir := by rw [h1.content (List.prefix_refl _)]; exact hg
  have hblock : removeDirAll (rootPath root) fs1 =
      ((fun q => if (rootPath root).isPrefixOf q then none else fs1 q), .ok ()) := by
    unfold removeDirAll
    rw [hdir]
  rw [hblock] at h2
  have hnl : ¬ (rootPath root).isPrefixOf (lockPath root) = true := by
    rw [isPrefixOf_iff]; exact lock_not_under_graph root
  have h3 := h2 (by
    obtain ⟨c, hc⟩ := h1.1
    exact ⟨c, by simp only; rw [if_neg hnl]; exact hc⟩)
  refine ⟨FS.set (fun q => if (rootPath root).isPrefixOf q then none else fs1 q) (lockPath root) none, ?_, ?_, FS.set_self _ _ _, ?_⟩
  · unfold gcClean
    rw [if_neg (by rcases ha with h | h <;> simp [h])]
    unfold clean
    rw [h3]
    rfl
  · intro q hq
    rw [FS.set_other _ _ (by rintro rfl; exact lock_not_under_graph root hq)]
    exact if_pos (isPrefixOf_iff.2 hq)
  · intro q hq1 hq2
    rw [FS.set_other _ _ hq1]
    show (if (rootPath root).isPrefixOf q = true then none else fs1 q) = fs q
    rw [if_neg (by rw [isPrefixOf_iff]; exact hq2)]
    by_cases hr : q <+: root
    · rw [h1.2.1 q hr, hroot q hr]
    · exact h1.2.2 q hq1 hr

/-- C64: without confirmation nothing happens. -/
theorem C64_clean_not_confirmed (root : FPath) (answer : Text) (fs : FS) (h : Args.confirmationYesNo answer = false) :
    gcClean root false answer fs = (fs, .success) := by
  unfold gcClean
  simp [h]

/-- C64: after gc-clean, gc-init gives the empty graph. -/
theorem C64_init_after_clean (nd : Char → Bool) (root : FPath) (fs : FS) (hw : fs.WF) (hg : fs (rootPath root) = some .dir)
    (hl : fs (lockPath root) ≠ some .dir) :
    loadGraph nd root (gcInit root (gcClean root true [] fs).1).1 = .done (.ok .new) := by
  obtain ⟨fs', h1, h2, _, h4⟩ := C64_clean root true [] fs hw hg hl (.inl rfl)
  rw [h1]
  apply C64_init_new_graph_empty
  · rintro q hq ⟨c, hc⟩
    change fs' q = _ at hc
    by_cases he : q = rootPath root
    · rw [h2 q (by rw [he]; exact List.prefix_refl _)] at hc; cases hc
    · have hq' : q <+: root := by
        rcases List.prefix_concat_iff.1 hq with h | h
        · exact absurd h he
        · exact h
      have hne : q ≠ lockPath root := by
        rintro rfl
        exact not_prefix_self_snoc root lockFile hq'
      rw [h4 q hne (fun h => not_prefix_command h hq'), hw.dir_of_prefix hq he (by rw [hg]; simp)] at hc
      cases hc
  · exact h2 _ (root_prefix_command root)

/-- A directory without graph: `C64_init`, `C64_init_idempotent` and `C64_init_new_graph_empty`; one with a graph: `C64_clean`,
`C64_clean_not_confirmed` and `C64_init_after_clean`. -/
example (nd : Char → Bool) : let fs : FS := fun q => if q = [] ∨ q = [['d']] then some .dir else none
    (∃ fs', gcInit [['d']] fs = (fs', .success) ∧ Content [['d']] fs' []) ∧
    gcInit [['d']] (gcInit [['d']] fs).1 = ((gcInit [['d']] fs).1, .success) ∧
    loadGraph nd [['d']] (gcInit [['d']] fs).1 = .done (.ok .new) ∧
    (∃ fs', gcClean [['d']] false ['y', '\n'] (sampleFS ['x']) = (fs', .success) ∧ ∀ q, rootPath [['d']] <+: q → fs' q = none) ∧
    gcClean [['d']] false ['n', '\n'] (sampleFS ['x']) = (sampleFS ['x'], .success) ∧
    loadGraph nd [['d']] (gcInit [['d']] (gcClean [['d']] true [] (sampleFS ['x'])).1).1 = .done (.ok .new) := by
  intro fs
  have hd : DirPossible fs (rootPath [['d']]) := by
    rintro q _ ⟨c, hc⟩
    have : (if q = [] ∨ q = [['d']] then some Node.dir else none) = some (.file c) := hc
    split at this <;> cases this
  have hw : fs.WF := by
    refine ⟨rfl, fun p x hx => ?_⟩
    have h1 : p ++ [x] = [['d']] := by
      by_contra h
      exact hx (by simp [fs, h])
    have := (List.append_inj' (s₂ := []) (t₂ := [['d']]) h1 rfl).1
    simp [fs, this]
  obtain ⟨fs1, h1, _, h2, _⟩ := C64_init [['d']] fs hd (by decide)
  obtain ⟨fs2, h3, h4, _⟩ := C64_clean [['d']] false ['y', '\n'] (sampleFS ['x']) (sampleFS_wf _) rfl (by decide) (.inr (by decide))
  exact ⟨⟨fs1, h1, h2 (by decide)⟩, C64_init_idempotent [['d']] fs (by rw [h1]) hw, C64_init_new_graph_empty nd [['d']] fs hd (by decide),
    ⟨fs2, h3, h4⟩, C64_clean_not_confirmed [['d']] ['n', '\n'] _ (by decide),
    C64_init_after_clean nd [['d']] _ (sampleFS_wf _) rfl (by decide)⟩

/-- C64 is false in one detail: gc-clean (like every command that takes the lock) deletes a file of the user called `lock` in the graph's
directory. -/
theorem C64_counterexample :
    ∃ fs : FS, fs.WF ∧ fs (lockPath []) = some (.file ['m', 'y', ' ', 'd', 'a', 't', 'a']) ∧
      (gcClean [] true [] fs).2 = .success ∧ (gcClean [] true [] fs).1 (lockPath []) = none := by
  refine ⟨fun q => if q = [] ∨ q = rootPath [] then some .dir
      else if q = lockPath [] then some (.file ['m', 'y', ' ', 'd', 'a', 't', 'a']) else none, ⟨rfl, ?_⟩, by decide, by rfl, by rfl⟩
  intro p x h
  by_cases hp : p = []
  · subst hp; rfl
  · exfalso
    apply h
    have h1 : ∀ y : Text, p ++ [x] ≠ [y] := by
      intro y e
      have := congrArg List.length e
      simp at this
      exact hp this
    simp [rootPath, lockPath, h1]

/-! ### C67 -/

theorem foldl_min (l : List UInt64) (x : UInt64) :
    let m := l.foldl (fun m y => if y < m then y else m) x
    (m = x ∨ m ∈ l) ∧ m ≤ x ∧ ∀ y ∈ l, m ≤ y := by
  induction l generalizing x with
  | nil => simp
  | cons a l ih =>
    simp only [List.foldl_cons]
    obtain ⟨h1, h2, h3⟩ := ih (if a < x then a else x)
    generalize l.foldl _ _ = m at h1 h2 h3 ⊢
    by_cases hax : a < x
    · rw [if_pos hax] at h1 h2
      refine ⟨?_, UInt64.le_trans h2 (UInt64.le_of_lt hax), ?_⟩
      · rcases h1 with h | h
        · exact .inr (by simp [h])
        · exact .inr (by simp [h])
      · intro y hy
        rcases List.mem_cons.1 hy with rfl | hy
        · exact h2
        · exact h3 y hy
    · rw [if_neg hax] at h1 h2
      refine ⟨?_, h2, ?_⟩
      · rcases h1 with h | h
        · exact .inl h
        · exact .inr (by simp [h])
      · intro y hy
        rcases List.mem_cons.1 hy with rfl | hy
        · exact UInt64.le_trans h2 (UInt64.not_lt.1 hax)
        · exact h3 y hy

theorem foldl_max (l : List UInt64) (x : UInt64) :
    let m := l.foldl (fun m y => if m ≤ y then y else m) x
    (m = x ∨ m ∈ l) ∧ x ≤ m ∧ ∀ y ∈ l, y ≤ m := by
  induction l generalizing x with
  | nil => simp
  | cons a l ih =>
    simp only [List.foldl_cons]
    obtain ⟨h1, h2, h3⟩ := ih (if x ≤ a then a else x)
    generalize l.foldl _ _ = m at h1 h2 h3 ⊢
    by_cases hax : x ≤ a
    · rw [if_pos hax] at h1 h2
      refine ⟨?_, UInt64.le_trans hax h2, ?_⟩
      · rcases h1 with h | h
        · exact .inr (by simp [h])
        · exact .inr (by simp [h])
      · intro y hy
        rcases List.mem_cons.1 hy with rfl | hy
        · exact h2
        · exact h3 y hy
    · rw [if_neg hax] at h1 h2
      refine ⟨?_, h2, ?_⟩
      · rcases h1 with h | h
        · exact .inl h
        · exact .inr (by simp [h])
      · intro y hy
        rcases List.mem_cons.1 hy with rfl | hy
        · exact UInt64.le_trans (UInt64.le_of_lt (UInt64.not_le.1 hax)) h2
        · exact h3 y hy

/-- C67 (partial): gc-desc prints the number of vertices, the smallest and the largest id (nothing exactly for the empty graph), and for
loop-free graphs the number of edges. Missing: the number of edges of a graph with self-loops, which is wrong
(`C67_counterexample`). -/
theorem C67_desc_partial (nd : Char → Bool) (root : FPath) (fs : FS) (g : DirectedGraph) (h : loadGraph nd root fs = .done (.ok g)) :
    ∃ d, gcDesc nd root fs = .done d ∧ d.vertices = g.vertices.length ∧ (LoopFree g → d.edges = g.edges.length) ∧
      (d.minId = none ↔ ∀ v, g.containsVertex v = false) ∧ (d.maxId = none ↔ ∀ v, g.containsVertex v = false) ∧
      (∀ m, d.minId = some m → g.containsVertex ⟨m⟩ = true ∧ ∀ v, g.containsVertex v = true → m ≤ v.id) ∧
      (∀ m, d.maxId = some m → g.containsVertex ⟨m⟩ = true ∧ ∀ v, g.containsVertex v = true → v.id ≤ m) := by
  have hb := (loadGraph_built h).1
  refine ⟨describe g, ?_, (C02_counts g hb).1 _ hb.wf.nodup_vertices fun _ => mem_vertices, ?_, ?_, ?_, ?_, ?_⟩
  · unfold gcDesc
    rw [h]
    rfl
  · intro hl
    exact (C04_edge_count_partial g hb hl)
  all_goals
    simp only [describe]
    have hm : ∀ v, g.containsVertex v = true ↔ v ∈ g.vertices := fun v => mem_vertices.symm
    simp only [← Bool.not_eq_true, hm]
    generalize g.vertices = vs
  · cases vs with
    | nil => simp [listMin]
    | cons v vs =>
      simp only [listMin, List.map_cons, reduceCtorEq, false_iff]
      intro hn
      exact hn v (by simp)
  · cases vs with
    | nil => simp [listMax]
    | cons v vs =>
      simp only [listMax, List.map_cons, reduceCtorEq, false_iff]
      intro hn
      exact hn v (by simp)
  · intro m hmin
    cases vs with
    | nil => cases hmin
    | cons v vs =>
      simp only [listMin, List.map_cons, Option.some.injEq] at hmin
      obtain ⟨h1, h2, h3⟩ := foldl_min (vs.map VertexId.id) v.id
      rw [hmin] at h1 h2 h3
      refine ⟨?_, ?_⟩
      · rcases h1 with rfl | h1
        · simp
        · obtain ⟨w, hw, rfl⟩ := List.mem_map.1 h1
          simp [hw]
      · intro w hw
        rcases List.mem_cons.1 hw with rfl | hw
        · exact h2
        · exact h3 _ (List.mem_map_of_mem hw)
  · intro m hmax
    cases vs with
    | nil => cases hmax
    | cons v vs =>
      simp only [listMax, List.map_cons, Option.some.injEq] at hmax
      obtain ⟨h1, h2, h3⟩ := foldl_max (vs.map VertexId.id) v.id
      rw [hmax] at h1 h2 h3
      refine ⟨?_, ?_⟩
      · rcases h1 with rfl | h1
        · simp
        · obtain ⟨w, hw, rfl⟩ := List.mem_map.1 h1
          simp [hw]
      · intro w hw
        rcases List.mem_cons.1 hw with rfl | hw
        · exact h2
        · exact h3 _ (List.mem_map_of_mem hw)

/-- C67: gc-desc prints a description exactly when there is a graph that can be loaded; otherwise it panics (exit code 101). -/
theorem C67_needs_graph (nd : Char → Bool) (root : FPath) (fs : FS) :
    (∃ d, gcDesc nd root fs = .done d) ↔ ∃ g, loadGraph nd root fs = .done (.ok g) := by
  unfold gcDesc
  constructor
  · rintro ⟨d, h⟩
    obtain ⟨r, hr, h⟩ := Run.bind_eq_done.1 h
    cases r with
    | error e => cases h
    | ok g => exact ⟨g, hr⟩
  · rintro ⟨g, h⟩
    rw [h]
    exact ⟨_, rfl⟩

/-- C67, the number of edges gc-desc prints for any graph: every self-loop counts half, rounded down. -/
theorem C67_edges_exact (nd : Char → Bool) (root : FPath) (fs : FS) (g : DirectedGraph) (h : loadGraph nd root fs = .done (.ok g)) :
    ∃ d, gcDesc nd root fs = .done d ∧ d.edges = (2 * (g.edges.filter (fun e => e.src ≠ e.dst)).length +
      (g.edges.filter (fun e => e.src = e.dst)).length) / 2 := by
  refine ⟨describe g, ?_, C04_edge_count_formula g (loadGraph_built h).1⟩
  unfold gcDesc
  rw [h]
  rfl

/-- C67 is false for self-loops: a graph with the single edge 1 → 1 is described as having no edge. -/
theorem C67_counterexample (nd : Char → Bool) :
    gcDesc nd [['d']] (sampleFS "AddEdge 1 1\n".toList) = .done ⟨1, 0, some 1, some 1⟩ := by
  have h : loadGraph nd [['d']] (sampleFS "AddEdge 1 1\n".toList) = .done (.ok (GraphCommand.applyCommands [.AddEdge 1 1] .new)) := rfl
  unfold gcDesc
  rw [h]
  decide

example (nd : Char → Bool) : gcDesc nd [['d']] (sampleFS "AddEdge 7 12\nAddVertex 3\n".toList) = .done ⟨3, 1, some 3, some 12⟩ := by
  have h : loadGraph nd [['d']] (sampleFS "AddEdge 7 12\nAddVertex 3\n".toList) =
    .done (.ok (GraphCommand.applyCommands [.AddEdge 7 12, .AddVertex 3] .new)) := rfl
  unfold gcDesc
  rw [h]
  decide

end GC
