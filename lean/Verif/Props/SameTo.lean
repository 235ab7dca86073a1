/-
C150: what does not lead to the end does not matter.
-/
import Verif.Proofs.SameTo
import Verif.Proofs.Agree
import Verif.Props.SameFrom
namespace GC
open DirectedGraph ShortestPath

/-- C150: commands aside of `t` leave all ways to `t`, any number of them. -/
theorem C150_commands (g : DirectedGraph) (h : Built g) (t : VertexId) (cs : List GraphCommand) (hc : ∀ c ∈ cs, AsideOf g t c) :
    SameTo g (GraphCommand.applyCommands cs g) t := by
  induction cs generalizing g with
  | nil => exact fun v _ u => Iff.rfl
  | cons c cs ih =>
    have h1 := sameTo_applyTo h (hc c (by simp))
    exact h1.trans (ih _ (built_applyTo h c) fun c' hc' => (hc c' (List.mem_cons_of_mem _ hc')).congr h1)

/-- C150: the iterations from any start visit `t` in both graphs or in neither, and the path iterators yield the same paths to `t`. -/
theorem C150_iterators (g g' : DirectedGraph) (h : Built g) (h' : Built g') (t : VertexId) (hs : SameTo g g' t) (s : VertexId) :
    (∃ out out', Returns (Prog.collect (DepthFirstIter.next g) (DepthFirstIter.from_ s)) out ∧
      Returns (Prog.collect (DepthFirstIter.next g') (DepthFirstIter.from_ s)) out' ∧ (t ∈ out ↔ t ∈ out')) ∧
    (∃ out out', Returns (Prog.collect (BreadthFirstIter.next g) (BreadthFirstIter.from_ s)) out ∧
      Returns (Prog.collect (BreadthFirstIter.next g') (BreadthFirstIter.from_ s)) out' ∧ (t ∈ out ↔ t ∈ out')) ∧
    (∃ out out', Returns (Prog.collect (DepthFirstPathIter.next g) (DepthFirstPathIter.from_ s)) out ∧
      Returns (Prog.collect (DepthFirstPathIter.next g') (DepthFirstPathIter.from_ s)) out' ∧
      ∀ p : Path, p.vertices.getLast? = some t → (p ∈ out ↔ p ∈ out')) ∧
    ∃ out out', Returns (Prog.collect (BreadthFirstPathIter.next g) (BreadthFirstPathIter.from_ s)) out ∧
      Returns (Prog.collect (BreadthFirstPathIter.next g') (BreadthFirstPathIter.from_ s)) out' ∧
      ∀ p : Path, p.vertices.getLast? = some t → (p ∈ out ↔ p ∈ out') := by
  have hp : ∀ p : Path, p.vertices.getLast? = some t → (SimplePathFrom g s p.vertices ↔ SimplePathFrom g' s p.vertices) := fun p hl =>
    ⟨fun ⟨a, b, c⟩ => have w := hs.walk_mp ⟨a, b, hl⟩; ⟨w.1, b, c⟩, fun ⟨a, b, c⟩ => have w := hs.symm.walk_mp ⟨a, b, hl⟩; ⟨w.1, b, c⟩⟩
  refine ⟨?_, ?_, ?_, ?_⟩
  · obtain ⟨o, h1, _, _, h3⟩ := C24_dfs_exact g h s
    obtain ⟨o', h1', _, _, h3'⟩ := C24_dfs_exact g' h' s
    exact ⟨o, o', h1, h1', by rw [h3, h3', hs.reach]⟩
  · obtain ⟨o, h1, _, h3, _⟩ := C25_bfs_exact g h s
    obtain ⟨o', h1', _, h3', _⟩ := C25_bfs_exact g' h' s
    exact ⟨o, o', h1, h1', by rw [h3, h3', hs.reach]⟩
  · obtain ⟨o, h1, _, h3⟩ := C27_dfs_paths g h s
    obtain ⟨o', h1', _, h3'⟩ := C27_dfs_paths g' h' s
    exact ⟨o, o', h1, h1', fun p hl => by rw [h3, h3', hp p hl]⟩
  · obtain ⟨o, h1, _, h3, _⟩ := C28_bfs_paths g h s
    obtain ⟨o', h1', _, h3', _⟩ := C28_bfs_paths g' h' s
    exact ⟨o, o', h1, h1', fun p hl => by rw [h3, h3', hp p hl]⟩

/-- C150: gc-short-path to `t` finds a path with as many edges from any start, or none in both graphs. -/
theorem C150_short_path (H H' : ScoredHeap) (g g' : DirectedGraph) (h : Built g) (h' : Built g') (t : VertexId) (hs : SameTo g g' t)
    (hsize : g.vertexCount < 2 ^ 63) (hsize' : g'.vertexCount < 2 ^ 63) (s : VertexId) :
    ∃ r r', Returns (AStar.gcShortPath H g s t) r ∧ Returns (AStar.gcShortPath H' g' s t) r' ∧
      r.map ScoredPath.score = r'.map ScoredPath.score := by
  obtain ⟨r, h1, h2, h3⟩ := C33_short_path_optimal H g h hsize s t
  obtain ⟨r', h1', h2', h3'⟩ := C33_short_path_optimal H' g' h' hsize' s t
  refine ⟨r, r', h1, h1', ?_⟩
  have hnone : r = none ↔ r' = none := by rw [h2, h2', hs.reach]
  cases r with
  | none => rw [hnone.1 rfl]
  | some sp =>
    cases r' with
    | none => cases hnone.2 rfl
    | some sp' =>
      obtain ⟨a1, _, a3, a4⟩ := h3 sp rfl
      obtain ⟨b1, _, b3, b4⟩ := h3' sp' rfl
      have k1 := a4 _ (hs.symm.walk_mp b1)
      have k2 := b4 _ (hs.walk_mp a1)
      simp only [Option.map_some, Option.some.injEq]
      omega

/-- C150: gc-csp to `t` finds a walk with as many edges, whatever the start and the constraints are. -/
theorem C150_csp (H H' : ScoredHeap) (g g' : DirectedGraph) (h : Built g) (h' : Built g') (t : VertexId) (hs : SameTo g g' t)
    (s : VertexId) (cs : List Constraint) (k : Int) (hk : k < 2 ^ 63 - 1) : FindsWalk H g s t cs k ↔ FindsWalk H' g' s t cs k := by
  rw [csp_found_iff h hk, csp_found_iff h' hk]
  exact Best.congr fun l => by rw [hs.walk]

/-- The score of `t` among the lightest walks depends on the walks to `t` only. -/
theorem SameTo.score {g g' : DirectedGraph} {t : VertexId} (hs : SameTo g g' t) {w : WeightFn} {s : VertexId} {m m' : Scores}
    (hm : LightestBelowMax g w s m) (hm' : LightestBelowMax g' w s m') :
    (HMap.get? m t).map ScoredPath.score = (HMap.get? m' t).map ScoredPath.score := by
  obtain ⟨_, a2, a3⟩ := hm
  obtain ⟨_, b2, b3⟩ := hm'
  have hab : (HMap.get? m t).isSome = true ↔ (HMap.get? m' t).isSome = true := by
    refine (HMap.get?_isSome_iff.trans (a2 t)).trans (Iff.trans ?_ (HMap.get?_isSome_iff.trans (b2 t)).symm)
    simp only [hs.walk]
  cases hx : HMap.get? m t with
  | none =>
    cases hy : HMap.get? m' t with
    | none => rfl
    | some q => rw [hx, hy] at hab; simp at hab
  | some p =>
    cases hy : HMap.get? m' t with
    | none => rw [hx, hy] at hab; simp at hab
    | some q =>
      obtain ⟨c1, c2, c3, c4⟩ := a3 t p (HMap.get?_mem hx)
      obtain ⟨d1, d2, d3, d4⟩ := b3 t q (HMap.get?_mem hy)
      have e1 := c4 _ (hs.symm.walk_mp d1) d3
      have e2 := d4 _ (hs.walk_mp c1) c3
      simp only [Option.map_some, Option.some.injEq]
      omega

/-- C150: bellman_ford and spfa give `t` the same score from any start whenever they give scores in both graphs. -/
theorem C150_weights (g g' : DirectedGraph) (h : Built g) (h' : Built g') (t : VertexId) (hs : SameTo g g' t) (w : WeightFn) (s : VertexId)
    (m m' : Scores) (hm : bellmanFord g w s = .done (some m) ∨ Returns (spfa g w s) m)
    (hm' : bellmanFord g' w s = .done (some m') ∨ Returns (spfa g' w s) m') :
    (HMap.get? m t).map ScoredPath.score = (HMap.get? m' t).map ScoredPath.score := by
  have key : ∀ (g : DirectedGraph) (m : Scores), Built g → (bellmanFord g w s = .done (some m) ∨ Returns (spfa g w s) m) →
      LightestBelowMax g w s m := by
    rintro g m h (hm | hm)
    · rcases C112_bellman_ford g h w s with ⟨e, _⟩ | ⟨e, _⟩ | ⟨x, e, a, _⟩
      · rw [e] at hm; cases hm
      · rw [e] at hm; cases hm
      · rw [e] at hm; cases hm; exact a
    · rcases C112_spfa g h w s with ⟨hp, _⟩ | ⟨x, h1, h2, _⟩
      · exact absurd hp hm.not_panics
      · cases h1.unique hm; exact h2
  exact hs.score (key g m h hm) (key g' m' h' hm')

/-! ### Examples: from 4 and 5 one cannot get to 3 -/

/-- A way from 1 to 3 and a dead end. -/
def exDeadEnd : DirectedGraph := GraphCommand.applyCommands [.AddEdge 1 2, .AddEdge 2 3, .AddEdge 1 4, .AddEdge 4 5] .new

theorem exDeadEnd_built : Built exDeadEnd := Built.new.applyCommands _

theorem exDeadEnd_reach {v : VertexId} (hr : Reach exDeadEnd v 3) : v = 1 ∨ v = 2 ∨ v = 3 := by
  induction hr using Relation.ReflTransGen.head_induction_on with
  | refl => exact .inr (.inr rfl)
  | head h1 _ ih =>
    have hm := exDeadEnd_built.wf.mem_edges.2 h1
    have hall : ∀ e ∈ exDeadEnd.edges, e.dst = 1 ∨ e.dst = 2 ∨ e.dst = 3 → e.src = 1 ∨ e.src = 2 ∨ e.src = 3 := by decide
    exact hall _ hm ih

/-- Changes the dead end, and adds new ways into it. -/
def exAside : List GraphCommand := [.RemoveEdge 4 5, .AddEdge 2 4, .RemoveVertex 5, .AddEdge 3 9, .AddVertex 7]

theorem exAside_same : SameTo exDeadEnd (GraphCommand.applyCommands exAside exDeadEnd) 3 := by
  refine C150_commands _ exDeadEnd_built 3 exAside ?_
  unfold exAside
  simp only [List.forall_mem_cons, List.not_mem_nil, false_implies, implies_true, and_true, AsideOf]
  refine ⟨?_, ?_, ?_, ?_⟩ <;> exact fun hr => absurd (exDeadEnd_reach hr) (by decide)

theorem exAside_built : Built (GraphCommand.applyCommands exAside exDeadEnd) := exDeadEnd_built.applyCommands _

-- C150_iterators and C150_short_path: the graphs differ, the answers do not.
example := C150_iterators _ _ exDeadEnd_built exAside_built 3 exAside_same 1
example : exDeadEnd.edges ≠ (GraphCommand.applyCommands exAside exDeadEnd).edges ∧
    AStar.gcShortPath exHeap exDeadEnd 1 3 9 = .done (some ⟨⟨[1, 2, 3]⟩, 2⟩) ∧
    AStar.gcShortPath exHeap (GraphCommand.applyCommands exAside exDeadEnd) 1 3 9 = .done (some ⟨⟨[1, 2, 3]⟩, 2⟩) := by
  refine ⟨?_, ?_, ?_⟩ <;> decide

-- C150_csp
example (k : Int) (hk : k < 2 ^ 63 - 1) : FindsWalk exHeap exDeadEnd 1 3 [.ContainsVertex 2] k ↔
    FindsWalk exHeap (GraphCommand.applyCommands exAside exDeadEnd) 1 3 [.ContainsVertex 2] k :=
  C150_csp _ _ _ _ exDeadEnd_built exAside_built 3 exAside_same 1 _ k hk

-- C150_weights
example : (∃ m m', bellmanFord exDeadEnd (fun e => e.dst.id.toNat) 1 = .done (some m) ∧
    bellmanFord (GraphCommand.applyCommands exAside exDeadEnd) (fun e => e.dst.id.toNat) 1 = .done (some m') ∧
    (HMap.get? m 3).map ScoredPath.score = some 5 ∧ (HMap.get? m' 3).map ScoredPath.score = some 5) := by
  refine ⟨_, _, rfl, rfl, ?_, ?_⟩ <;> decide

end GC
