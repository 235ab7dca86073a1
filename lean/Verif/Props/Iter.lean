/-
Properties C24-C30: graph iterators and their queues.
-/
import Verif.Proofs.Dfs
import Verif.Proofs.SearchOrder
import Verif.Spec.Heap
import Verif.Proofs.Samples
namespace GC
open DirectedGraph

/-- Example graph: 1→2, 1→3, 2→4, 3→4, 4→1, 5→1. -/
def exIterGraph : DirectedGraph :=
  GraphCommand.applyCommands [.AddEdge 1 2, .AddEdge 1 3, .AddEdge 2 4, .AddEdge 3 4, .AddEdge 4 1, .AddEdge 5 1] .new

theorem exIterGraph_built : Built exIterGraph := Built.new.applyCommands _

/-! ### C24 -/

/-- C24: iterating `dfs_iter_from(g, s)` to its end terminates without panic and yields every vertex reachable from `s` exactly once,
`s` first. -/
theorem C24_dfs_exact (g : DirectedGraph) (h : Built g) (s : VertexId) :
    ∃ out, Returns (Prog.collect (DepthFirstIter.next g) (DepthFirstIter.from_ s)) out ∧
      out.Nodup ∧ out.head? = some s ∧ ∀ v, v ∈ out ↔ Reach g s v := by
  obtain ⟨xs, h1, h2, h3, h4⟩ := dfs_drains h.wf s
  exact ⟨xs, h1.collect, h2, h3, fun v => (h4 v).trans h.wf.reachBy_iff⟩

/-- C24: a prefix of the iteration is a prefix of the complete result, whatever number of items is taken. -/
theorem C24_dfs_take (g : DirectedGraph) (h : Built g) (s : VertexId) (n : Nat) :
    ∃ out, Returns (Prog.collect (DepthFirstIter.next g) (DepthFirstIter.from_ s)) out ∧
      Returns (Prog.takeN (DepthFirstIter.next g) n (DepthFirstIter.from_ s)) (out.take n) := by
  obtain ⟨xs, h1, _⟩ := dfs_drains h.wf s
  exact ⟨xs, h1.collect, h1.takeN n⟩

/-- C24: `dfs_iter(g)` yields nothing on a graph without vertices, and otherwise the vertices reachable from a vertex of the graph. -/
theorem C24_dfs_iter (g : DirectedGraph) (h : Built g) :
    ∃ out, Returns (Prog.collect (DepthFirstIter.next g) (DepthFirstIter.start g)) out ∧
      (((∀ v, g.containsVertex v = false) ∧ out = []) ∨
        ∃ s, g.containsVertex s = true ∧ out.Nodup ∧ out.head? = some s ∧ ∀ v, v ∈ out ↔ Reach g s v) := by
  unfold DepthFirstIter.start headOption
  cases hv : g.vertices with
  | nil =>
    refine ⟨[], (Drains.nil (DepthFirstIter.next_none rfl)).collect, .inl ⟨?_, rfl⟩⟩
    intro v
    rw [← Bool.not_eq_true, ← mem_vertices, hv]
    simp
  | cons a l =>
    obtain ⟨out, h1, h2, h3, h4⟩ := C24_dfs_exact g h a
    exact ⟨out, h1, .inr ⟨a, mem_vertices.1 (by rw [hv]; simp), h2, h3, h4⟩⟩

example : Prog.collect (DepthFirstIter.next exIterGraph) (DepthFirstIter.from_ 1) 6 = .done [1, 3, 4, 2] ∧
    Prog.collect (DepthFirstIter.next exIterGraph) (DepthFirstIter.from_ 9) 6 = .done [9] := by decide

/-! ### C25 -/

/-- C25: iterating `bfs_iter_from(g, s)` to its end terminates and yields every vertex reachable from `s` exactly once, in order of
non-decreasing distance from `s`. -/
theorem C25_bfs_exact (g : DirectedGraph) (h : Built g) (s : VertexId) :
    ∃ out, Returns (Prog.collect (BreadthFirstIter.next g) (BreadthFirstIter.from_ s)) out ∧
      out.Nodup ∧ (∀ v, v ∈ out ↔ Reach g s v) ∧
      ∀ (i j : Nat) u v m n, i < j → out[i]? = some u → out[j]? = some v → Dist g s u m → Dist g s v n → m ≤ n := by
  obtain ⟨xs, h1, h2, h3, h4⟩ := bfs_drains h.wf s
  refine ⟨xs, h1.collect, h2, fun v => (h4 v).trans h.wf.reachBy_iff, ?_⟩
  intro i j u v m n hij hi hj hu hv
  rw [← (h.wf.dist_iff.1 hu).2, ← (h.wf.dist_iff.1 hv).2]
  obtain ⟨hi1, rfl⟩ := List.getElem?_eq_some_iff.1 hi
  obtain ⟨hj1, rfl⟩ := List.getElem?_eq_some_iff.1 hj
  exact List.pairwise_iff_getElem.1 h3 i j hi1 hj1 hij

/-- C25: every yielded vertex has a distance, so the previous theorem orders all of them. -/
theorem C25_distances_exist (g : DirectedGraph) (h : Built g) (s v : VertexId) : Reach g s v ↔ ∃ n, Dist g s v n := by
  constructor
  · intro hr
    exact ⟨_, h.wf.dist_iff.2 ⟨h.wf.reachBy_iff.2 hr, rfl⟩⟩
  · rintro ⟨n, hn⟩
    exact h.wf.reachBy_iff.1 (h.wf.dist_iff.1 hn).1

/-- C25: `bfs_iter(g)` yields nothing on a graph without vertices, and otherwise the vertices reachable from a vertex of the graph. -/
theorem C25_bfs_iter (g : DirectedGraph) (h : Built g) :
    ∃ out, Returns (Prog.collect (BreadthFirstIter.next g) (BreadthFirstIter.start g)) out ∧
      (((∀ v, g.containsVertex v = false) ∧ out = []) ∨
        ∃ s, g.containsVertex s = true ∧ out.Nodup ∧ ∀ v, v ∈ out ↔ Reach g s v) := by
  unfold BreadthFirstIter.start headOption
  cases hv : g.vertices with
  | nil =>
    refine ⟨[], (Drains.nil (BreadthFirstIter.next_none rfl)).collect, .inl ⟨?_, rfl⟩⟩
    intro v
    rw [← Bool.not_eq_true, ← mem_vertices, hv]
    simp
  | cons a l =>
    obtain ⟨out, h1, h2, h3, _⟩ := C25_bfs_exact g h a
    exact ⟨out, h1, .inr ⟨a, mem_vertices.1 (by rw [hv]; simp), h2, h3⟩⟩

/-- C25: the exact order: first the start, then for each yielded vertex in turn the out-neighbours that it is the first to find, in the order of
its edges. (This determines the order.) -/
theorem C25_level_order (g : DirectedGraph) (h : Built g) (s : VertexId) (out : List VertexId)
    (ho : Returns (Prog.collect (BreadthFirstIter.next g) (BreadthFirstIter.from_ s)) out) : out = s :: out.flatMap (foundBy g s out) := by
  obtain ⟨xs, h1, h2, _⟩ := bfs_drains h.wf s
  have := ho.unique h1.collect
  subst this
  exact bfs_level_order h.wf (by simpa using h2) h1 [] rfl fun v => by simp [BreadthFirstIter.from_, BreadthFirstIter.empty]

/-- The programs below are the iterators run to their end; they never change an answer once it is there. -/
theorem mono_bfs (g : DirectedGraph) (s : BreadthFirstIter) : Mono (BreadthFirstIter.next g s) := by
  unfold BreadthFirstIter.next
  split <;> exact Mono.ret _

/-- `C25_level_order` for `exIterGraph`. -/
example : Returns (Prog.collect (BreadthFirstIter.next exIterGraph) (BreadthFirstIter.from_ 1)) [1, 2, 3, 4] ∧
    [1, 2, 3, 4] = 1 :: [1, 2, 3, 4].flatMap (foundBy exIterGraph 1 [1, 2, 3, 4]) :=
  have h := Mono.returns (n := 6) (Mono.collect (mono_bfs _) _) (by decide)
  ⟨h, C25_level_order _ exIterGraph_built 1 _ h⟩

example : foundBy exIterGraph 1 [1, 2, 3, 4] 1 = [2, 3] ∧ foundBy exIterGraph 1 [1, 2, 3, 4] 2 = [4] ∧ foundBy exIterGraph 1 [1, 2, 3, 4] 3 = [] := by
  decide

example : Prog.collect (BreadthFirstIter.next exIterGraph) (BreadthFirstIter.from_ 1) 6 = .done [1, 2, 3, 4] := by decide

example : Dist exIterGraph 1 4 2 := by
  refine ⟨⟨[1, 2, 4], ⟨?_, rfl, rfl⟩, rfl⟩, ?_⟩
  · simp only [List.isChain_cons_cons, List.isChain_singleton, Adj]; decide
  · rintro l ⟨h1, h2, h3⟩
    match l with
    | [] => cases h2
    | [a] =>
      simp only [List.head?_cons, Option.some.injEq, List.getLast?_singleton] at h2 h3
      subst h2
      exact absurd h3 (by decide)
    | [a, b] =>
      simp only [List.head?_cons, Option.some.injEq, List.getLast?_cons_cons, List.getLast?_singleton] at h2 h3
      subst h2 h3
      simp only [List.isChain_cons_cons, Adj] at h1
      exact absurd h1.1 (by decide)
    | a :: b :: c :: l => simp

/-! ### C26 -/

/-- The graph 1→4, 1→3, 1→2, 2→4. -/
def exDfsGraph : DirectedGraph := GraphCommand.applyCommands [.AddEdge 1 4, .AddEdge 1 3, .AddEdge 1 2, .AddEdge 2 4] .new

/-- C26 is false: on 1→4, 1→3, 1→2, 2→4 the iterator yields 1, 2, 3, 4, but a depth-first visit that goes from 1 to 2 has to visit 4
before 3. -/
theorem C26_counterexample :
    Built exDfsGraph ∧ Returns (Prog.collect (DepthFirstIter.next exDfsGraph) (DepthFirstIter.from_ 1)) [1, 2, 3, 4] ∧
    ¬ DfsFrom exDfsGraph [] 1 [1, 2, 3, 4] := by
  have hb : Built exDfsGraph := Built.new.applyCommands _
  refine ⟨hb, ?_, ?_⟩
  · refine Mono.returns (Mono.collect ?_ _) (n := 5) (by decide)
    intro s
    unfold DepthFirstIter.next
    split <;> exact Mono.ret _
  · intro h
    cases h with
    | visit _ h =>
      generalize hl : ([2, 3, 4] : List VertexId) = l at h
      cases h with
      | done => cases hl
      | next ha h1 h2 =>
        rename_i w l1 l2
        cases h1 with
        | visit hv h3 =>
          rename_i l3
          simp only [List.cons_append, List.cons.injEq] at hl
          obtain ⟨rfl, hl⟩ := hl
          cases h3 with
          | done h4 => exact absurd (h4 4 (by unfold Adj; decide)) (by decide)
          | next h4 h5 h6 =>
            rename_i w l4 l5
            cases h5 with
            | visit h7 h8 =>
              simp only [List.cons_append, List.cons.injEq] at hl
              obtain ⟨rfl, _⟩ := hl
              exact absurd h4 (by unfold Adj; decide)

/-- C26 (partial): on graphs in which every vertex other than the start has at most one reachable in-neighbour (out-trees, possibly with
edges back to the start) the order is a depth-first order. Missing: all other graphs, where the claim is false
(`C26_counterexample`). -/
theorem C26_dfs_order_partial (g : DirectedGraph) (h : Built g) (s : VertexId)
    (hT : ∀ u u' v, Reach g s u → Reach g s u' → Adj g u v → Adj g u' v → v ≠ s → u = u') (out : List VertexId)
    (ho : Returns (Prog.collect (DepthFirstIter.next g) (DepthFirstIter.from_ s)) out) : DfsFrom g [] s out := by
  obtain ⟨xs, h1, _⟩ := dfs_drains h.wf s
  rw [ho.unique h1.collect]
  exact dfs_tree_order h.wf (fun u u' v hu hu' => hT u u' v (h.wf.reachBy_iff.1 hu) (h.wf.reachBy_iff.1 hu')) h1

/-- C26 (partial): on every graph the order is a search order: every yielded vertex other than the start has an in-neighbour that was
yielded before. Missing: that this in-neighbour is the last possible one, as in a depth-first order. -/
theorem C26_search_order_partial (g : DirectedGraph) (h : Built g) (s : VertexId) (out : List VertexId)
    (ho : Returns (Prog.collect (DepthFirstIter.next g) (DepthFirstIter.from_ s)) out) (i : Nat) (v : VertexId) (hv : out[i]? = some v)
    (hne : v ≠ s) : ∃ (j : Nat) (u : VertexId), j < i ∧ out[j]? = some u ∧ Adj g u v := by
  obtain ⟨xs, h1, _⟩ := dfs_drains h.wf s
  have := ho.unique h1.collect
  subst this
  obtain ⟨s', h2, _⟩ := h1.run
  exact ((dfs_inv_run h.wf h2).earlier i v hv).resolve_left hne

/-- C26 (partial): the exact order on every graph: the preorder of the tree in which the children of a vertex are the out-neighbours that it is
the first to find, the last one first. Missing: a depth-first order has as the parent of a vertex the last possible vertex, not the first. -/
theorem C26_preorder_partial (g : DirectedGraph) (h : Built g) (s : VertexId) (out : List VertexId)
    (ho : Returns (Prog.collect (DepthFirstIter.next g) (DepthFirstIter.from_ s)) out) :
    Preorder (fun u => (foundBy g s out u).reverse) [s] out := by
  obtain ⟨xs, h1, h2, _⟩ := dfs_drains h.wf s
  have := ho.unique h1.collect
  subst this
  exact dfs_preorder h.wf h2 h1 [] rfl fun v => by simp [DepthFirstIter.from_, DepthFirstIter.empty]

theorem mono_dfs (g : DirectedGraph) (s : DepthFirstIter) : Mono (DepthFirstIter.next g s) := by
  unfold DepthFirstIter.next
  split <;> exact Mono.ret _

/-- `C26_search_order_partial` and `C26_preorder_partial` for `exDfsGraph`. -/
example : Returns (Prog.collect (DepthFirstIter.next exDfsGraph) (DepthFirstIter.from_ 1)) [1, 2, 3, 4] ∧
    (∃ (j : Nat) (u : VertexId), j < 3 ∧ [1, 2, 3, 4][j]? = some u ∧ Adj exDfsGraph u 4) ∧
    Preorder (fun u => (foundBy exDfsGraph 1 [1, 2, 3, 4] u).reverse) [1] [1, 2, 3, 4] :=
  have h := Mono.returns (n := 6) (Mono.collect (mono_dfs _) _) (by decide)
  ⟨h, C26_search_order_partial _ (Built.new.applyCommands _) 1 _ h 3 4 rfl (by decide), C26_preorder_partial _ (Built.new.applyCommands _) 1 _ h⟩

/-- `C26_dfs_order_partial` for a graph in which every vertex but the start has one predecessor. -/
example : DfsFrom (GraphCommand.applyCommands [.AddEdge 1 2, .AddEdge 1 3, .AddEdge 2 4, .AddEdge 4 1] .new) [] 1 [1, 3, 2, 4] := by
  refine C26_dfs_order_partial _ (Built.new.applyCommands _) 1 ?_ _ (Mono.returns (n := 6) (Mono.collect (mono_dfs _) _) (by decide))
  have key : ∀ a ∈ (GraphCommand.applyCommands [.AddEdge 1 2, .AddEdge 1 3, .AddEdge 2 4, .AddEdge 4 1] .new).edges,
      ∀ b ∈ (GraphCommand.applyCommands [.AddEdge 1 2, .AddEdge 1 3, .AddEdge 2 4, .AddEdge 4 1] .new).edges,
      a.dst = b.dst → a.dst ≠ 1 → a.src = b.src := by decide
  exact fun u u' v _ _ h1 h2 hne => key _ (adj_graphOf.1 h1) _ (adj_graphOf.1 h2) rfl hne

example : (foundBy exDfsGraph 1 [1, 2, 3, 4] 1).reverse = [2, 3, 4] ∧ foundBy exDfsGraph 1 [1, 2, 3, 4] 2 = [] := by decide

/-- A depth-first order for the tree 1→2, 1→3, 2→4 with an edge back to the root. -/
example : let g := GraphCommand.applyCommands [.AddEdge 1 2, .AddEdge 1 3, .AddEdge 2 4, .AddEdge 4 1] .new
    Prog.collect (DepthFirstIter.next g) (DepthFirstIter.from_ 1) 5 = .done [1, 3, 2, 4] := by decide

/-! ### C27 -/

/-- C27: iterating `dfs_iter_path_from(g, s)` to its end terminates without panic and yields exactly the simple paths starting at `s`,
each exactly once. -/
theorem C27_dfs_paths (g : DirectedGraph) (h : Built g) (s : VertexId) :
    ∃ out, Returns (Prog.collect (DepthFirstPathIter.next g) (DepthFirstPathIter.from_ s)) out ∧
      out.Nodup ∧ ∀ p : Path, p ∈ out ↔ SimplePathFrom g s p.vertices := by
  obtain ⟨xs, h1, h2, h3⟩ := dfs_path_drains h.wf s
  exact ⟨xs, h1.collect, h2, h3⟩

/-- C27: the order is the preorder of the tree of simple paths: each path comes before its extensions, and the extension by the last edge comes
first. -/
theorem C27_order (g : DirectedGraph) (h : Built g) (s : VertexId) (out : List Path)
    (ho : Returns (Prog.collect (DepthFirstPathIter.next g) (DepthFirstPathIter.from_ s)) out) :
    Preorder (fun l => (extensions g l).reverse) [[s]] (out.map Path.vertices) := by
  obtain ⟨xs, h1, _⟩ := dfs_path_drains h.wf s
  rw [ho.unique h1.collect]
  exact dfs_path_preorder h1

example : Prog.collect (DepthFirstPathIter.next exIterGraph) (DepthFirstPathIter.from_ 1) 9 =
    .done [⟨[1]⟩, ⟨[1, 3]⟩, ⟨[1, 3, 4]⟩, ⟨[1, 2]⟩, ⟨[1, 2, 4]⟩] := by decide

/-! ### C28 -/

/-- C28: iterating `bfs_path_iter_from(g, s)` to its end terminates without panic and yields exactly the simple paths starting at `s`,
each exactly once, in order of non-decreasing length. -/
theorem C28_bfs_paths (g : DirectedGraph) (h : Built g) (s : VertexId) :
    ∃ out, Returns (Prog.collect (BreadthFirstPathIter.next g) (BreadthFirstPathIter.from_ s)) out ∧
      out.Nodup ∧ (∀ p : Path, p ∈ out ↔ SimplePathFrom g s p.vertices) ∧
      ∀ (i j : Nat) (p q : Path), i < j → out[i]? = some p → out[j]? = some q → p.vertices.length ≤ q.vertices.length := by
  obtain ⟨xs, h1, h2, h3, h4⟩ := bfs_path_drains h.wf s
  refine ⟨xs, h1.collect, h2, h4, ?_⟩
  intro i j p q hij hi hj
  obtain ⟨hi1, rfl⟩ := List.getElem?_eq_some_iff.1 hi
  obtain ⟨hj1, rfl⟩ := List.getElem?_eq_some_iff.1 hj
  exact List.pairwise_iff_getElem.1 h3 i j hi1 hj1 hij

/-- C28: the exact order: first the path of one vertex, then the extensions of the paths in the order in which these are given out. -/
theorem C28_order (g : DirectedGraph) (h : Built g) (s : VertexId) (out : List Path)
    (ho : Returns (Prog.collect (BreadthFirstPathIter.next g) (BreadthFirstPathIter.from_ s)) out) :
    out.map Path.vertices = [s] :: (out.map Path.vertices).flatMap (extensions g) := by
  obtain ⟨xs, h1, _⟩ := bfs_path_drains h.wf s
  rw [ho.unique h1.collect]
  exact bfs_path_level_order h1

/-- `C27_order` and `C28_order` for `exIterGraph`. -/
example : (∃ out, Returns (Prog.collect (DepthFirstPathIter.next exIterGraph) (DepthFirstPathIter.from_ 1)) out ∧
      Preorder (fun l => (extensions exIterGraph l).reverse) [[1]] (out.map Path.vertices)) ∧
    ∃ out, Returns (Prog.collect (BreadthFirstPathIter.next exIterGraph) (BreadthFirstPathIter.from_ 4)) out ∧
      out.map Path.vertices = [4] :: (out.map Path.vertices).flatMap (extensions exIterGraph) := by
  obtain ⟨a, ha, _⟩ := C27_dfs_paths exIterGraph exIterGraph_built 1
  obtain ⟨b, hb, _⟩ := C28_bfs_paths exIterGraph exIterGraph_built 4
  exact ⟨⟨a, ha, C27_order _ exIterGraph_built 1 a ha⟩, b, hb, C28_order _ exIterGraph_built 4 b hb⟩

example : Prog.collect (BreadthFirstPathIter.next exIterGraph) (BreadthFirstPathIter.from_ 4) 9 =
    .done [⟨[4]⟩, ⟨[4, 1]⟩, ⟨[4, 1, 2]⟩, ⟨[4, 1, 3]⟩] := by decide

/-! ### C29 -/

theorem last_eq_lastOf {g : DirectedGraph} {s : VertexId} {sp : ScoredPath} (h : SimplePathFrom g s sp.path.vertices) :
    sp.path.vertices.getLast? = some (lastOf sp) := by
  obtain ⟨u, hu⟩ := h.last
  have : lastOf sp = u := by
    unfold lastOf Path.last
    rw [hu]; rfl
  rw [this, hu]

/-- C29: for every heap and every scoring closure that computes some score on all simple paths from the start, iterating
`best_iter_from` to its end terminates without panic, and yields simple paths from the start with their scores, exactly one for every
reachable vertex. -/
theorem C29_best_first (H : ScoredHeap) (g : DirectedGraph) (h : Built g) (s : VertexId) (scorefn : ScoreFn) (f : Path → Int)
    (hf : ScoresBy g s scorefn f) :
    ∃ it out, BestFirstIter.from_ (H := H) g scorefn s = .done it ∧ Returns (Prog.collect (BestFirstIter.next g scorefn) it) out ∧
      (∀ sp ∈ out, SimplePathFrom g s sp.path.vertices ∧ sp.score = f sp.path) ∧
      (out.map fun sp => sp.path.vertices.getLast?).Nodup ∧
      ∀ v, (∃ sp ∈ out, sp.path.vertices.getLast? = some v) ↔ Reach g s v := by
  obtain ⟨it, xs, h1, h2, h3, h4, h5, _⟩ := best_drains (H := H) h.wf hf
  have e : (xs.map fun sp => sp.path.vertices.getLast?) = (xs.map lastOf).map some := by
    rw [List.map_map]
    refine List.map_congr_left ?_
    intro sp hsp
    exact last_eq_lastOf (h3 sp hsp).1
  refine ⟨it, xs, h1, h2.collect, h3, ?_, ?_⟩
  · rw [e]; exact h4.map (Option.some_injective _)
  · intro v
    rw [← h.wf.reachBy_iff, ← h5 v, List.mem_map]
    constructor
    · rintro ⟨sp, hsp, hv⟩
      refine ⟨sp, hsp, ?_⟩
      rw [last_eq_lastOf (h3 sp hsp).1] at hv
      exact Option.some.inj hv
    · rintro ⟨sp, hsp, rfl⟩
      exact ⟨sp, hsp, last_eq_lastOf (h3 sp hsp).1⟩

/-- `C29_best_first` for a score that prefers long paths: every vertex reachable from 5 is the end of one yielded path. -/
example : ∃ it out, BestFirstIter.from_ (H := exHeap) exIterGraph (fun _ p => .done (-(p.vertices.length : Int))) 5 = .done it ∧
    Returns (Prog.collect (BestFirstIter.next exIterGraph (fun _ p => .done (-(p.vertices.length : Int)))) it) out ∧
    ∀ v, (∃ sp ∈ out, sp.path.vertices.getLast? = some v) ↔ Reach exIterGraph 5 v := by
  obtain ⟨it, out, h1, h2, _, _, h3⟩ := C29_best_first exHeap exIterGraph exIterGraph_built 5
    (fun _ p => .done (-(p.vertices.length : Int))) (fun p => -(p.vertices.length : Int)) (fun _ _ => rfl)
  exact ⟨it, out, h1, h2, h3⟩

/-- A heap and a scoring closure meeting the hypotheses: the score is minus the length of the path. -/
example : ScoresBy exIterGraph 1 (fun _ p => .done (-(p.vertices.length : Int))) (fun p => -(p.vertices.length : Int)) ∧
    (BestFirstIter.from_ (H := exHeap) exIterGraph (fun _ p => .done (-(p.vertices.length : Int))) 1).bind (fun it =>
      Prog.collect (BestFirstIter.next exIterGraph (fun _ p => .done (-(p.vertices.length : Int)))) it 9) =
      .done [⟨⟨[1]⟩, -1⟩, ⟨⟨[1, 2]⟩, -2⟩, ⟨⟨[1, 2, 4]⟩, -3⟩, ⟨⟨[1, 3]⟩, -2⟩] := by
  refine ⟨fun _ _ => rfl, by decide⟩

/-! ### C30 -/

/-- C30: a stack is empty when new, and popping gives back the item pushed last and the stack before that push. -/
theorem C30_stack_lifo (T : Type) : (Stack.new : Stack T).pop = none ∧ ∀ (s : Stack T) (x : T), (s.push x).pop = some (x, s) := by
  refine ⟨rfl, ?_⟩
  intro s x
  exact Stack.pop_eq_some.2 rfl

theorem stack_history {T : Type} {a b : List T} {s : Stack T} (h : History Stack.new Stack.push Stack.pop a b s) :
    a.Perm (b ++ s.stack) := by
  induction h with
  | new => exact .refl _
  | push x _ ih => simpa [Stack.push] using ih.append_right [x]
  | pop _ h2 ih =>
    rw [Stack.pop_eq_some.1 h2] at ih
    refine ih.trans ?_
    rw [List.append_assoc]
    exact List.perm_append_comm.append_left _

/-- C30: after any sequence of pushes and pops of a stack nothing was lost or duplicated: the popped items and the item a pop returns now
are among the pushed ones, and a pop fails only when all pushed items were popped. -/
theorem C30_stack_bag (T : Type) (a b : List T) (s : Stack T) (h : History Stack.new Stack.push Stack.pop a b s) :
    (s.pop = none → a.Perm b) ∧ (s.pop = none ↔ a.length = b.length) ∧
    ∀ x s', s.pop = some (x, s') → ∃ rest, a.Perm (b ++ x :: rest) := by
  have h1 := stack_history h
  refine ⟨?_, ?_, ?_⟩
  · intro hn
    rw [Stack.pop_eq_none.1 hn] at h1
    simpa using h1
  · rw [Stack.pop_eq_none, h1.length_eq, List.length_append, ← List.length_eq_zero_iff]
    omega
  · intro x s' hx
    rw [Stack.pop_eq_some.1 hx] at h1
    exact ⟨s'.stack, h1.trans (List.perm_append_comm.append_left _)⟩

theorem queue_history {T : Type} {a b : List T} {q : Queue T} (h : History Queue.new Queue.push Queue.pop a b q) :
    a = b ++ q.queue := by
  induction h with
  | new => rfl
  | push x _ ih => rw [ih]; simp [Queue.push]
  | pop _ h2 ih => rw [ih, Queue.pop_eq_some.1 h2]; simp

/-- C30: after any sequence of pushes and pops of a queue, the items were popped in the order in which they were pushed, the next pop
gives the next one, and a pop fails only when all pushed items were popped. -/
theorem C30_queue_fifo (T : Type) (a b : List T) (q : Queue T) (h : History Queue.new Queue.push Queue.pop a b q) :
    b <+: a ∧ (q.pop = none ↔ a = b) ∧ ∀ x q', q.pop = some (x, q') → b ++ [x] <+: a := by
  have h1 := queue_history h
  refine ⟨h1 ▸ List.prefix_append _ _, ?_, ?_⟩
  · rw [Queue.pop_eq_none, h1]
    simp
  · intro x q' hx
    rw [h1, Queue.pop_eq_some.1 hx]
    exact ⟨q'.queue, by simp⟩

theorem min_history {T : Type} {le : T → T → Bool} {H : BinaryHeap (Reverse T) (Reverse.le le)} {a b : List T}
    {q : MinPriorityQueue T le H} (h : History MinPriorityQueue.new MinPriorityQueue.push MinPriorityQueue.pop a b q) :
    a.Perm (b ++ q.items) := by
  induction h with
  | new => rw [MinPriorityQueue.items_new]; exact .refl _
  | push x _ ih =>
    refine (ih.append_right [x]).trans ?_
    rw [List.append_assoc]
    refine List.Perm.append_left _ (List.perm_append_comm.trans ?_)
    exact (MinPriorityQueue.items_push _ x).symm
  | pop _ h2 ih =>
    refine ih.trans ?_
    rw [List.append_assoc]
    exact (MinPriorityQueue.pop_some h2).1.append_left _

/-- C30: after any sequence of pushes and pops of a `MinPriorityQueue`, over any heap, a pop gives a smallest of the items that were
pushed and not popped, and fails only when all were popped; nothing is lost or duplicated. -/
theorem C30_min_priority (T : Type) (le : T → T → Bool) (H : BinaryHeap (Reverse T) (Reverse.le le)) (a b : List T)
    (q : MinPriorityQueue T le H) (h : History MinPriorityQueue.new MinPriorityQueue.push MinPriorityQueue.pop a b q) :
    (q.pop = none → a.Perm b) ∧ (q.pop = none ↔ a.length = b.length) ∧
    ∀ x q', q.pop = some (x, q') → ∃ rest, a.Perm (b ++ x :: rest) ∧ ∀ y ∈ x :: rest, le x y = true := by
  have h1 := min_history h
  refine ⟨?_, ?_, ?_⟩
  · intro hn
    rw [MinPriorityQueue.pop_none.1 hn] at h1
    simpa using h1
  · rw [MinPriorityQueue.pop_none, h1.length_eq, List.length_append, ← List.length_eq_zero_iff]
    omega
  · intro x q' hx
    obtain ⟨h2, h3⟩ := MinPriorityQueue.pop_some hx
    exact ⟨q'.items, h1.trans (h2.append_left _), fun y hy => h3 y (h2.mem_iff.2 hy)⟩

theorem max_history {T : Type} {le : T → T → Bool} {H : BinaryHeap T le} {a b : List T}
    {q : MaxPriorityQueue T le H} (h : History MaxPriorityQueue.new MaxPriorityQueue.push MaxPriorityQueue.pop a b q) :
    a.Perm (b ++ H.items q.priorityQueue) := by
  induction h with
  | new => simp [MaxPriorityQueue.new, H.items_new]
  | push x _ ih =>
    refine (ih.append_right [x]).trans ?_
    rw [List.append_assoc]
    refine List.Perm.append_left _ (List.perm_append_comm.trans ?_)
    exact (H.items_push _ x).symm
  | pop _ h2 ih =>
    unfold MaxPriorityQueue.pop at h2
    obtain ⟨⟨y, r⟩, h3, h4⟩ := Option.map_eq_some_iff.1 h2
    cases h4
    refine ih.trans ?_
    rw [List.append_assoc]
    exact (H.pop_some _ _ _ h3).1.append_left _

/-- C30: the same for a `MaxPriorityQueue`, which pops a greatest item. -/
theorem C30_max_priority (T : Type) (le : T → T → Bool) (H : BinaryHeap T le) (a b : List T)
    (q : MaxPriorityQueue T le H) (h : History MaxPriorityQueue.new MaxPriorityQueue.push MaxPriorityQueue.pop a b q) :
    (q.pop = none → a.Perm b) ∧ (q.pop = none ↔ a.length = b.length) ∧
    ∀ x q', q.pop = some (x, q') → ∃ rest, a.Perm (b ++ x :: rest) ∧ ∀ y ∈ x :: rest, le y x = true := by
  have h1 := max_history h
  have hn : q.pop = none ↔ H.items q.priorityQueue = [] := by
    unfold MaxPriorityQueue.pop
    rw [Option.map_eq_none_iff]
    constructor
    · exact H.pop_none _
    · intro he
      cases hp : H.pop q.priorityQueue with
      | none => rfl
      | some r =>
        have := (H.pop_some _ r.1 r.2 hp).1.length_eq
        rw [he] at this
        simp at this
  refine ⟨?_, ?_, ?_⟩
  · intro hq
    rw [hn.1 hq] at h1
    simpa using h1
  · rw [hn, h1.length_eq, List.length_append, ← List.length_eq_zero_iff]
    omega
  · intro x q' hx
    unfold MaxPriorityQueue.pop at hx
    obtain ⟨⟨y, r⟩, h3, h4⟩ := Option.map_eq_some_iff.1 hx
    cases h4
    obtain ⟨h5, h6⟩ := H.pop_some _ _ _ h3
    exact ⟨_, h1.trans (h5.append_left _), fun y hy => h6 y (h5.mem_iff.2 hy)⟩

/-- Histories with interleaved pushes and pops. -/
example : History (Queue.new : Queue Nat) Queue.push Queue.pop [5, 7, 6] [5] ⟨[7, 6]⟩ ∧
    History (Stack.new : Stack Nat) Stack.push Stack.pop [5, 7, 6] [7] ⟨[5, 6]⟩ :=
  ⟨((((History.new (T := Nat) (push := Queue.push) (pop := Queue.pop)).push 5).push 7).pop (x := 5) (q' := ⟨[7]⟩) rfl).push 6,
   ((((History.new (T := Nat) (push := Stack.push) (pop := Stack.pop)).push 5).push 7).pop (x := 7) (q' := ⟨[5]⟩) rfl).push 6⟩

end GC
