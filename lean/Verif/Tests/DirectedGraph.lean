/- The tests of core/src/directed_graph.rs (156-358). -/
import Verif.Tests.Common
namespace GC.Tests
open DirectedGraph

/-- `test_add_vertex` -/
example : (new.addVertex 0).2.containsVertex 0 = true := by decide +kernel

/-- `test_remove_existing_vertex_work` -/
example : let g := (new.addVertex 0).2
    g.containsVertex 0 = true ∧ (g.removeVertex 0).1 = true ∧ (g.removeVertex 0).2.containsVertex 0 = false := by decide +kernel

/-- `test_remove_existing_vertex_removes_all_related_edges_too` -/
example : let g := ((((new.addVertex 0).2.addVertex 1).2.addVertex 2).2.addVertex 3).2
    let g := (((g.addEdge (edge 1 2)).2.addEdge (edge 3 1)).2.addEdge (edge 2 3)).2
    let r := g.removeVertex 1
    r.1 = true ∧ r.2.containsEdge (edge 1 2) = false ∧ r.2.containsEdge (edge 3 1) = false ∧ r.2.containsEdge (edge 2 3) = true := by
  decide +kernel

/-- `test_remove_non_existing_vertex_has_no_effect` -/
example : let g := (new.addVertex 0).2
    g.containsVertex 0 = true ∧ (g.removeVertex 1).1 = false ∧ (g.removeVertex 1).2.containsVertex 0 = true := by decide +kernel

/-- `test_add_edge_with_existing_vertices_works` -/
example : let g := ((new.addVertex 0).2.addVertex 1).2
    let g' := (g.addEdge (edge 1 0)).2
    g.containsEdge (edge 0 1) = false ∧ g.containsEdge (edge 1 0) = false ∧
    g'.containsEdge (edge 0 1) = false ∧ g'.containsEdge (edge 1 0) = true := by decide +kernel

/-- `test_add_edge_with_non_existing_vertices_works` -/
example : new.containsVertex 0 = false ∧ new.containsVertex 1 = false ∧ (new.addEdge (edge 1 0)).2.containsEdge (edge 1 0) = true := by
  decide +kernel

/-- `test_adding_an_edge_does_not_add_the_reverted_edge` -/
example : (new.addEdge (edge 1 0)).2.containsEdge (edge 0 1) = false := by decide +kernel

/-- `test_removing_an_edge_removes_only_that_edge` -/
example : let g := ((graphOf [(1, 0), (2, 1), (0, 1)]).removeEdge (edge 0 1)).2
    g.containsEdge (edge 0 1) = false ∧ g.containsEdge (edge 1 0) = true ∧ g.containsEdge (edge 2 1) = true := by decide +kernel

/-- `test_removing_an_edge_removes_all_occurences_of_this_edge` -/
example : let g := graphOf [(0, 1), (0, 1), (0, 1), (1, 2), (1, 3)]
    let g' := (g.removeEdge (edge 0 1)).2
    g.edgeCount = 3 ∧ g'.edgeCount = 2 ∧ g'.containsEdge (edge 0 1) = false := by decide +kernel

/-- `test_removing_non_existing_vertex_has_no_effect` -/
example : let g := ((new.addVertex 100).2.addVertex 200).2
    let g := (((g.addEdge (edge 1 0)).2.addEdge (edge 2 1)).2.addEdge (edge 0 1)).2
    let g' := (g.removeVertex 999).2
    g.vertexCount = 5 ∧ g.edgeCount = 3 ∧ g'.vertexCount = 5 ∧ g'.edgeCount = 3 := by decide +kernel

/-- `test_remove_non_existing_edge_has_no_effect` -/
example : let g := graphOf [(1, 0), (2, 1), (0, 1)]
    let g' := (g.removeEdge (edge 7 8)).2
    g.edgeCount = 3 ∧ g'.vertexCount = 3 ∧ g'.edgeCount = 3 := by decide +kernel

/-- `test_adding_a_vertex_several_times_has_no_effect` -/
example : let g := (((new.addVertex 100).2.addEdge (edge 0 1)).2.addEdge (edge 1 2)).2
    let g' := (g.addVertex 100).2
    g.vertexCount = 4 ∧ g.edgeCount = 2 ∧ g'.vertexCount = 4 ∧ g'.edgeCount = 2 := by decide +kernel

/-- `test_removing_a_vertex_several_times_has_no_effect` -/
example : let g := ((((new.addVertex 100).2.addVertex 200).2.addEdge (edge 0 1)).2.addEdge (edge 1 2)).2
    let g' := (g.removeVertex 100).2
    let g'' := (g'.removeVertex 100).2
    g.vertexCount = 5 ∧ g.edgeCount = 2 ∧ g'.vertexCount = 4 ∧ g'.edgeCount = 2 ∧ g''.vertexCount = 4 ∧ g''.edgeCount = 2 := by
  decide +kernel

/-- `test_adding_an_edge_several_times_has_no_effect` -/
example : let g := graphOf [(0, 1), (1, 2), (1, 3)]
    let g' := (g.addEdge (edge 0 1)).2
    g.vertexCount = 4 ∧ g.edgeCount = 3 ∧ g'.vertexCount = 4 ∧ g'.edgeCount = 3 := by decide +kernel

/-- `test_removing_an_edge_several_times_has_no_effect` -/
example : let g := graphOf [(0, 1), (1, 2), (1, 3)]
    let g' := (g.removeEdge (edge 1 3)).2
    let g'' := (g'.removeEdge (edge 1 3)).2
    g.vertexCount = 4 ∧ g.edgeCount = 3 ∧ g'.vertexCount = 4 ∧ g'.edgeCount = 2 ∧
    g''.vertexCount = 4 ∧ g''.edgeCount = 2 ∧ g''.containsEdge (edge 1 3) = false := by decide +kernel

end GC.Tests
