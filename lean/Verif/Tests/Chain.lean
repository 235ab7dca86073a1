/- The two tests of core/src/algorithm/topo_sort.rs on a chain of 25000 vertices (140-162), as consequences of the theorems about chains and
rings of any length. -/
import Verif.Props.TopoLevels
namespace GC.Tests

/-- The vertices `a`, ..., `a + n - 1`. -/
def idsFrom (a n : Nat) : List VertexId := (List.range' a n).map fun i => ⟨UInt64.ofNat i⟩

theorem nodup_idsFrom (a n : Nat) (h : a + n ≤ 2 ^ 64) : (idsFrom a n).Nodup := by
  unfold idsFrom
  refine List.Nodup.map_on ?_ List.nodup_range'
  intro x hx y hy hxy
  rw [List.mem_range'_1] at hx hy
  injection hxy with hxy
  have := congrArg UInt64.toNat hxy
  rw [UInt64.toNat_ofNat_of_lt' (by change x < 2 ^ 64; omega), UInt64.toNat_ofNat_of_lt' (by change y < 2 ^ 64; omega)] at this
  exact this

theorem zip_idsFrom (a n : Nat) : (idsFrom a n).zip (idsFrom a n).tail =
    (List.range' a (n - 1)).map fun i => ((⟨UInt64.ofNat i⟩ : VertexId), (⟨UInt64.ofNat (i + 1)⟩ : VertexId)) := by
  induction n generalizing a with
  | zero => rfl
  | succ n ih =>
    cases n with
    | zero => rfl
    | succ n =>
      have := ih (a + 1)
      simp only [idsFrom, List.range'_succ, List.map_cons, List.tail_cons, List.zip_cons_cons, Nat.add_sub_cancel] at this ⊢
      rw [this]

/-- The commands of the loop `for i in 1..n { g.add_edge(edge(i, i + 1)) }`. -/
def chainTo (n : Nat) : List GraphCommand :=
  (List.range' 1 (n - 1)).map fun i => .AddEdge ⟨UInt64.ofNat i⟩ ⟨UInt64.ofNat (i + 1)⟩

theorem chainTo_eq (n : Nat) : chainTo n = chainCommands (idsFrom 1 n) := by
  unfold chainTo chainCommands
  rw [zip_idsFrom, List.map_map]
  rfl

/-- `topological_sort_should_work_on_a_big_number_of_chained_vertices`, where `n` is 25000 in the test. -/
theorem chain_of_any_length (n : Nat) (h2 : 2 ≤ n) (hn : n < 2 ^ 64) (g : DirectedGraph) (h : Evolves (chainTo n) g) :
    Returns (TopoSort.topologicalSort g) (some (idsFrom 1 n)) := by
  rw [chainTo_eq] at h
  exact C39_chain _ (nodup_idsFrom _ _ (by omega)) (by simpa [idsFrom] using h2) g h

/-- `topological_order_on_a_graph_with_a_cycle_is_empty_1`, where `n` is 25000 in the test. -/
theorem ring_of_any_length (n : Nat) (h2 : 2 ≤ n) (hn : n < 2 ^ 64) (g : DirectedGraph)
    (h : Evolves (chainTo n ++ [.AddEdge ⟨UInt64.ofNat n⟩ 1]) g) : Returns (TopoSort.topologicalSort g) none := by
  rw [chainTo_eq] at h
  have hs : idsFrom 1 n = 1 :: idsFrom 2 (n - 2) ++ [⟨UInt64.ofNat n⟩] := by
    obtain ⟨k, rfl⟩ : ∃ k, n = k + 2 := ⟨n - 2, by omega⟩
    unfold idsFrom
    rw [List.range'_succ, List.range'_concat, List.map_cons, List.map_append, Nat.add_sub_cancel]
    simp only [List.map_cons, List.map_nil, List.cons_append]
    rw [show 1 + 1 + 1 * k = k + 2 by omega]
    rfl
  have hnd := nodup_idsFrom 1 n (by omega)
  rw [hs] at h hnd
  exact C39_ring 1 _ _ hnd g h

example (g : DirectedGraph) (h : Evolves (chainTo 25000) g) : Returns (TopoSort.topologicalSort g) (some (idsFrom 1 25000)) :=
  chain_of_any_length 25000 (by omega) (by omega) g h
example (g : DirectedGraph) (h : Evolves (chainTo 25000 ++ [.AddEdge 25000 1]) g) : Returns (TopoSort.topologicalSort g) none :=
  ring_of_any_length 25000 (by omega) (by omega) g h

end GC.Tests
