/-
Model of `==` on graphs: the `PartialEq` derived for `DirectedGraph` (core/src/directed_graph.rs 9-13).
-/
import Verif.Model.Graph
namespace GC

/-- std `PartialEq for HashMap<K, V>`: the same number of entries, and every entry of the first map has an equal value in the second. Used through
the derived `PartialEq` at core/src/directed_graph.rs 9-13. -/
def HMap.eq {K V : Type} [DecidableEq K] [DecidableEq V] (a b : HMap K V) : Bool :=
  if a.length ≠ b.length then false
  else a.all fun p =>
    match HMap.get? b p.1 with
    | some v => p.2 = v
    | none => false

/-- core/src/directed_graph.rs 9: derived `PartialEq`, the comparison of the field `edge_map`. The values are vectors, compared in order. -/
def DirectedGraph.eq (a b : DirectedGraph) : Bool := HMap.eq a.edgeMap b.edgeMap

end GC
