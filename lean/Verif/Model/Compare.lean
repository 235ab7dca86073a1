/-
Model of the comparison traits: the derived `Ord` of `VertexId`, `Edge` (core/src/graph.rs) and `Cycle` (core/src/iter/iter_cycle.rs), and
the hand-written one of `ScoredPath` (core/src/path.rs). `partial_cmp` of the derived traits gives the same answers and is not repeated.
-/
import Verif.Model.Cycle
namespace GC

/-- std `Ord for u64`. std, used through the derived `Ord` at core/src/graph.rs 5 and 10, core/src/iter/iter_cycle.rs 12, and core/src/path.rs
87-97. -/
def cmpU64 (a b : UInt64) : Ordering := if a < b then .lt else if a = b then .eq else .gt

/-- std `Ord for i64`. std, used through the derived `Ord` at core/src/graph.rs 5 and 10, core/src/iter/iter_cycle.rs 12, and core/src/path.rs
87-97. -/
def cmpI64 (a b : Int) : Ordering := if a < b then .lt else if a = b then .eq else .gt

/-- core/src/graph.rs 5: derived `Ord::cmp` of `VertexId`. -/
def VertexId.cmp (a b : VertexId) : Ordering := cmpU64 a.id b.id

/-- core/src/graph.rs 10: derived `Ord::cmp` of `Edge`: the first fields, then the second. -/
def Edge.cmp (a b : Edge) : Ordering :=
  match a.src.cmp b.src with
  | .eq => a.dst.cmp b.dst
  | o => o

/-- std `Ord for Vec<T>`. std, used through the derived `Ord` at core/src/graph.rs 5 and 10, core/src/iter/iter_cycle.rs 12, and core/src/path.rs
87-97. -/
def cmpVec {α : Type} (cmp : α → α → Ordering) : List α → List α → Ordering
  | [], [] => .eq
  | [], _ :: _ => .lt
  | _ :: _, [] => .gt
  | a :: l, b :: m =>
    match cmp a b with
    | .eq => cmpVec cmp l m
    | o => o

/-- core/src/iter/iter_cycle.rs 12: derived `Ord::cmp` of `Cycle`. -/
def Cycle.cmp (a b : Cycle) : Ordering := cmpVec VertexId.cmp a.vertices b.vertices

/-- core/src/path.rs 94-96: `Ord::cmp` of `ScoredPath`. -/
def ScoredPath.cmp (a b : ScoredPath) : Ordering := cmpI64 a.score b.score

/-- core/src/path.rs 88-90: `PartialOrd::partial_cmp` of `ScoredPath`. -/
def ScoredPath.partialCmp (a b : ScoredPath) : Option Ordering := some (cmpI64 a.score b.score)

/-- core/src/graph.rs 20-24: `From<(VertexId, VertexId)> for Edge`. -/
def Edge.from (pair : VertexId × VertexId) : Edge := ⟨pair.1, pair.2⟩

end GC
