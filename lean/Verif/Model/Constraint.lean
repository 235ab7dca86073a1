/-
Model of core/src/constraint/constraint.rs and core/src/constraint/checker.rs.
-/
import Verif.Model.Path
namespace GC

/-- core/src/constraint/constraint.rs 9-40. `usize` lengths are natural numbers, `i64` scores are integers. -/
inductive Constraint where
  | ContainsVertex (v : VertexId)
  | ContainsEdge (e : Edge)
  | OrderedVertices (vs : List VertexId)
  | ContainsCycle
  | MinLength (n : Nat)
  | MaxLength (n : Nat)
  | MinScore (s : Int)
  | MaxScore (s : Int)
  | Or (c1 c2 : Constraint)
  | Xor (c1 c2 : Constraint)
  | And (c1 c2 : Constraint)
  | Not (c : Constraint)
deriving DecidableEq, Repr

namespace Constraint

/-- core/src/constraint/constraint.rs 96-100: the vertex → index cache (a later index overwrites an earlier one). -/
def vertexToIndex (ordered : List VertexId) : HMap VertexId Nat :=
  ordered.zipIdx.foldl (fun m p => HMap.insert m p.1 p.2) []

/-- core/src/constraint/constraint.rs 101-111: the loop over the path with the running `start_from`. -/
def checkOrderFrom (cache : HMap VertexId Nat) : Nat → List VertexId → Bool
  | _, [] => true
  | startFrom, v :: vs =>
    match HMap.get? cache v with
    | some i => if i < startFrom then false else checkOrderFrom cache i vs
    | none => checkOrderFrom cache startFrom vs

/-- core/src/constraint/constraint.rs 94-112. -/
def checkVerticesOrder (path : Path) (ordered : List VertexId) : Bool :=
  checkOrderFrom (vertexToIndex ordered) 0 path.vertices

/-- core/src/constraint/constraint.rs 46-70. -/
def checkPartial (c : Constraint) (partialPath : ScoredPath) : Bool :=
  match c with
  | ContainsVertex _ => true
  | ContainsEdge _ => true
  | OrderedVertices ordered => checkVerticesOrder partialPath.path ordered
  | ContainsCycle => true
  | MinLength _ => true
  | MinScore _ => true
  | MaxLength len => decide (partialPath.path.size ≤ len)
  | MaxScore score => decide (partialPath.score ≤ score)
  | Not x =>
    match x with
    | ContainsVertex vid => !partialPath.path.containsVertex vid
    | ContainsEdge e => !partialPath.path.containsEdge e
    | ContainsCycle => !partialPath.path.containsCycle
    | _ => true
  | Or c1 c2 => checkPartial c1 partialPath || checkPartial c2 partialPath
  | And c1 c2 => checkPartial c1 partialPath && checkPartial c2 partialPath
  | Xor c1 c2 => checkPartial c1 partialPath || checkPartial c2 partialPath

/-- core/src/constraint/constraint.rs 73-90. -/
def checkComplete (c : Constraint) (full : ScoredPath) : Bool :=
  match c with
  | ContainsVertex vid => full.path.containsVertex vid
  | ContainsEdge e => full.path.containsEdge e
  | OrderedVertices ordered => checkVerticesOrder full.path ordered
  | ContainsCycle => full.path.containsCycle
  | MinLength len => decide (full.path.size ≥ len)
  | MaxLength len => decide (full.path.size ≤ len)
  | MinScore score => decide (full.score ≥ score)
  | MaxScore score => decide (full.score ≤ score)
  | Or c1 c2 => checkComplete c1 full || checkComplete c2 full
  | Xor c1 c2 => Bool.xor (checkComplete c1 full) (checkComplete c2 full)
  | And c1 c2 => checkComplete c1 full && checkComplete c2 full
  | Not c1 => !checkComplete c1 full

end Constraint

namespace Checker
open Constraint

/-- The error cases of core/src/constraint/checker.rs 59, 87, 104, 127-138, 160-171. Simplification: the message text is not modelled, only which message it
is and the offending values. -/
inductive ValidateError where
  | vertices (vs : List VertexId)
  | edges (es : List Edge)
  | cycle
  | severalMinLength (l : List Nat)
  | severalMaxLength (l : List Nat)
  | minMaxLength (min max : Nat)
  | severalMinScore (l : List Int)
  | severalMaxScore (l : List Int)
  | minMaxScore (min max : Int)
deriving DecidableEq, Repr

/-- core/src/constraint/checker.rs 32-40. The set is kept as a list. -/
def vertexInclusions (cs : List Constraint) : List VertexId :=
  cs.flatMap (fun c => match c with
    | ContainsVertex v => [v]
    | ContainsEdge e => [e.src, e.dst]
    | _ => [])

/-- core/src/constraint/checker.rs 41-51. -/
def vertexExclusions (cs : List Constraint) : List VertexId :=
  cs.flatMap (fun c => match c with
    | .Not (ContainsVertex v) => [v]
    | _ => [])

/-- core/src/constraint/checker.rs 31-61. -/
def checkVertexInclusionExclusion (cs : List Constraint) : Except ValidateError Unit :=
  let intersection := (vertexInclusions cs).filter (fun v => (vertexExclusions cs).contains v)
  if intersection.isEmpty then .ok () else .error (.vertices intersection)

/-- core/src/constraint/checker.rs 64-70. -/
def edgeInclusions (cs : List Constraint) : List Edge :=
  cs.filterMap (fun c => match c with
    | ContainsEdge e => some e
    | _ => none)

/-- core/src/constraint/checker.rs 71-80. -/
def edgeExclusions (cs : List Constraint) : List Edge :=
  cs.filterMap (fun c => match c with
    | .Not (ContainsEdge e) => some e
    | _ => none)

/-- core/src/constraint/checker.rs 63-89. -/
def checkEdgeInclusionExclusion (cs : List Constraint) : Except ValidateError Unit :=
  let intersection := (edgeInclusions cs).filter (fun v => (edgeExclusions cs).contains v)
  if intersection.isEmpty then .ok () else .error (.edges intersection)

/-- core/src/constraint/checker.rs 91-94. -/
def checkVerticesOrder (_cs : List Constraint) : Except ValidateError Unit := .ok ()

/-- core/src/constraint/checker.rs 186-194. -/
def negatedConstraints (cs : List Constraint) : List Constraint :=
  cs.filterMap (fun c => match c with
    | .Not c => some c
    | _ => none)

/-- core/src/constraint/checker.rs 96-108. -/
def checkCycleInclusionExclusion (cs : List Constraint) : Except ValidateError Unit :=
  let containsCycle := (cs.find? (fun c => c = ContainsCycle)).isSome
  let containsNoCycle := ((negatedConstraints cs).find? (fun c => c = ContainsCycle)).isSome
  if containsCycle != containsNoCycle then .ok () else .error .cycle

/-- core/src/constraint/checker.rs 126-140 and 159-173 (two copies of the same code, for lengths and for scores). -/
def checkBounds {α : Type} [LT α] [DecidableLT α] (mins maxs : List α)
    (severalMin severalMax : ValidateError) (minMax : α → α → ValidateError) : Except ValidateError Unit :=
  if mins.length > 1 then .error severalMin
  else if maxs.length > 1 then .error severalMax
  else match mins.head?, maxs.head? with
    | some min, some max => if min > max then .error (minMax min max) else .ok ()
    | _, _ => .ok ()

/-- core/src/constraint/checker.rs 111-117. -/
def minLengths (cs : List Constraint) : List Nat :=
  cs.filterMap (fun c => match c with
    | MinLength l => some l
    | _ => none)

/-- core/src/constraint/checker.rs 118-124. -/
def maxLengths (cs : List Constraint) : List Nat :=
  cs.filterMap (fun c => match c with
    | MaxLength l => some l
    | _ => none)

/-- core/src/constraint/checker.rs 110-141. -/
def checkMinMaxLength (cs : List Constraint) : Except ValidateError Unit :=
  checkBounds (minLengths cs) (maxLengths cs) (.severalMinLength (minLengths cs)) (.severalMaxLength (maxLengths cs))
    .minMaxLength

/-- core/src/constraint/checker.rs 144-150. -/
def minScores (cs : List Constraint) : List Int :=
  cs.filterMap (fun c => match c with
    | MinScore l => some l
    | _ => none)

/-- core/src/constraint/checker.rs 151-157. -/
def maxScores (cs : List Constraint) : List Int :=
  cs.filterMap (fun c => match c with
    | MaxScore l => some l
    | _ => none)

/-- core/src/constraint/checker.rs 143-174. -/
def checkMinMaxScore (cs : List Constraint) : Except ValidateError Unit :=
  checkBounds (minScores cs) (maxScores cs) (.severalMinScore (minScores cs)) (.severalMaxScore (maxScores cs))
    .minMaxScore

/-- core/src/constraint/checker.rs 21-29. -/
def validate (cs : List Constraint) : Except ValidateError Unit := do
  checkVertexInclusionExclusion cs
  checkEdgeInclusionExclusion cs
  checkVerticesOrder cs
  checkCycleInclusionExclusion cs
  checkMinMaxLength cs
  checkMinMaxScore cs
  .ok ()

end Checker
end GC
