/-
Model of command/src/arg_utils.rs, of the option handling of command/src/bin/gc-csp.rs and command/src/bin/gc-cycle.rs, and of
the shapes of command/src/bin/gc-add.rs.

The model starts from the strings given for each option; `Verif/Model/Cli.lean` models how `clap` splits the command line into them.
-/
import Verif.Model.Text
import Verif.Model.Prog
import Verif.Model.Constraint
namespace GC
namespace Args
open Text

/-- command/src/arg_utils.rs 12-15: the loop over the even indices of a list of even length, as a recursion. -/
def pairUp : List VertexId → List (VertexId × VertexId)
  | a :: b :: l => (a, b) :: pairUp l
  | _ => []

/-- command/src/arg_utils.rs 9-19. -/
def asVertexTuple (vids : List VertexId) : Option (List (VertexId × VertexId)) :=
  if vids.length % 2 = 0 then some (pairUp vids) else none

/-- command/src/arg_utils.rs 21-23. -/
def parseVertexId (v : Text) : Option UInt64 := parseU64 v

/-- command/src/arg_utils.rs 27-32: the loop, `res` is what was pushed so far. -/
def parseVertexIdLoop : List Text → List VertexId → Option (List VertexId)
  | [], res => some res
  | id :: ids, res =>
    match parseVertexId id with
    | some id => parseVertexIdLoop ids (res ++ [⟨id⟩])
    | none => none

/-- command/src/arg_utils.rs 25-34. -/
def parseVertexIdList (ids : List Text) : Option (List VertexId) := parseVertexIdLoop ids []

/-- command/src/arg_utils.rs 36-40. -/
def parseEdgeList (ids : List Text) : Option (List Edge) :=
  ((parseVertexIdList ids).bind asVertexTuple).map fun pairs => pairs.map fun p => ⟨p.1, p.2⟩

/-- command/src/arg_utils.rs 48-51: the answer typed on standard input. Reading it is not modelled. -/
def confirmationYesNo (buffer : Text) : Bool :=
  let t := trim buffer
  decide (t = ['y', 'e', 's']) || decide (t = ['y'])

/-- command/src/arg_utils.rs 56-58. -/
def buildInclude (ids : List VertexId) : List Constraint := ids.map .ContainsVertex
/-- command/src/arg_utils.rs 60-64. -/
def buildExclude (ids : List VertexId) : List Constraint := ids.map fun v => .Not (.ContainsVertex v)
/-- command/src/arg_utils.rs 66-68. -/
def buildIncludeEdges (edges : List Edge) : List Constraint := edges.map .ContainsEdge
/-- command/src/arg_utils.rs 70-75. -/
def buildExcludeEdges (edges : List Edge) : List Constraint := edges.map fun e => .Not (.ContainsEdge e)
/-- command/src/arg_utils.rs 77-79. -/
def buildOrdered (ids : List VertexId) : Constraint := .OrderedVertices ids
/-- command/src/arg_utils.rs 81-83. -/
def buildIncludeCycle : Constraint := .ContainsCycle
/-- command/src/arg_utils.rs 85-87. -/
def buildNoCycle : Constraint := .Not .ContainsCycle
/-- command/src/arg_utils.rs 89-91. -/
def buildMinLength (len : Nat) : Constraint := .MinLength len
/-- command/src/arg_utils.rs 93-95. -/
def buildMaxLength (len : Nat) : Constraint := .MaxLength len
/-- command/src/arg_utils.rs 97-99. -/
def buildExactLength (len : Nat) : List Constraint := [.MinLength len, .MaxLength len]
/-- command/src/arg_utils.rs 101-103. -/
def buildMinScore (score : Int) : Constraint := .MinScore score
/-- command/src/arg_utils.rs 105-107 (the code builds a `MinScore`). -/
def buildMaxScore (score : Int) : Constraint := .MinScore score
/-- command/src/arg_utils.rs 109-111. -/
def buildExactScore (score : Int) : List Constraint := [.MinScore score, .MaxScore score]

/-- command/src/arg_utils.rs 115-123. -/
def optionOf {α : Type} (flag : Bool) (thunk : α) : Option α := if flag then some thunk else none

/-- The strings given for the constraint options of gc-csp (command/src/bin/gc-csp.rs 44-135). -/
structure CspArgs where
  include_ : Option (List Text) := none
  exclude : Option (List Text) := none
  ordered : Option (List Text) := none
  includeCycle : Bool := false
  noCycle : Bool := false
  minLength : Option Text := none
  maxLength : Option Text := none
  exactLength : Option Text := none
  minScore : Option Text := none
  maxScore : Option Text := none
  exactScore : Option Text := none

/-- command/src/bin/gc-csp.rs 149-198 and 261-310: the constraints given to the search. `unwrap_or(vec![])` followed by a loop
of pushes is written as a concatenation. -/
def cspConstraints (a : CspArgs) : List Constraint :=
  ((a.include_.bind parseVertexIdList).map buildInclude).getD [] ++
  ((a.exclude.bind parseVertexIdList).map buildExclude).getD [] ++
  ((a.ordered.bind parseVertexIdList).map buildOrdered).toList ++
  (optionOf a.includeCycle buildIncludeCycle).toList ++
  (optionOf a.noCycle buildNoCycle).toList ++
  ((a.minLength.bind parseUsize).map buildMinLength).toList ++
  ((a.maxLength.bind parseUsize).map buildMaxLength).toList ++
  ((a.exactLength.bind parseUsize).map buildExactLength).getD [] ++
  ((a.minScore.bind parseI64).map buildMinScore).toList ++
  ((a.maxScore.bind parseI64).map buildMaxScore).toList ++
  ((a.exactScore.bind parseI64).map buildExactScore).getD []

/-- The strings given for the constraint options of gc-cycle (command/src/bin/gc-cycle.rs 84-166). -/
structure CycleArgs where
  includeAll : Option (List Text) := none
  excludeAll : Option (List Text) := none
  includeAllEdges : Option (List Text) := none
  excludeAllEdges : Option (List Text) := none
  minLength : Option Text := none
  maxLength : Option Text := none
  exactLength : Option Text := none
  minScore : Option Text := none
  maxScore : Option Text := none
  exactScore : Option Text := none

/-- command/src/bin/gc-cycle.rs 186-238 and 277-322. -/
def cycleConstraints (a : CycleArgs) : List Constraint :=
  ((a.includeAll.bind parseVertexIdList).map buildInclude).getD [] ++
  ((a.excludeAll.bind parseVertexIdList).map buildExclude).getD [] ++
  ((a.includeAllEdges.bind parseEdgeList).map buildIncludeEdges).getD [] ++
  ((a.excludeAllEdges.bind parseEdgeList).map buildExcludeEdges).getD [] ++
  ((a.minLength.bind parseUsize).map buildMinLength).toList ++
  ((a.maxLength.bind parseUsize).map buildMaxLength).toList ++
  ((a.exactLength.bind parseUsize).map buildExactLength).getD [] ++
  ((a.minScore.bind parseI64).map buildMinScore).toList ++
  ((a.maxScore.bind parseI64).map buildMaxScore).toList ++
  ((a.exactScore.bind parseI64).map buildExactScore).getD []

/-- A Rust `for` loop pushing one computed value per item; a panic ends it. Used for command/src/bin/gc-add.rs 131-163. -/
def pushAll {α β : Type} (f : α → Run β) : List α → Run (List β)
  | [] => .done []
  | a :: l => (f a).bind fun b => (pushAll f l).bind fun bs => .done (b :: bs)

/-- Rust `vertices[i]`: panics when out of bounds. command/src/bin/gc-add.rs 134, 149, 159. -/
def index (vertices : List VertexId) (i : Nat) : Run VertexId := Run.unwrap vertices[i]?

/-- The pair `(vertices[i], vertices[j])`. command/src/bin/gc-add.rs 134, 149, 159. -/
def indexPair (vertices : List VertexId) (i j : Nat) : Run (VertexId × VertexId) :=
  (index vertices i).bind fun a => (index vertices j).bind fun b => .done (a, b)

/-- command/src/bin/gc-add.rs 131-137. On the empty list `len() - 1` underflows: the debug build panics there, the release build
panics at `vertices[0]`. -/
def chainFromVertices (vertices : List VertexId) : Run (List (VertexId × VertexId)) :=
  if vertices.length = 0 then .panicked
  else pushAll (fun i => indexPair vertices i (i + 1)) (List.range (vertices.length - 1))

/-- command/src/bin/gc-add.rs 139-144. -/
def cycleFromVertices (vertices : List VertexId) : Option (Run (List (VertexId × VertexId))) :=
  vertices.head?.map fun vid => chainFromVertices (vertices ++ [vid])

/-- command/src/bin/gc-add.rs 146-152. -/
def starFromVertices (vertices : List VertexId) : Run (List (VertexId × VertexId)) :=
  pushAll (fun i => indexPair vertices 0 i) (List.range' 1 (vertices.length - 1))

/-- command/src/bin/gc-add.rs 156-162: the index pairs visited by the two nested loops. -/
def cliqueIndices (n : Nat) : List (Nat × Nat) :=
  (List.range n).flatMap fun i => (List.range n).flatMap fun j => if i ≠ j then [(i, j)] else []

/-- command/src/bin/gc-add.rs 154-164. -/
def cliqueFromVertices (vertices : List VertexId) : Run (List (VertexId × VertexId)) :=
  pushAll (fun p => indexPair vertices p.1 p.2) (cliqueIndices vertices.length)

/-- command/src/bin/gc-add.rs 166-175. -/
def reverseIfNeeded (shouldReverse : Bool) (vertices : List (VertexId × VertexId)) : List (VertexId × VertexId) :=
  if shouldReverse then vertices.map fun p => (p.2, p.1) else vertices

end Args
end GC
