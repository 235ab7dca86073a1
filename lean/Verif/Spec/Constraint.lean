/-
Documented meaning of path queries and constraints, in terms of positions in the path.
-/
import Verif.Model.Constraint
namespace GC

/-- `v` is at position `i` of the path. -/
def At (p : Path) (i : Nat) (v : VertexId) : Prop := p.vertices[i]? = some v

/-- The path visits `v`. -/
def Visits (p : Path) (v : VertexId) : Prop := ∃ i, At p i v

/-- The path goes along edge `e`: its endpoints are at consecutive positions. -/
def Traverses (p : Path) (e : Edge) : Prop := ∃ i, At p i e.src ∧ At p (i + 1) e.dst

/-- Some vertex occurs at two different positions. -/
def RepeatsVertex (p : Path) : Prop := ∃ i j v, i < j ∧ At p i v ∧ At p j v

/-- `k` is the rank of `v` in the list `l` (its last position). -/
def Rank (l : List VertexId) (v : VertexId) (k : Nat) : Prop :=
  l[k]? = some v ∧ ∀ j, k < j → l[j]? ≠ some v

/-- Ranked vertices occur in the path in the order of their ranks. -/
def InOrder (l : List VertexId) (p : Path) : Prop :=
  ∀ i j u v a b, i < j → At p i u → At p j v → Rank l u a → Rank l v b → a ≤ b

/-- Documented meaning of a constraint on a complete path. -/
def Satisfies (sp : ScoredPath) : Constraint → Prop
  | .ContainsVertex v => Visits sp.path v
  | .ContainsEdge e => Traverses sp.path e
  | .OrderedVertices l => InOrder l sp.path
  | .ContainsCycle => RepeatsVertex sp.path
  | .MinLength n => n ≤ sp.path.vertices.length
  | .MaxLength n => sp.path.vertices.length ≤ n
  | .MinScore s => s ≤ sp.score
  | .MaxScore s => sp.score ≤ s
  | .Or a b => Satisfies sp a ∨ Satisfies sp b
  | .Xor a b => (Satisfies sp a ∧ ¬ Satisfies sp b) ∨ (¬ Satisfies sp a ∧ Satisfies sp b)
  | .And a b => Satisfies sp a ∧ Satisfies sp b
  | .Not a => ¬ Satisfies sp a

/-- The path, as the beginning of a longer one, does not yet contradict the constraint: it has not passed a maximum, broken the order, or done
what is forbidden by a negation of `ContainsVertex`, `ContainsEdge` or `ContainsCycle`. Other negations are not looked at. -/
def NotYetBroken (sp : ScoredPath) : Constraint → Prop
  | .ContainsVertex _ => True
  | .ContainsEdge _ => True
  | .OrderedVertices l => InOrder l sp.path
  | .ContainsCycle => True
  | .MinLength _ => True
  | .MaxLength n => sp.path.vertices.length ≤ n
  | .MinScore _ => True
  | .MaxScore s => sp.score ≤ s
  | .Or a b => NotYetBroken sp a ∨ NotYetBroken sp b
  | .Xor a b => NotYetBroken sp a ∨ NotYetBroken sp b
  | .And a b => NotYetBroken sp a ∧ NotYetBroken sp b
  | .Not (.ContainsVertex v) => ¬ Visits sp.path v
  | .Not (.ContainsEdge e) => ¬ Traverses sp.path e
  | .Not .ContainsCycle => ¬ RepeatsVertex sp.path
  | .Not _ => True

/-- Some longer path (with the same beginning and a score that is not smaller) satisfies the constraint. -/
def CanBeSatisfied (sp : ScoredPath) (c : Constraint) : Prop :=
  ∃ q : ScoredPath, sp.path.vertices <+: q.path.vertices ∧ sp.score ≤ q.score ∧ Satisfies q c

/-- A constraint that is one requirement, the negation of `ContainsVertex`, `ContainsEdge` or `ContainsCycle`, or a choice of such. These are the
ones gc-csp and gc-cycle build from their options. -/
inductive Simple : Constraint → Prop where
  | vertex (v) : Simple (.ContainsVertex v)
  | edge (e) : Simple (.ContainsEdge e)
  | ordered (l) : Simple (.OrderedVertices l)
  | cycle : Simple .ContainsCycle
  | minLength (n) : Simple (.MinLength n)
  | maxLength (n) : Simple (.MaxLength n)
  | minScore (s) : Simple (.MinScore s)
  | maxScore (s) : Simple (.MaxScore s)
  | notVertex (v) : Simple (.Not (.ContainsVertex v))
  | notEdge (e) : Simple (.Not (.ContainsEdge e))
  | notCycle : Simple (.Not .ContainsCycle)
  | or {a b} : Simple a → Simple b → Simple (.Or a b)

/-- No scored path satisfies all the constraints. -/
def Unsatisfiable (cs : List Constraint) : Prop := ∀ sp : ScoredPath, ¬ ∀ c ∈ cs, Satisfies sp c

/-- At most one entry of the list satisfies `q`. -/
def AtMostOne (cs : List Constraint) (q : Constraint → Prop) : Prop :=
  ∀ (i j : Nat) c d, cs[i]? = some c → cs[j]? = some d → q c → q d → i = j

def IsMinLength (c : Constraint) : Prop := ∃ n, c = .MinLength n
def IsMaxLength (c : Constraint) : Prop := ∃ n, c = .MaxLength n
def IsMinScore (c : Constraint) : Prop := ∃ n, c = .MinScore n
def IsMaxScore (c : Constraint) : Prop := ∃ n, c = .MaxScore n

/-- Some kind of bound is given more than once (documented in checker.rs 14 as a reason to reject). -/
def RepeatsBound (cs : List Constraint) : Prop :=
  ¬ AtMostOne cs IsMinLength ∨ ¬ AtMostOne cs IsMaxLength ∨ ¬ AtMostOne cs IsMinScore ∨ ¬ AtMostOne cs IsMaxScore

/-- No listed contradiction: no vertex or edge both required and excluded, exactly one of cycle / no cycle required, every
bound at most once, minima not above maxima. -/
def Acceptable (cs : List Constraint) : Prop :=
  (∀ v, .Not (.ContainsVertex v) ∈ cs → .ContainsVertex v ∉ cs ∧
    ∀ e : Edge, (e.src = v ∨ e.dst = v) → .ContainsEdge e ∉ cs) ∧
  (∀ e, .ContainsEdge e ∈ cs → .Not (.ContainsEdge e) ∉ cs) ∧
  (.ContainsCycle ∈ cs ↔ .Not .ContainsCycle ∉ cs) ∧
  (AtMostOne cs IsMinLength ∧ AtMostOne cs IsMaxLength ∧
    ∀ a b, .MinLength a ∈ cs → .MaxLength b ∈ cs → a ≤ b) ∧
  (AtMostOne cs IsMinScore ∧ AtMostOne cs IsMaxScore ∧
    ∀ a b, .MinScore a ∈ cs → .MaxScore b ∈ cs → a ≤ b)

/-- The error value describes a real conflict in the list, and lists all offenders of its kind. -/
def Describes (cs : List Constraint) : Checker.ValidateError → Prop
  | .vertices vs => vs ≠ [] ∧ ∀ v, v ∈ vs ↔ .Not (.ContainsVertex v) ∈ cs ∧
      (.ContainsVertex v ∈ cs ∨ ∃ e : Edge, (e.src = v ∨ e.dst = v) ∧ .ContainsEdge e ∈ cs)
  | .edges es => es ≠ [] ∧ ∀ e, e ∈ es ↔ .ContainsEdge e ∈ cs ∧ .Not (.ContainsEdge e) ∈ cs
  | .cycle => ¬ (.ContainsCycle ∈ cs ↔ .Not .ContainsCycle ∉ cs)
  | .severalMinLength l => ¬ AtMostOne cs IsMinLength ∧ ∀ n, n ∈ l ↔ .MinLength n ∈ cs
  | .severalMaxLength l => ¬ AtMostOne cs IsMaxLength ∧ ∀ n, n ∈ l ↔ .MaxLength n ∈ cs
  | .minMaxLength a b => .MinLength a ∈ cs ∧ .MaxLength b ∈ cs ∧ b < a
  | .severalMinScore l => ¬ AtMostOne cs IsMinScore ∧ ∀ n, n ∈ l ↔ .MinScore n ∈ cs
  | .severalMaxScore l => ¬ AtMostOne cs IsMaxScore ∧ ∀ n, n ∈ l ↔ .MaxScore n ∈ cs
  | .minMaxScore a b => .MinScore a ∈ cs ∧ .MaxScore b ∈ cs ∧ b < a

/-- The order in which the kinds of conflict are looked for. -/
def kindOf : Checker.ValidateError → Nat
  | .vertices _ => 0
  | .edges _ => 1
  | .cycle => 2
  | .severalMinLength _ => 3
  | .severalMaxLength _ => 4
  | .minMaxLength _ _ => 5
  | .severalMinScore _ => 6
  | .severalMaxScore _ => 7
  | .minMaxScore _ _ => 8

end GC
