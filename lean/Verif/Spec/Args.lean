/-
Documented meaning of command-line arguments.
-/
import Verif.Model.Args
import Verif.Spec.Format
import Verif.Spec.Constraint
import Mathlib.Data.List.Forall2
namespace GC
open Text

/-- The argument is a `u64`/`usize` literal: digits, optionally after `+`, below 2^64. -/
def ArgNat (s : Text) (n : Nat) : Prop := ∃ ds, (s = ds ∨ s = '+' :: ds) ∧ Numeral ds n ∧ n < 2 ^ 64

/-- The argument is an `i64` literal. -/
def ArgInt (s : Text) (i : Int) : Prop :=
  (∃ ds n, (s = ds ∨ s = '+' :: ds) ∧ Numeral ds n ∧ n < 2 ^ 63 ∧ i = (n : Int)) ∨
  (∃ ds n, s = '-' :: ds ∧ Numeral ds n ∧ n ≤ 2 ^ 63 ∧ i = -(n : Int))

/-- The argument is a vertex id. -/
def ArgId (s : Text) (v : VertexId) : Prop := ArgNat s v.id.toNat

/-- The arguments are the given vertex ids, in order. -/
def ArgIds (l : List Text) (vs : List VertexId) : Prop := List.Forall₂ ArgId l vs

/-- The arguments are pairs of vertex ids: the given edges, in order. -/
inductive ArgEdges : List Text → List Edge → Prop where
  | nil : ArgEdges [] []
  | cons {s t : Text} {a b : VertexId} {l : List Text} {es : List Edge} :
      ArgId s a → ArgId t b → ArgEdges l es → ArgEdges (s :: t :: l) (⟨a, b⟩ :: es)

/-- The part of the help text of gc-csp and gc-cycle about lengths and scores, without `max-score`. -/
def MeetsBounds (minLength maxLength exactLength minScore exactScore : Option Text) (sp : ScoredPath) : Prop :=
  (∀ s n, minLength = some s → ArgNat s n → n ≤ sp.path.vertices.length) ∧
  (∀ s n, maxLength = some s → ArgNat s n → sp.path.vertices.length ≤ n) ∧
  (∀ s n, exactLength = some s → ArgNat s n → sp.path.vertices.length = n) ∧
  (∀ s i, minScore = some s → ArgInt s i → i ≤ sp.score) ∧
  (∀ s i, exactScore = some s → ArgInt s i → sp.score = i)

/-- Documented meaning of `max-score`. -/
def MeetsMaxScore (maxScore : Option Text) (sp : ScoredPath) : Prop :=
  ∀ s i, maxScore = some s → ArgInt s i → sp.score ≤ i

/-- Documented meaning of the options of gc-csp, without `max-score`. -/
def CspMeets (a : Args.CspArgs) (sp : ScoredPath) : Prop :=
  (∀ l vs, a.include_ = some l → ArgIds l vs → ∀ v ∈ vs, Visits sp.path v) ∧
  (∀ l vs, a.exclude = some l → ArgIds l vs → ∀ v ∈ vs, ¬ Visits sp.path v) ∧
  (∀ l vs, a.ordered = some l → ArgIds l vs → InOrder vs sp.path) ∧
  (a.includeCycle = true → RepeatsVertex sp.path) ∧
  (a.noCycle = true → ¬ RepeatsVertex sp.path) ∧
  MeetsBounds a.minLength a.maxLength a.exactLength a.minScore a.exactScore sp

/-- Documented meaning of the constraint options of gc-cycle, without `max-score`. -/
def CycleMeets (a : Args.CycleArgs) (sp : ScoredPath) : Prop :=
  (∀ l vs, a.includeAll = some l → ArgIds l vs → ∀ v ∈ vs, Visits sp.path v) ∧
  (∀ l vs, a.excludeAll = some l → ArgIds l vs → ∀ v ∈ vs, ¬ Visits sp.path v) ∧
  (∀ l es, a.includeAllEdges = some l → ArgEdges l es → ∀ e ∈ es, Traverses sp.path e) ∧
  (∀ l es, a.excludeAllEdges = some l → ArgEdges l es → ∀ e ∈ es, ¬ Traverses sp.path e) ∧
  MeetsBounds a.minLength a.maxLength a.exactLength a.minScore a.exactScore sp

/-- What the options of gc-csp ask for in fact: as documented, but for `max-score`, which is one more minimum. -/
def CspAccepts (a : Args.CspArgs) (sp : ScoredPath) : Prop :=
  CspMeets a sp ∧ ∀ s i, a.maxScore = some s → ArgInt s i → i ≤ sp.score

/-- What the options of gc-cycle ask for in fact: as documented, but for `max-score`, which is one more minimum. -/
def CycleAccepts (a : Args.CycleArgs) (sp : ScoredPath) : Prop :=
  CycleMeets a sp ∧ ∀ s i, a.maxScore = some s → ArgInt s i → i ≤ sp.score

end GC
