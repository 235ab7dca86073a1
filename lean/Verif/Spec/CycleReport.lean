/-
What gc-cycle prints, for each of its actions and any constraint options.
-/
import Verif.Spec.Main
import Verif.Spec.Cycle
namespace GC
namespace Main
open Text Args

/-- The number as printed, provided that it is a `usize`. -/
def Shown (t : Text) (n : Nat) : Prop := n < 2 ^ 64 → Decimal t n

/-- Vertex ids separated by a comma and a space. -/
inductive Listing : List VertexId → Text → Prop where
  | one {v t} : Decimal t v.id.toNat → Listing [v] t
  | cons {v l t rest} : Decimal t v.id.toNat → Listing l rest → Listing (v :: l) (t ++ ", ".toList ++ rest)

/-- A cycle as it is printed: `[1, 2, 3]`. -/
def Bracketed (l : List VertexId) (t : Text) : Prop := ∃ ids, Listing l ids ∧ t = "[".toList ++ ids ++ "]".toList

/-- The cycles that gc-cycle finds: those, starting at their smallest vertex, with a vertex that can be reached from a vertex without
incoming edge; if there is no such vertex, those with a vertex that can be reached from `s`. -/
def Found (g : DirectedGraph) (s : VertexId) (c : List VertexId) : Prop :=
  IsCycle g c ∧ SmallestFirst c ∧ ∃ r v, (IsRoot g r ∨ (∀ r', ¬ IsRoot g r') ∧ r = s) ∧ v ∈ c ∧ Reach g r v

/-- The cycles that are found and that the constraint options select, each once. The options are taken as in `CycleAccepts`: they are about
the walk from the first to the last vertex of the cycle, and `max-score` is one more minimum. -/
def Selection (g : DirectedGraph) (s : VertexId) (a : CycleArgs) (sel : List (List VertexId)) : Prop :=
  sel.Nodup ∧ ∀ c, c ∈ sel ↔ Found g s c ∧ CycleAccepts a ⟨⟨c⟩, (c.length : Int)⟩

/-- The lines that gc-cycle prints, for each action. -/
inductive CycleReport (g : DirectedGraph) (s : VertexId) (a : CycleArgs) : GcCycle.Actions → List Text → Prop where
  /-- The constraint options are ignored. -/
  | girth {c k} : Found g s c → (∀ d, Found g s d → c.length ≤ d.length) → Shown k c.length →
      CycleReport g s a { girth := true } ["girth: ".toList ++ k]
  | girth_none : (∀ c, ¬ Found g s c) → CycleReport g s a { girth := true } ["girth: Infinity".toList]
  /-- The constraint options are ignored. -/
  | hamiltonian {c t} : HamiltonianCycle g c → Bracketed c t → CycleReport g s a { hamiltonian := true } ["hamiltonian: ".toList ++ t]
  | hamiltonian_none : (∀ c, ¬ HamiltonianCycle g c) → CycleReport g s a { hamiltonian := true } ["hamiltonian: N/A".toList]
  | count {sel k} : Selection g s a sel → Shown k sel.length → CycleReport g s a { count := true } ["count: ".toList ++ k]
  | shortest {sel c t} : Selection g s a sel → c ∈ sel → (∀ d ∈ sel, c.length ≤ d.length) → Bracketed c t →
      CycleReport g s a { shortest := true } ["shortest cycle: ".toList ++ t]
  | shortest_none : Selection g s a [] → CycleReport g s a { shortest := true } ["shortest cycle: N/A".toList]
  | longest {sel c t} : Selection g s a sel → c ∈ sel → (∀ d ∈ sel, d.length ≤ c.length) → Bracketed c t →
      CycleReport g s a { longest := true } ["longest cycle: ".toList ++ t]
  | longest_none : Selection g s a [] → CycleReport g s a { longest := true } ["longest cycle: N/A".toList]
  | head {sel ts} : Selection g s a sel → List.Forall₂ Bracketed (sel.take 1) ts → CycleReport g s a { head := true } ts
  | takeN {sel ts t n} : ArgNat t n → Selection g s a sel → List.Forall₂ Bracketed (sel.take n) ts →
      CycleReport g s a { takeN := some t } ts
  /-- A number that is none: nothing is printed. -/
  | takeN_bad {t} : (∀ n, ¬ ArgNat t n) → CycleReport g s a { takeN := some t } []
  | all {sel ts} : Selection g s a sel → List.Forall₂ Bracketed sel ts → CycleReport g s a { all := true } ts

/-- Exactly one of the actions of gc-cycle is asked for. -/
def OneAction (act : GcCycle.Actions) : Prop :=
  act = { girth := true } ∨ act = { hamiltonian := true } ∨ act = { count := true } ∨ act = { shortest := true } ∨
  act = { longest := true } ∨ act = { head := true } ∨ act = { all := true } ∨ ∃ t, act = { takeN := some t }

end Main
end GC
