/-
Specification of options that are left out because their values are not valid.
-/
import Verif.Spec.Args
namespace GC
open Text Args

/-- `o'` is the option `o`, left out if it has no valid value. -/
def IfValid {α β : Type} (Valid : α → β → Prop) (o o' : Option α) : Prop :=
  (o' = o ∧ ∃ x y, o = some x ∧ Valid x y) ∨ (o' = none ∧ ∀ x y, o = some x → ¬ Valid x y)

/-- `b` is what is left of the options `a` of gc-csp without those whose values are not valid. -/
def CspValidOptions (a b : CspArgs) : Prop :=
  IfValid ArgIds a.include_ b.include_ ∧ IfValid ArgIds a.exclude b.exclude ∧ IfValid ArgIds a.ordered b.ordered ∧
  b.includeCycle = a.includeCycle ∧ b.noCycle = a.noCycle ∧
  IfValid ArgNat a.minLength b.minLength ∧ IfValid ArgNat a.maxLength b.maxLength ∧ IfValid ArgNat a.exactLength b.exactLength ∧
  IfValid ArgInt a.minScore b.minScore ∧ IfValid ArgInt a.maxScore b.maxScore ∧ IfValid ArgInt a.exactScore b.exactScore

/-- `b` is what is left of the options `a` of gc-cycle without those whose values are not valid. -/
def CycleValidOptions (a b : CycleArgs) : Prop :=
  IfValid ArgIds a.includeAll b.includeAll ∧ IfValid ArgIds a.excludeAll b.excludeAll ∧
  IfValid ArgEdges a.includeAllEdges b.includeAllEdges ∧ IfValid ArgEdges a.excludeAllEdges b.excludeAllEdges ∧
  IfValid ArgNat a.minLength b.minLength ∧ IfValid ArgNat a.maxLength b.maxLength ∧ IfValid ArgNat a.exactLength b.exactLength ∧
  IfValid ArgInt a.minScore b.minScore ∧ IfValid ArgInt a.maxScore b.maxScore ∧ IfValid ArgInt a.exactScore b.exactScore

end GC
