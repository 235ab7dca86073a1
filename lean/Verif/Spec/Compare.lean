/- What std asks of `Ord`, and the orders meant. -/
import Verif.Model.Compare
import Mathlib.Data.List.Rotate
namespace GC

/-- A comparison that is a weak order: swapping the arguments swaps the answer, and "not greater" is transitive. -/
structure WeakOrder {α : Type} (cmp : α → α → Ordering) : Prop where
  swap : ∀ a b, cmp b a = (cmp a b).swap
  trans : ∀ a b c, cmp a b ≠ .gt → cmp b c ≠ .gt → cmp a c ≠ .gt

/-- What the documentation of std `Ord` asks for: a weak order in which `Equal` means `==`. -/
structure LawfulOrd {α : Type} (cmp : α → α → Ordering) : Prop extends WeakOrder cmp where
  eq : ∀ a b, cmp a b = .eq ↔ a = b

/-- The order of a dictionary. -/
def DictionaryLess (l m : List VertexId) : Prop :=
  (∃ p a b s t, l = p ++ a :: s ∧ m = p ++ b :: t ∧ a.id < b.id) ∨ (∃ b t, m = l ++ b :: t)

end GC
