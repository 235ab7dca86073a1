/- What an iterator object answers when it is called again and again. -/
import Verif.Model.Objects
namespace GC
open Objects

/-- Answers of an iterator over `xs` to `k` calls: the items one by one, then `None`. -/
def answers {α : Type} (xs : List α) (k : Nat) : List (Option α) := (xs.map some).take k ++ List.replicate (k - xs.length) none

/-- The object enumerates `xs`: any number of calls give the items one by one, and `None` from then on. -/
def Enumerates {σ α : Type} (call : σ → Prog (Option α × σ)) (s : σ) (xs : List α) : Prop :=
  ∀ k, Returns (calls call k s) (answers xs k)

/-- Whatever was answered before: after the first `None` come only `None`s. -/
def StaysEnded {σ α : Type} (call : σ → Prog (Option α × σ)) (s : σ) : Prop :=
  ∀ k as, Returns (calls call k s) as → ∀ i j : Nat, i < j → j < k → as[i]? = some none → as[j]? = some none

end GC
