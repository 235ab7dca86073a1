/-
How much iterators keep in memory while they run.
-/
import Verif.Model.Prog
namespace GC
namespace Memory

/-- The iterator passes through the state: it is the first one, or it is reached by calling `next`, whether this returned or, when `next` is a
loop, is still going round. `step` is one round of the loop: it leads to another state, or `next` returns. -/
inductive Passes {σ α : Type} (step : σ → Prog (σ ⊕ Option (α × σ))) (s : σ) : σ → Prop where
  | start : Passes step s s
  | round {t t' : σ} : Passes step s t → Returns (step t) (.inl t') → Passes step s t'
  | item {t t' : σ} {x : α} : Passes step s t → Returns (step t) (.inr (some (x, t'))) → Passes step s t'

/-- An iterator whose `next` has no loop. -/
def once {σ α : Type} (next : σ → Prog (Option (α × σ))) (s : σ) : Prog (σ ⊕ Option (α × σ)) := Prog.bind (next s) fun r => Prog.ret (.inr r)

end Memory
end GC
