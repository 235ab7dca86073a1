/-
Programs that may run for ever or panic.

This file models no particular Rust file: it fixes the meaning given to Rust control flow
(`while let`, `loop`, iterator driving, `unwrap`/`expect`/overflow panics) in the rest of the model.
-/
namespace GC

/-- Outcome of running a program with a given amount of fuel. Not in /repo: the meaning of Rust programs. Loops without a bound in /repo are e.g.
core/src/algorithm/topo_sort.rs 41, max_flow.rs 74, 192, shortest_path.rs 118, core/src/iter/iter_cycle.rs 89. -/
inductive Run (α : Type) where
  /-- the fuel was not sufficient -/
  | running
  /-- the program panicked (failed `unwrap`/`expect`, arithmetic overflow, index out of bounds) -/
  | panicked
  /-- the program returned a value -/
  | done (a : α)
deriving DecidableEq, Repr

namespace Run

/-- Sequencing of outcomes. Not in /repo: the meaning of Rust programs. Loops without a bound in /repo are e.g. core/src/algorithm/topo_sort.rs 41,
max_flow.rs 74, 192, shortest_path.rs 118, core/src/iter/iter_cycle.rs 89. -/
def bind {α β : Type} : Run α → (α → Run β) → Run β
  | running, _ => running
  | panicked, _ => panicked
  | done a, f => f a

instance : Monad Run where
  pure := done
  bind := bind

/-- Rust `Option::unwrap` / `Option::expect`. E.g. core/src/directed_graph.rs 128, core/src/algorithm/shortest_path.rs 30, 42. -/
def unwrap {α : Type} : Option α → Run α
  | some a => done a
  | none => panicked

end Run

/-- A program: for each amount of fuel, an outcome. Not in /repo: the meaning of Rust programs. Loops without a bound in /repo are e.g.
core/src/algorithm/topo_sort.rs 41, max_flow.rs 74, 192, shortest_path.rs 118, core/src/iter/iter_cycle.rs 89. -/
def Prog (α : Type) : Type := Nat → Run α

namespace Prog

/-- A program that returns at once. Not in /repo: the meaning of Rust programs. Loops without a bound in /repo are e.g.
core/src/algorithm/topo_sort.rs 41, max_flow.rs 74, 192, shortest_path.rs 118, core/src/iter/iter_cycle.rs 89. -/
def ret {α : Type} (a : α) : Prog α := fun _ => .done a

/-- A program with no unbounded loop (it may panic). Not in /repo: the meaning of Rust programs. Loops without a bound in /repo are e.g.
core/src/algorithm/topo_sort.rs 41, max_flow.rs 74, 192, shortest_path.rs 118, core/src/iter/iter_cycle.rs 89. -/
def lift {α : Type} (r : Run α) : Prog α := fun _ => r

/-- Sequencing of programs. Not in /repo: the meaning of Rust programs. Loops without a bound in /repo are e.g. core/src/algorithm/topo_sort.rs 41,
max_flow.rs 74, 192, shortest_path.rs 118, core/src/iter/iter_cycle.rs 89. -/
def bind {α β : Type} (p : Prog α) (f : α → Prog β) : Prog β := fun n => (p n).bind (fun a => f a n)

instance : Monad Prog where
  pure := ret
  bind := bind

/-- `loopAux step fuel k s`: at most `k` iterations of the loop body, every body running with `fuel`. Not in /repo: the meaning of Rust programs.
Loops without a bound in /repo are e.g. core/src/algorithm/topo_sort.rs 41, max_flow.rs 74, 192, shortest_path.rs 118, core/src/iter/iter_cycle.rs
89. -/
def loopAux {σ β : Type} (step : σ → Prog (σ ⊕ β)) (fuel : Nat) : Nat → σ → Run β
  | 0, _ => .running
  | k + 1, s =>
    match step s fuel with
    | .running => .running
    | .panicked => .panicked
    | .done (.inl s') => loopAux step fuel k s'
    | .done (.inr b) => .done b

/-- An unbounded loop: `step` returns `inl` to continue with a new state, `inr` to leave the loop. Not in /repo: the meaning of Rust programs.
Loops without a bound in /repo are e.g. core/src/algorithm/topo_sort.rs 41, max_flow.rs 74, 192, shortest_path.rs 118, core/src/iter/iter_cycle.rs
89. -/
def loop {σ β : Type} (step : σ → Prog (σ ⊕ β)) (s : σ) : Prog β := fun n => loopAux step n n s

/-- One round of `Iterator::collect`. std, used at core/src/algorithm/cycle.rs 23. -/
def collectStep {σ α : Type} (next : σ → Prog (Option (α × σ))) (p : List α × σ) :
    Prog ((List α × σ) ⊕ List α) :=
  bind (next p.2) (fun r =>
    match r with
    | none => ret (.inr p.1)
    | some (x, s') => ret (.inl (p.1 ++ [x], s')))

/-- `Iterator::collect` for an iterator given by its state and `next` function. std, used at core/src/algorithm/cycle.rs 23. -/
def collect {σ α : Type} (next : σ → Prog (Option (α × σ))) (s : σ) : Prog (List α) :=
  loop (collectStep next) ([], s)

/-- One round of `Iterator::find`. std, used at core/src/search/a_star.rs 31, 60. -/
def findStep {σ α : Type} (p : α → Bool) (next : σ → Prog (Option (α × σ))) (s : σ) : Prog (σ ⊕ Option α) :=
  bind (next s) (fun r =>
    match r with
    | none => ret (.inr none)
    | some (x, s') => if p x then ret (.inr (some x)) else ret (.inl s'))

/-- `Iterator::find` (with the state dropped, as all callers do). std, used at core/src/search/a_star.rs 31, 60. -/
def find {σ α : Type} (p : α → Bool) (next : σ → Prog (Option (α × σ))) (s : σ) : Prog (Option α) :=
  loop (findStep p next) s

/-- `Iterator::take(n).collect()`. std, used at core/src/algorithm/cycle.rs 17, command/src/bin/gc-cycle.rs 268. -/
def takeN {σ α : Type} (next : σ → Prog (Option (α × σ))) : Nat → σ → Prog (List α)
  | 0, _ => ret []
  | n + 1, s => bind (next s) (fun r =>
    match r with
    | none => ret []
    | some (x, s') => bind (takeN next n s') (fun xs => ret (x :: xs)))

end Prog

/-- The program returns `a` (for all sufficiently large fuel). Not in /repo: the meaning of Rust programs. Loops without a bound in /repo are e.g.
core/src/algorithm/topo_sort.rs 41, max_flow.rs 74, 192, shortest_path.rs 118, core/src/iter/iter_cycle.rs 89. -/
def Returns {α : Type} (p : Prog α) (a : α) : Prop := ∃ n, ∀ m, n ≤ m → p m = .done a

/-- The program panics (for all sufficiently large fuel). Not in /repo: the meaning of Rust programs. Loops without a bound in /repo are e.g.
core/src/algorithm/topo_sort.rs 41, max_flow.rs 74, 192, shortest_path.rs 118, core/src/iter/iter_cycle.rs 89. -/
def Panics {α : Type} (p : Prog α) : Prop := ∃ n, ∀ m, n ≤ m → p m = .panicked

/-- The program never returns and never panics. Not in /repo: the meaning of Rust programs. Loops without a bound in /repo are e.g.
core/src/algorithm/topo_sort.rs 41, max_flow.rs 74, 192, shortest_path.rs 118, core/src/iter/iter_cycle.rs 89. -/
def Diverges {α : Type} (p : Prog α) : Prop := ∀ n, p n = .running

end GC
