/-
A heap that satisfies the documented contract of `BinaryHeap`: it shows that the contract can be met and is used in concrete cases.
-/
import Verif.Model.Search
namespace GC

/-- Takes a greatest item out of a non-empty list. -/
def popMax {T : Type} (le : T → T → Bool) : T → List T → T × List T
  | a, [] => (a, [])
  | a, b :: l => if le a (popMax le b l).1 then ((popMax le b l).1, a :: (popMax le b l).2) else (a, (popMax le b l).1 :: (popMax le b l).2)

theorem popMax_perm {T : Type} (le : T → T → Bool) (a : T) (l : List T) : (a :: l).Perm ((popMax le a l).1 :: (popMax le a l).2) := by
  induction l generalizing a with
  | nil => exact .refl _
  | cons b l ih =>
    rw [popMax]
    split
    · exact ((ih b).cons a).trans (.swap _ _ _)
    · exact (ih b).cons a

theorem popMax_max {T : Type} (le : T → T → Bool) (total : ∀ a b, le a b = true ∨ le b a = true)
    (trans : ∀ a b c, le a b = true → le b c = true → le a c = true) (a : T) (l : List T) :
    ∀ y ∈ a :: l, le y (popMax le a l).1 = true := by
  have refl : ∀ a, le a a = true := fun a => (total a a).elim id id
  induction l generalizing a with
  | nil => intro y hy; rw [List.mem_singleton.1 hy]; exact refl _
  | cons b l ih =>
    intro y hy
    rw [popMax]
    split
    · rename_i h
      rcases List.mem_cons.1 hy with rfl | hy
      · exact h
      · exact ih b y hy
    · rename_i h
      have h' : le (popMax le b l).1 a = true := (total a _).resolve_left h
      rcases List.mem_cons.1 hy with rfl | hy
      · exact refl _
      · exact trans _ _ _ (ih b y hy) h'

/-- A lawful heap kept as an unordered list. -/
def listHeap {T : Type} (le : T → T → Bool) (total : ∀ a b, le a b = true ∨ le b a = true)
    (trans : ∀ a b c, le a b = true → le b c = true → le a c = true) : BinaryHeap T le where
  Heap := List T
  new := []
  push h x := x :: h
  pop h := match h with
    | [] => none
    | a :: l => some (popMax le a l)
  items h := h
  items_new := rfl
  items_push _ _ := .refl _
  pop_none h := by
    cases h with
    | nil => intro _; rfl
    | cons a l => intro h; cases h
  pop_some h x h' e := by
    cases h with
    | nil => cases e
    | cons a l =>
      simp only [Option.some.injEq] at e
      have h1 : x = (popMax le a l).1 := by rw [e]
      have h2 : h' = (popMax le a l).2 := by rw [e]
      subst h1 h2
      exact ⟨popMax_perm le a l, popMax_max le total trans a l⟩

/-- A lawful heap of scored paths. -/
def exHeap : ScoredHeap := listHeap _
  (by intro a b; simp only [Reverse.le, ScoredPath.le, decide_eq_true_eq]; omega)
  (by intro a b c; simp only [Reverse.le, ScoredPath.le, decide_eq_true_eq]; omega)

end GC
