/-
C30, continued: the heap of the standard library meets the contract the theorems about priority queues and searches assume of any heap.
-/
import Verif.Spec.Iter
import Verif.Proofs.StdHeap
import Verif.Props.Iter
import Verif.Model.Main
namespace GC
namespace StdHeap

theorem history {T : Type} {le : T → T → Bool} (total : ∀ a b, le a b = true ∨ le b a = true)
    (trans : ∀ a b c, le a b = true → le b c = true → le a c = true) {a b q : List T} (h : History [] (push le) (pop le) a b q) :
    IsHeap le q ∧ a.Perm (b ++ q) := by
  induction h with
  | new => exact ⟨fun i hi u v hu => by simp at hu, .refl _⟩
  | push x _ ih =>
    refine ⟨push_heap total trans ih.1 x, (ih.2.append_right [x]).trans ?_⟩
    rw [List.append_assoc]
    exact List.Perm.append_left _ (List.perm_append_comm.trans (push_perm _ x).symm)
  | pop _ h2 ih =>
    obtain ⟨h3, h4, _⟩ := pop_spec total trans ih.1 h2
    refine ⟨h3, ih.2.trans ?_⟩
    rw [List.append_assoc]
    exact h4.append_left _

/-- C30: after any sequence of pushes and pops of the standard library's `BinaryHeap`, over any total order (items may be equal), a pop
gives a greatest of the items that were pushed and not popped, and fails only when all were popped; nothing is lost or duplicated. -/
theorem C30_std_heap (T : Type) (le : T → T → Bool) (total : ∀ a b, le a b = true ∨ le b a = true)
    (trans : ∀ a b c, le a b = true → le b c = true → le a c = true) (a b q : List T) (h : History [] (push le) (pop le) a b q) :
    (pop le q = none → a.Perm b) ∧ (pop le q = none ↔ a.length = b.length) ∧
    ∀ x q', pop le q = some (x, q') → ∃ rest, a.Perm (b ++ x :: rest) ∧ ∀ y ∈ x :: rest, le y x = true := by
  obtain ⟨h1, h2⟩ := history total trans h
  have hn : pop le q = none ↔ q = [] := ⟨pop_none, by rintro rfl; rfl⟩
  refine ⟨fun h => ?_, ?_, fun x q' hx => ?_⟩
  · rw [hn.1 h] at h2
    simpa using h2
  · rw [hn, h2.length_eq, List.length_append, ← List.length_eq_zero_iff]
    omega
  · obtain ⟨_, h4, h5⟩ := pop_spec total trans h1 hx
    exact ⟨q', h2.trans (h4.append_left _), fun y hy => h5 y (h4.mem_iff.2 hy)⟩

/-- The `BinaryHeap<Reverse<ScoredPath>>` of the best-first searches: the theorems about searches, which hold for every heap that meets
the contract, hold for it. -/
def scoredHeap : ScoredHeap := stdHeap _
  (by intro a b; simp only [Reverse.le, ScoredPath.le, decide_eq_true_eq]; omega)
  (by intro a b c; simp only [Reverse.le, ScoredPath.le, decide_eq_true_eq]; omega)

/-- C30: the contract is met by the pushes and pops of the standard library: the heap of the model holds the same array. -/
theorem C30_std_heap_is_lawful (q : scoredHeap.Heap) (x : Reverse ScoredPath) :
    scoredHeap.items scoredHeap.new = [] ∧
    scoredHeap.items (scoredHeap.push q x) = push (Reverse.le ScoredPath.le) (scoredHeap.items q) x ∧
    (scoredHeap.pop q).map (fun r => (r.1, scoredHeap.items r.2)) = pop (Reverse.le ScoredPath.le) (scoredHeap.items q) := by
  refine ⟨rfl, rfl, ?_⟩
  unfold scoredHeap stdHeap
  dsimp only
  split
  · rename_i hp; exact hp.symm
  · rename_i y a hp; exact hp.symm

/-- Pushes and pops as the standard library does them, with equal items; a search with this heap. -/
example :
    push (fun a b : Nat => decide (a ≤ b)) (push (fun a b => decide (a ≤ b)) (push (fun a b => decide (a ≤ b)) [] 3) 9) 9 = [9, 3, 9] ∧
    pop (fun a b : Nat => decide (a ≤ b)) [9, 7, 8, 1, 6, 8] = some (9, [8, 7, 8, 1, 6]) ∧
    History [] (push fun a b : Nat => decide (a ≤ b)) (pop fun a b => decide (a ≤ b)) [3, 9, 5] [9] [5, 3] :=
  ⟨by decide, by decide,
   (((History.new (T := Nat) (push := push fun a b => decide (a ≤ b)) (pop := pop fun a b => decide (a ≤ b))).push 3).push 9).pop
     (x := 9) (q' := [3]) rfl |>.push 5⟩
example : AStar.gcShortPath scoredHeap exIterGraph 1 4 20 = .done (some ⟨⟨[1, 2, 4]⟩, 2⟩) := by decide +kernel

end StdHeap
end GC
