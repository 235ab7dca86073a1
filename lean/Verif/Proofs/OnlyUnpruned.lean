/-
Lemmas for C147: constrained best-first search asks for scores of the start and of one-step extensions of unpruned walks only.
-/
import Verif.Proofs.OnlyWalks
import Verif.Proofs.Constrained
namespace GC
open ShortestPath (forEach_agree)

variable {g : DirectedGraph} {s : VertexId} {H : ScoredHeap} {f f' : ScoreFn} {cs : List Constraint}

/-- Everything in the queue is unpruned. -/
def UnprunedInv (g : DirectedGraph) (f : ScoreFn) (cs : List Constraint) (s : VertexId) (st : ConstrainedBestFirstIter H) : Prop :=
  ∀ sp ∈ st.queue.items, Unpruned g f cs s sp

theorem unpruned_agree (hw : WF g)
    (h : ∀ x u v, Unpruned g f cs s x → x.path.vertices.getLast? = some u → Adj g u v → f g (x.path.append v) = f' g (x.path.append v)) :
    AgreeOn (UnprunedInv (H := H) g f cs s) (ConstrainedBestFirstIter.next g f cs) (ConstrainedBestFirstIter.next g f' cs) := by
  intro st hs
  unfold ConstrainedBestFirstIter.next
  cases hp : st.queue.pop with
  | none => exact ⟨rfl, fun n x st' hd => by cases hd⟩
  | some q =>
    obtain ⟨wp, queue⟩ := q
    have hperm := (MinPriorityQueue.pop_some hp).1
    have hwp := hs wp (hperm.mem_iff.2 (List.mem_cons_self ..))
    have hq : UnprunedInv (H := H) g f cs s ⟨queue⟩ := fun sp hsp => hs sp (hperm.mem_iff.2 (List.mem_cons_of_mem _ hsp))
    cases hl : wp.path.last with
    | none => exact ⟨by simp only [hl, Run.unwrap, Run.bind], fun n x st' hd => by simp [Prog.lift, hl, Run.unwrap, Run.bind] at hd⟩
    | some vid =>
      obtain ⟨h1, h2⟩ := forEach_agree (b := ConstrainedBestFirstIter.visit g f cs wp) (b' := ConstrainedBestFirstIter.visit g f' cs wp)
        (P := UnprunedInv (H := H) g f cs s) (l := g.outs vid) (by
          intro v hv st hs
          unfold ConstrainedBestFirstIter.visit
          have ha := hw.mem_outs'.1 hv
          refine ⟨by rw [h wp vid v hwp hl ha], fun st' hd => ?_⟩
          rw [Run.bind_eq_done] at hd
          obtain ⟨score, hsc, hd⟩ := hd
          split at hd
          · rename_i hall
            cases hd
            intro sp hsp
            rcases List.mem_cons.1 ((MinPriorityQueue.items_push _ _).mem_iff.1 hsp) with rfl | hsp
            · exact hwp.child hl ha hsc (by simpa [ConstrainedBestFirstIter.checkAllPartial] using hall)
            · exact hs sp hsp
          · cases hd; exact hs) ⟨queue⟩ hq
      refine ⟨by simp only [hl, Run.unwrap, Run.bind, h1], fun n x st' hd => ?_⟩
      simp only [Prog.lift, hl, Run.unwrap] at hd
      rw [Run.bind_done, Run.bind_eq_done] at hd
      obtain ⟨st1, h3, hd⟩ := hd
      cases hd
      exact h2 _ h3

end GC
