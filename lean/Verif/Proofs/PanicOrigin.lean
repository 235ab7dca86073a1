/-
Lemmas for C148: best-first searches panic only where the closures do.
-/
import Verif.Proofs.OnlyUnpruned
import Verif.Proofs.Prog
namespace GC

variable {g : DirectedGraph} {s : VertexId} {H : ScoredHeap} {f : ScoreFn} {cs : List Constraint}

theorem forEach_panics {σ α : Type} {b : σ → α → Run σ} {P : σ → Prop} {l : List α}
    (h : ∀ st, P st → ∀ a ∈ l, b st a ≠ .panicked ∧ ∀ st', b st a = .done st' → P st') {st : σ} (hs : P st) :
    Run.forEach b st l ≠ .panicked := by
  induction l generalizing st with
  | nil => intro hd; cases hd
  | cons a l ih =>
    obtain ⟨h1, h2⟩ := h st hs a (List.mem_cons_self ..)
    rw [Run.forEach]
    cases hb : b st a with
    | running => intro hd; cases hd
    | panicked => exact absurd hb h1
    | done st' => exact ih (fun st hs a ha => h st hs a (List.mem_cons_of_mem _ ha)) (h2 _ hb)

theorem find_panics {σ α : Type} {next : σ → Prog (Option (α × σ))} {p : α → Bool} {P : σ → Prop} {n : Nat}
    (h : ∀ st, P st → next st n ≠ .panicked ∧ ∀ x st', next st n = .done (some (x, st')) → P st') {st : σ} (hs : P st) :
    Prog.find p next st n ≠ .panicked := by
  refine loop_no_panic P (fun st st' hs hd => ?_) (fun st hs hd => ?_) hs
  · rw [Prog.findStep, Prog.bind, Run.bind_eq_done] at hd
    obtain ⟨r, h1, h2⟩ := hd
    cases r with
    | none => cases h2
    | some q =>
      simp only at h2
      split at h2
      · cases h2
      · cases h2; exact (h st hs).2 q.1 q.2 h1
  · rw [Prog.findStep, Prog.bind] at hd
    cases hn : next st n with
    | running => rw [hn] at hd; cases hd
    | panicked => exact (h st hs).1 hn
    | done r =>
      rw [hn] at hd
      cases r with
      | none => cases hd
      | some q =>
        simp only [Run.bind] at hd
        split at hd <;> cases hd

/-- The invariant of the best-first search, restated for a single closure. -/
theorem best_next_panics (hw : WF g) (h : ∀ p : Path, ChordlessFrom g s p.vertices → f g p ≠ .panicked) {st : BestFirstIter H}
    (hs : BestInv g s st) (n : Nat) : BestFirstIter.next g f st n ≠ .panicked := by
  -- the closure `f'` that gives 0 where `f` panics agrees with `f` on all paths that are asked for
  have key := (best_agree (H := H) (f := f) (f' := fun g p => match f g p with | .panicked => .done 0 | r => r) hw (fun p hp => by
    cases hf : f g p with
    | running => simp
    | panicked => exact absurd hf (h p hp)
    | done a => simp [hf]) st hs).1
  rw [key]
  unfold BestFirstIter.next
  cases hp : st.queue.pop with
  | none => intro hd; cases hd
  | some q =>
    obtain ⟨wp, queue⟩ := q
    have hcl := (hs wp ((MinPriorityQueue.pop_some hp).1.mem_iff.2 (List.mem_cons_self ..))).1
    cases hl : wp.path.last with
    | none =>
      have : wp.path.vertices.getLast? = none := hl
      have hh := hcl.1.2.1
      rw [List.getLast?_eq_none_iff.1 this] at hh
      cases hh
    | some vid =>
      intro hd
      simp only [Prog.lift, hl, Run.unwrap] at hd
      rw [Run.bind_done] at hd
      generalize hF : Run.forEach _ _ _ = r at hd
      cases r with
      | running => cases hd
      | done a => cases hd
      | panicked =>
        refine forEach_panics (P := fun _ => True) (fun st _ v _ => ⟨fun hv => ?_, fun _ _ => trivial⟩) trivial hF
        unfold BestFirstIter.visit at hv
        split at hv
        · cases hv
        · cases hf : f g (wp.path.append v) <;> simp [hf, Run.bind] at hv

theorem constrained_next_panics (hw : WF g)
    (h : ∀ x u v, Unpruned g f cs s x → x.path.vertices.getLast? = some u → Adj g u v → f g (x.path.append v) ≠ .panicked)
    {st : ConstrainedBestFirstIter H} (hs : UnprunedInv g f cs s st) (n : Nat) : ConstrainedBestFirstIter.next g f cs st n ≠ .panicked := by
  unfold ConstrainedBestFirstIter.next
  cases hp : st.queue.pop with
  | none => intro hd; cases hd
  | some q =>
    obtain ⟨wp, queue⟩ := q
    have hwp := hs wp ((MinPriorityQueue.pop_some hp).1.mem_iff.2 (List.mem_cons_self ..))
    cases hl : wp.path.last with
    | none =>
      have : wp.path.vertices.getLast? = none := hl
      have hh := hwp.1.2
      rw [List.getLast?_eq_none_iff.1 this] at hh
      cases hh
    | some vid =>
      intro hd
      simp only [Prog.lift, hl, Run.unwrap] at hd
      rw [Run.bind_done] at hd
      generalize hF : Run.forEach _ _ _ = r at hd
      cases r with
      | running => cases hd
      | done a => cases hd
      | panicked =>
        refine forEach_panics (P := fun _ => True) (fun st _ v hv => ⟨fun hp => ?_, fun _ _ => trivial⟩) trivial hF
        unfold ConstrainedBestFirstIter.visit at hp
        cases hf : f g (wp.path.append v) with
        | running => rw [hf] at hp; cases hp
        | panicked => exact h wp vid v hwp hl (hw.mem_outs'.1 hv) hf
        | done a => rw [hf, Run.bind_done] at hp; split at hp <;> cases hp

end GC
