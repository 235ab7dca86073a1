/-
Lemmas about the order of depth-first iteration.
-/
import Verif.Proofs.Iter
namespace GC
open DirectedGraph

/-- Invariant of depth-first iteration that also remembers where the vertices come from. -/
structure DfsInv (g : DirectedGraph) (start : VertexId) (done : List VertexId) (s : DepthFirstIter) : Prop where
  inv : SearchInv g.outs start id done s.stack.stack s.visited
  first : start ∈ done ∨ (done = [] ∧ s.stack.stack = [start])
  parent : ∀ x ∈ s.stack.stack, x = start ∨ ∃ u ∈ done, Adj g u x
  earlier : ∀ (i : Nat) x, done[i]? = some x → x = start ∨ ∃ (j : Nat) (u : VertexId), j < i ∧ done[j]? = some u ∧ Adj g u x

theorem DfsInv.init (g : DirectedGraph) (start : VertexId) : DfsInv g start [] (DepthFirstIter.from_ start) := by
  refine ⟨.init (x := start) rfl rfl, .inr ⟨rfl, rfl⟩, ?_, by simp⟩
  intro x hx
  left
  simpa [DepthFirstIter.from_, DepthFirstIter.empty, Stack.push, Stack.new] using hx

theorem DfsInv.step {g : DirectedGraph} (hw : WF g) {start : VertexId} {done st vis : List VertexId} {x : VertexId}
    (h : DfsInv g start done ⟨⟨st ++ [x]⟩, vis⟩) :
    DfsInv g start (done ++ [x]) ⟨⟨st ++ fresh g.outs x vis⟩, (fresh g.outs x vis).reverse ++ vis⟩ := by
  refine ⟨?_, ?_, ?_, ?_⟩
  · refine h.inv.step (child := fun _ v => v) hw.nodup_outs' (fun _ _ => rfl) (l := st) ?_ ?_
    · exact List.perm_append_comm
    · simp
  · left
    rcases h.first with h1 | ⟨rfl, h1⟩
    · simp [h1]
    · simp only at h1
      rcases st with _ | ⟨a, st⟩
      · simp only [List.nil_append, List.cons.injEq, and_true] at h1; simp [h1]
      · simp at h1
  · intro y hy
    rcases List.mem_append.1 hy with hy | hy
    · rcases h.parent y (by simp [hy]) with h1 | ⟨u, hu, h1⟩
      · exact .inl h1
      · exact .inr ⟨u, by simp [hu], h1⟩
    · exact .inr ⟨x, by simp, hw.mem_outs'.1 (mem_fresh.1 hy).1⟩
  · intro i y hi
    by_cases hlt : i < done.length
    · rw [List.getElem?_append_left hlt] at hi
      rcases h.earlier i y hi with h1 | ⟨j, u, hj, h2, h3⟩
      · exact .inl h1
      · exact .inr ⟨j, u, hj, by rw [List.getElem?_append_left (by omega)]; exact h2, h3⟩
    · have hle : done.length ≤ i := by omega
      rw [List.getElem?_append_right hle] at hi
      have hi0 : i - done.length = 0 := by
        have := (List.getElem?_eq_some_iff.1 hi).1
        simpa using this
      rw [hi0] at hi
      simp only [List.getElem?_cons_zero, Option.some.injEq] at hi
      subst hi
      rcases h.parent x (by simp) with h1 | ⟨u, hu, h1⟩
      · exact .inl h1
      · obtain ⟨j, hj⟩ := List.mem_iff_getElem?.1 hu
        have hjl := (List.getElem?_eq_some_iff.1 hj).1
        exact .inr ⟨j, u, by omega, by rw [List.getElem?_append_left hjl]; exact hj, h1⟩

theorem dfs_inv_run {g : DirectedGraph} (hw : WF g) {start : VertexId} {done : List VertexId} {s : DepthFirstIter}
    (h : IterRun (DepthFirstIter.next g) (DepthFirstIter.from_ start) done s) : DfsInv g start done s := by
  induction h with
  | refl => exact DfsInv.init g start
  | step h1 h2 ih =>
    rename_i done s x s'
    by_cases hne : s.stack.stack = []
    · have := h2.unique (DepthFirstIter.next_none hne)
      cases this
    · obtain ⟨st, y, hst⟩ : ∃ st y, s.stack.stack = st ++ [y] := ⟨_, _, (List.dropLast_concat_getLast hne).symm⟩
      have := h2.unique (DepthFirstIter.next_some hw hst)
      cases this
      obtain ⟨⟨stk⟩, vis⟩ := s
      simp only at hst
      subst hst
      exact ih.step hw

/-- A drained iterator went through a run. -/
theorem Drains.run {σ α : Type} {next : σ → Prog (Option (α × σ))} {s : σ} {xs : List α} (h : Drains next s xs) :
    ∃ s', IterRun next s xs s' ∧ Returns (next s') none := by
  induction h with
  | nil h => exact ⟨_, .refl, h⟩
  | cons h1 _ ih =>
    obtain ⟨s', h3, h4⟩ := ih
    exact ⟨s', (IterRun.step .refl h1).trans h3, h4⟩

section Tree
variable {g : DirectedGraph} (hw : WF g) {start : VertexId}
  (hT : ∀ u u' v, ReachBy g.outs start u → ReachBy g.outs start u' → Adj g u v → Adj g u' v → v ≠ start → u = u')

/-- Result of exploring the top of the stack completely. -/
def ExploresTop (g : DirectedGraph) (start : VertexId) (n : Nat) : Prop :=
  ∀ done st vis x, DfsInv g start done ⟨⟨st ++ [x]⟩, vis⟩ → (start :: g.vertices).length - done.length ≤ n →
    ∃ l vis', IterRun (DepthFirstIter.next g) ⟨⟨st ++ [x]⟩, vis⟩ l ⟨⟨st⟩, vis'⟩ ∧ DfsInv g start (done ++ l) ⟨⟨st⟩, vis'⟩ ∧
      ∀ W, (∀ v, v ∈ W ↔ v ∈ done) → DfsFrom g W x l

theorem explores_outs {n : Nat} (ih : ExploresTop g start n) (x : VertexId) (cs : List VertexId) :
    ∀ done st vis, DfsInv g start done ⟨⟨st ++ cs⟩, vis⟩ → (start :: g.vertices).length - done.length ≤ n →
      (∀ w, Adj g x w → w ∈ done ∨ w ∈ cs) → (∀ w ∈ cs, Adj g x w) →
      ∃ l vis', IterRun (DepthFirstIter.next g) ⟨⟨st ++ cs⟩, vis⟩ l ⟨⟨st⟩, vis'⟩ ∧ DfsInv g start (done ++ l) ⟨⟨st⟩, vis'⟩ ∧
        ∀ W, (∀ v, v ∈ W ↔ v ∈ done) → DfsOuts g W x l := by
  induction cs using List.reverseRecOn with
  | nil =>
    intro done st vis h hn h1 h2
    simp only [List.append_nil] at h ⊢
    refine ⟨[], vis, .refl, by simpa using h, ?_⟩
    intro W hW
    refine .done fun w hwa => ?_
    rcases h1 w hwa with h3 | h3
    · exact (hW w).2 h3
    · cases h3
  | append_singleton cs w ihc =>
    intro done st vis h hn h1 h2
    have e : st ++ (cs ++ [w]) = (st ++ cs) ++ [w] := by simp
    rw [e] at h ⊢
    obtain ⟨l1, vis1, h3, h4, h5⟩ := ih done (st ++ cs) vis w h hn
    have hw1 : w ∈ l1 := by
      have := h5 done (fun _ => Iff.rfl)
      cases this
      simp
    obtain ⟨l2, vis2, h6, h7, h8⟩ := ihc (done ++ l1) st vis1 h4
      (by simp only [List.length_append]; omega)
      (by
        intro v hv
        rcases h1 v hv with h9 | h9
        · exact .inl (by simp [h9])
        · rcases List.mem_append.1 h9 with h10 | h10
          · exact .inr h10
          · rw [List.mem_singleton] at h10
            subst h10
            exact .inl (by simp [hw1]))
      (fun v hv => h2 v (by simp [hv]))
    refine ⟨l1 ++ l2, vis2, h3.trans h6, by rw [← List.append_assoc]; exact h7, ?_⟩
    intro W hW
    refine .next (h2 w (by simp)) (h5 W hW) (h8 (l1 ++ W) ?_)
    intro v
    simp only [List.mem_append, hW]
    tauto

include hw hT in
theorem explores_top (n : Nat) : ExploresTop g start n := by
  induction n with
  | zero =>
    intro done st vis x h hn
    exfalso
    have h1 := h.inv.nodup
    have h2 : ∀ y ∈ done ++ [x], y ∈ start :: g.vertices := by
      intro y hy
      refine hw.reach_mem (h.inv.reach y ((h.inv.mem y).2 ?_))
      rw [List.map_id]
      rcases List.mem_append.1 hy with hy | hy
      · simp [hy]
      · rw [List.mem_singleton] at hy; simp [hy]
    have h3 : (done ++ [x]).Nodup := by
      rw [List.map_id] at h1
      refine h1.sublist ?_
      refine (List.Sublist.refl done).append ?_
      simp
    have := (List.subperm_of_subset h3 h2).length_le
    simp only [List.length_append, List.length_singleton] at this
    omega
  | succ n ih =>
    intro done st vis x h hn
    have hrun := DepthFirstIter.next_some hw (s := ⟨⟨st ++ [x]⟩, vis⟩) (st := st) (x := x) rfl
    have hinv := h.step hw
    have hnod := h.inv.nodup
    rw [List.map_id] at hnod
    have hxd : x ∉ done := fun hx => by
      rw [List.nodup_append] at hnod
      exact hnod.2.2 x hx x (by simp) rfl
    have hxst : x ∉ st := fun hx => by
      rw [List.nodup_append] at hnod
      have := hnod.2.1
      rw [List.nodup_append] at this
      exact this.2.2 x hx x (by simp) rfl
    have hreach : ∀ y, y ∈ done ++ (st ++ [x]) → ReachBy g.outs start y := fun y hy =>
      h.inv.reach y ((h.inv.mem y).2 (by rw [List.map_id]; exact hy))
    obtain ⟨l, vis', h1, h2, h3⟩ := explores_outs ih x (fresh g.outs x vis) (done ++ [x]) st _ hinv
      (by simp only [List.length_append, List.length_singleton]; omega)
      (by
        intro w hwa
        by_cases hv : w ∈ vis
        · have := (h.inv.mem w).1 hv
          rw [List.map_id] at this
          simp only [List.mem_append, List.mem_singleton] at this
          rcases this with h4 | h4 | h4
          · exact .inl (by simp [h4])
          · exfalso
            rcases h.parent w (by simp [h4]) with h5 | ⟨u, hu, h5⟩
            · subst h5
              rcases h.first with h6 | ⟨_, h6⟩
              · rw [List.nodup_append] at hnod
                exact hnod.2.2 w h6 w (by simp [h4]) rfl
              · simp only at h6
                rcases st with _ | ⟨a, st⟩
                · cases h4
                · simp at h6
            · by_cases hws : w = start
              · subst hws
                rcases h.first with h6 | ⟨h6, _⟩
                · rw [List.nodup_append] at hnod
                  exact hnod.2.2 w h6 w (by simp [h4]) rfl
                · rw [h6] at hu; cases hu
              · have := hT u x w (hreach u (by simp [hu])) (hreach x (by simp)) h5 hwa hws
                subst this
                exact hxd hu
          · exact .inl (by simp [h4])
        · exact .inr (mem_fresh.2 ⟨hw.mem_outs'.2 hwa, hv⟩))
      (fun w hwf => hw.mem_outs'.1 (mem_fresh.1 hwf).1)
    refine ⟨x :: l, vis', (IterRun.step .refl hrun).trans h1, by simpa using h2, ?_⟩
    intro W hW
    refine .visit (fun hx => hxd ((hW x).1 hx)) (h3 (x :: W) ?_)
    intro v
    simp only [List.mem_cons, List.mem_append, List.not_mem_nil, or_false, hW]
    tauto

include hw hT in
theorem dfs_tree_order {xs : List VertexId} (h : Drains (DepthFirstIter.next g) (DepthFirstIter.from_ start) xs) : DfsFrom g [] start xs := by
  obtain ⟨l, vis', h1, h2, h3⟩ := explores_top hw hT _ [] [] [start] start (DfsInv.init g start) (Nat.le_refl _)
  have h4 : Drains (DepthFirstIter.next g) (DepthFirstIter.from_ start) (l ++ []) := h1.drains (.nil (DepthFirstIter.next_none rfl))
  have h5 := h.collect.unique h4.collect
  rw [h5, List.append_nil]
  exact h3 [] (by simp)

end Tree
end GC
