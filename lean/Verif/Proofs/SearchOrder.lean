/- The exact orders in which the depth-first and breadth-first iterators yield vertices. -/
import Verif.Proofs.Iter
import Verif.Spec.Iter
namespace GC

/-- The visited set: the start and the out-neighbours of all processed vertices. -/
def Marked (g : DirectedGraph) (start : VertexId) (done vis : List VertexId) : Prop := ∀ v, v ∈ vis ↔ v = start ∨ ∃ u ∈ done, Adj g u v

theorem Marked.step {g : DirectedGraph} (hw : WF g) {start x : VertexId} {done vis : List VertexId} (h : Marked g start done vis) :
    Marked g start (done ++ [x]) ((fresh g.outs x vis).reverse ++ vis) := by
  intro v
  rw [List.mem_append, List.mem_reverse, mem_fresh, hw.mem_outs', h v]
  constructor
  · rintro (⟨h1, _⟩ | h1 | ⟨u, h1, h2⟩)
    · exact .inr ⟨x, by simp, h1⟩
    · exact .inl h1
    · exact .inr ⟨u, by simp [h1], h2⟩
  · rintro (h1 | ⟨u, h1, h2⟩)
    · exact .inr (.inl h1)
    · rcases List.mem_append.1 h1 with h1 | h1
      · exact .inr (.inr ⟨u, h1, h2⟩)
      · have : u = x := by simpa using h1
        subst this
        by_cases hv : v = start ∨ ∃ u ∈ done, Adj g u v
        · exact .inr hv
        · exact .inl ⟨h2, hv⟩

theorem takeWhile_ne {done zs : List VertexId} {x : VertexId} (h : (done ++ x :: zs).Nodup) :
    (done ++ x :: zs).takeWhile (· != x) = done := by
  have hx : x ∉ done := fun hx => (List.nodup_append.1 h).2.2 x hx x (by simp) rfl
  rw [List.takeWhile_append_of_pos]
  · simp
  · intro a ha
    simp only [bne_iff_ne, ne_eq]
    rintro rfl
    exact hx ha

theorem Marked.fresh {g : DirectedGraph} {start x : VertexId} {done vis zs : List VertexId} (h : Marked g start done vis)
    (hn : (done ++ x :: zs).Nodup) : fresh g.outs x vis = foundBy g start (done ++ x :: zs) x := by
  unfold GC.fresh foundBy
  rw [takeWhile_ne hn]
  show List.filter _ (g.outs x) = List.filter _ (g.outs x)
  apply List.filter_congr
  intro w _
  rw [Bool.eq_iff_iff]
  simp only [decide_eq_true_eq, h w, not_or, not_exists, not_and, Bool.and_eq_true, bne_iff_ne, ne_eq, List.all_eq_true, Bool.not_eq_true', Adj,
    Bool.not_eq_true]

theorem Preorder.split {α : Type} {children : α → List α} {a b l : List α} (h : Preorder children (a ++ b) l) :
    ∃ l1 l2, l = l1 ++ l2 ∧ Preorder children a l1 ∧ Preorder children b l2 := by
  induction a generalizing l with
  | nil => exact ⟨[], l, rfl, .nil, h⟩
  | cons v a ih =>
    cases h with
    | cons h1 h2 =>
      obtain ⟨l1, l2, rfl, h3, h4⟩ := ih h2
      exact ⟨_, l2, by simp, .cons h1 h3, h4⟩

theorem dfs_preorder {g : DirectedGraph} (hw : WF g) {start : VertexId} {out : List VertexId} (hn : out.Nodup) {s : DepthFirstIter}
    {zs : List VertexId} (h : Drains (DepthFirstIter.next g) s zs) :
    ∀ done, done ++ zs = out → Marked g start done s.visited → Preorder (fun u => (foundBy g start out u).reverse) s.stack.stack.reverse zs := by
  induction h with
  | @nil s h =>
    intro done ho hm
    by_cases hne : s.stack.stack = []
    · rw [hne]; exact .nil
    · obtain ⟨st, y, hst⟩ : ∃ st y, s.stack.stack = st ++ [y] := ⟨_, _, (List.dropLast_concat_getLast hne).symm⟩
      cases h.unique (DepthFirstIter.next_some hw hst)
  | @cons s x s' zs h1 h2 ih =>
    intro done ho hm
    by_cases hne : s.stack.stack = []
    · cases h1.unique (DepthFirstIter.next_none hne)
    · obtain ⟨st, y, hst⟩ : ∃ st y, s.stack.stack = st ++ [y] := ⟨_, _, (List.dropLast_concat_getLast hne).symm⟩
      cases h1.unique (DepthFirstIter.next_some hw hst)
      have := ih (done ++ [x]) (by simpa using ho) (hm.step hw)
      dsimp only at this
      rw [List.reverse_append] at this
      obtain ⟨l1, l2, rfl, h3, h4⟩ := this.split
      rw [hst, List.reverse_append]
      refine .cons ?_ h4
      subst ho
      rw [← hm.fresh hn]
      exact h3

theorem bfs_level_order {g : DirectedGraph} (hw : WF g) {start : VertexId} {out : List VertexId} (hn : out.Nodup) {s : BreadthFirstIter}
    {zs : List VertexId} (h : Drains (BreadthFirstIter.next g) s zs) :
    ∀ done, done ++ zs = out → Marked g start done s.visited → zs = s.queue.queue ++ zs.flatMap (foundBy g start out) := by
  induction h with
  | @nil s h =>
    intro done ho hm
    cases hq : s.queue.queue with
    | nil => simp
    | cons x q => cases h.unique (BreadthFirstIter.next_some hw hq)
  | @cons s x s' zs h1 h2 ih =>
    intro done ho hm
    cases hq : s.queue.queue with
    | nil => cases h1.unique (BreadthFirstIter.next_none hq)
    | cons y q =>
      cases h1.unique (BreadthFirstIter.next_some hw hq)
      have := ih (done ++ [x]) (by simpa using ho) (hm.step hw)
      dsimp only at this
      subst ho
      rw [hm.fresh hn] at this
      rw [List.cons_append, List.flatMap_cons]
      refine congrArg (x :: ·) ?_
      rw [← List.append_assoc]
      exact this

theorem pathChildren_extensions (g : DirectedGraph) (p : Path) : (pathChildren g p).map Path.vertices = extensions g p.vertices := by
  unfold pathChildren extensions Path.last
  cases p.vertices.getLast? with
  | none => rfl
  | some u =>
    simp only [List.map_map]
    show List.map _ (List.filter _ (g.outs u)) = List.map _ (List.filter _ (g.outs u))
    congr 1
    apply List.filter_congr
    intro v _
    simp

theorem DepthFirstPathIter.next_inv {g : DirectedGraph} {s s' : DepthFirstPathIter} {x : Path} (h : Returns (next g s) (some (x, s'))) :
    ∃ st, s.stack.stack = st ++ [x] ∧ s'.stack.stack = st ++ pathChildren g x := by
  obtain ⟨n, hn⟩ := h
  have h := hn n (Nat.le_refl _)
  unfold next at h
  cases hp : s.stack.pop with
  | none => rw [hp] at h; cases h
  | some r =>
    obtain ⟨y, st⟩ := r
    rw [hp] at h
    simp only [Prog.lift] at h
    cases hl : y.last with
    | none => rw [hl] at h; cases h
    | some u =>
      rw [hl, Run.unwrap_some, Run.bind_done, DepthFirstPathIter.foldl_visit] at h
      simp only [Run.done.injEq, Option.some.injEq, Prod.mk.injEq] at h
      obtain ⟨rfl, rfl⟩ := h
      refine ⟨st.stack, Stack.pop_eq_some.1 hp, ?_⟩
      unfold pathChildren
      rw [hl]

theorem BreadthFirstPathIter.next_inv {g : DirectedGraph} {s s' : BreadthFirstPathIter} {x : Path} (h : Returns (next g s) (some (x, s'))) :
    ∃ q, s.queue.queue = x :: q ∧ s'.queue.queue = q ++ pathChildren g x := by
  obtain ⟨n, hn⟩ := h
  have h := hn n (Nat.le_refl _)
  unfold next at h
  cases hp : s.queue.pop with
  | none => rw [hp] at h; cases h
  | some r =>
    obtain ⟨y, q⟩ := r
    rw [hp] at h
    simp only [Prog.lift] at h
    cases hl : y.last with
    | none => rw [hl] at h; cases h
    | some u =>
      rw [hl, Run.unwrap_some, Run.bind_done, BreadthFirstPathIter.foldl_visit] at h
      simp only [Run.done.injEq, Option.some.injEq, Prod.mk.injEq] at h
      obtain ⟨rfl, rfl⟩ := h
      refine ⟨q.queue, Queue.pop_eq_some.1 hp, ?_⟩
      unfold pathChildren
      rw [hl]

theorem DepthFirstPathIter.none_inv {g : DirectedGraph} {s : DepthFirstPathIter} (h : Returns (next g s) none) : s.stack.stack = [] := by
  obtain ⟨n, hn⟩ := h
  have h := hn n (Nat.le_refl _)
  unfold next at h
  cases hp : s.stack.pop with
  | none => exact Stack.pop_eq_none.1 hp
  | some r =>
    rw [hp] at h
    simp only [Prog.lift] at h
    cases hl : r.1.last with
    | none => rw [hl] at h; cases h
    | some u => rw [hl] at h; cases h

theorem BreadthFirstPathIter.none_inv {g : DirectedGraph} {s : BreadthFirstPathIter} (h : Returns (next g s) none) :
    s.queue.queue = [] := by
  obtain ⟨n, hn⟩ := h
  have h := hn n (Nat.le_refl _)
  unfold next at h
  cases hp : s.queue.pop with
  | none => exact Queue.pop_eq_none.1 hp
  | some r =>
    rw [hp] at h
    simp only [Prog.lift] at h
    cases hl : r.1.last with
    | none => rw [hl] at h; cases h
    | some u => rw [hl] at h; cases h

theorem dfs_path_preorder {g : DirectedGraph} {s : DepthFirstPathIter} {zs : List Path} (h : Drains (DepthFirstPathIter.next g) s zs) :
    Preorder (fun l => (extensions g l).reverse) (s.stack.stack.map Path.vertices).reverse (zs.map Path.vertices) := by
  induction h with
  | nil h => rw [DepthFirstPathIter.none_inv h]; exact .nil
  | cons h1 _ ih =>
    obtain ⟨st, h3, h4⟩ := DepthFirstPathIter.next_inv h1
    rw [h4, List.map_append, List.reverse_append, pathChildren_extensions] at ih
    obtain ⟨l1, l2, h5, h6, h7⟩ := ih.split
    rw [h3, List.map_append, List.reverse_append, List.map_cons, List.map_cons, h5]
    exact .cons h6 h7

theorem bfs_path_level_order {g : DirectedGraph} {s : BreadthFirstPathIter} {zs : List Path}
    (h : Drains (BreadthFirstPathIter.next g) s zs) :
    zs.map Path.vertices = s.queue.queue.map Path.vertices ++ (zs.map Path.vertices).flatMap (extensions g) := by
  induction h with
  | nil h => rw [BreadthFirstPathIter.none_inv h]; rfl
  | cons h1 _ ih =>
    obtain ⟨q, h3, h4⟩ := BreadthFirstPathIter.next_inv h1
    rw [h4, List.map_append, pathChildren_extensions, List.append_assoc] at ih
    rw [h3, List.map_cons, List.map_cons, List.flatMap_cons, List.cons_append, ← ih]

end GC
