/-
Lemmas about the graph iterators.
-/
import Verif.Proofs.Worklist
import Verif.Proofs.Graph
import Verif.Proofs.Path
import Verif.Spec.Iter
import Mathlib.Order.Lattice.Nat
namespace GC
open DirectedGraph

/-! ### Queues -/

theorem Stack.pop_eq_none {T : Type} {s : Stack T} : s.pop = none ↔ s.stack = [] := by
  simp [Stack.pop, List.getLast?_eq_none_iff]

theorem Stack.pop_eq_some {T : Type} {s s' : Stack T} {x : T} : s.pop = some (x, s') ↔ s.stack = s'.stack ++ [x] := by
  obtain ⟨l⟩ := s
  obtain ⟨l'⟩ := s'
  simp only [Stack.pop, Option.map_eq_some_iff, Prod.mk.injEq, Stack.mk.injEq]
  constructor
  · rintro ⟨a, h, rfl, rfl⟩
    obtain ⟨ys, rfl⟩ := List.getLast?_eq_some_iff.1 h
    simp
  · rintro rfl
    exact ⟨x, by simp, rfl, by simp⟩

theorem Queue.pop_eq_none {T : Type} {q : Queue T} : q.pop = none ↔ q.queue = [] := by
  obtain ⟨l⟩ := q
  cases l <;> simp [Queue.pop]

theorem Queue.pop_eq_some {T : Type} {q q' : Queue T} {x : T} : q.pop = some (x, q') ↔ q.queue = x :: q'.queue := by
  obtain ⟨l⟩ := q
  obtain ⟨l'⟩ := q'
  cases l <;> simp [Queue.pop]

/-- Items of a min priority queue. -/
def MinPriorityQueue.items {T : Type} {le : T → T → Bool} {H : BinaryHeap (Reverse T) (Reverse.le le)} (q : MinPriorityQueue T le H) :
    List T := (H.items q.priorityQueue).map Reverse.get

theorem MinPriorityQueue.items_new {T : Type} {le : T → T → Bool} {H : BinaryHeap (Reverse T) (Reverse.le le)} :
    (MinPriorityQueue.new : MinPriorityQueue T le H).items = [] := by
  simp [items, new, H.items_new]

theorem MinPriorityQueue.items_push {T : Type} {le : T → T → Bool} {H : BinaryHeap (Reverse T) (Reverse.le le)}
    (q : MinPriorityQueue T le H) (x : T) : (q.push x).items.Perm (x :: q.items) :=
  (H.items_push q.priorityQueue ⟨x⟩).map Reverse.get

theorem MinPriorityQueue.pop_none {T : Type} {le : T → T → Bool} {H : BinaryHeap (Reverse T) (Reverse.le le)}
    {q : MinPriorityQueue T le H} : q.pop = none ↔ q.items = [] := by
  unfold pop items
  cases h : H.pop q.priorityQueue with
  | none => simp [H.pop_none _ h]
  | some p =>
    have := (H.pop_some _ p.1 p.2 h).1.length_eq
    simp only [Option.map_some, reduceCtorEq, List.map_eq_nil_iff, false_iff]
    intro e
    simp [e] at this

theorem MinPriorityQueue.pop_some {T : Type} {le : T → T → Bool} {H : BinaryHeap (Reverse T) (Reverse.le le)}
    {q q' : MinPriorityQueue T le H} {x : T} (h : q.pop = some (x, q')) :
    q.items.Perm (x :: q'.items) ∧ ∀ y ∈ q.items, le x y = true := by
  unfold pop at h
  cases hp : H.pop q.priorityQueue with
  | none => rw [hp] at h; cases h
  | some p =>
    rw [hp] at h
    cases h
    obtain ⟨h1, h2⟩ := H.pop_some _ p.1 p.2 hp
    refine ⟨h1.map Reverse.get, ?_⟩
    intro y hy
    obtain ⟨r, hr, rfl⟩ := List.mem_map.1 hy
    exact h2 r hr

theorem MinPriorityQueue.exists_pop {T : Type} {le : T → T → Bool} {H : BinaryHeap (Reverse T) (Reverse.le le)}
    {q : MinPriorityQueue T le H} (h : q.items ≠ []) : ∃ x q', q.pop = some (x, q') := by
  cases hp : q.pop with
  | none => exact absurd (pop_none.1 hp) h
  | some p => exact ⟨p.1, p.2, rfl⟩

/-! ### Graphs -/

theorem WF.mem_outs' {g : DirectedGraph} (h : WF g) {u v : VertexId} : v ∈ g.outs u ↔ Adj g u v := h.mem_outs
theorem WF.nodup_outs' {g : DirectedGraph} (h : WF g) (u : VertexId) : (g.outs u).Nodup := h.nodup_outs u

theorem WF.reachBy_iff {g : DirectedGraph} (h : WF g) {u v : VertexId} : ReachBy g.outs u v ↔ Reach g u v := by
  have : (fun u v => v ∈ g.outs u) = Adj g := by
    funext u v
    exact propext h.mem_outs'
  unfold ReachBy Reach
  rw [this]

theorem WF.adj_vertex {g : DirectedGraph} (h : WF g) {u v : VertexId} (ha : Adj g u v) : u ∈ g.vertices ∧ v ∈ g.vertices :=
  ⟨mem_vertices.2 (h.src_mem ha), mem_vertices.2 (h.dst_mem ha)⟩

theorem WF.reach_mem {g : DirectedGraph} (h : WF g) {u v : VertexId} (hr : ReachBy g.outs u v) : v ∈ u :: g.vertices := by
  rcases Relation.ReflTransGen.cases_tail hr with rfl | ⟨w, _, hw⟩
  · simp
  · exact List.mem_cons_of_mem _ (h.adj_vertex (h.mem_outs'.1 hw)).2

/-! ### Folds of `visit` -/

theorem filter_not_mem_cons {l vis : List VertexId} {a : VertexId} (h : a ∉ l) :
    (l.filter fun v => decide (v ∉ a :: vis)) = l.filter fun v => decide (v ∉ vis) := by
  apply List.filter_congr
  intro v hv
  have : v ≠ a := by rintro rfl; exact h hv
  simp [this]

theorem DepthFirstIter.foldl_visit (l : List VertexId) (hl : l.Nodup) (st vis : List VertexId) :
    l.foldl DepthFirstIter.visit ⟨⟨st⟩, vis⟩ =
      ⟨⟨st ++ l.filter fun v => decide (v ∉ vis)⟩, (l.filter fun v => decide (v ∉ vis)).reverse ++ vis⟩ := by
  induction l generalizing st vis with
  | nil => simp
  | cons a l ih =>
    rw [List.nodup_cons] at hl
    rw [List.foldl_cons]
    by_cases ha : a ∈ vis
    · have e : DepthFirstIter.visit ⟨⟨st⟩, vis⟩ a = ⟨⟨st⟩, vis⟩ := by simp [DepthFirstIter.visit, ha]
      rw [e, ih hl.2]
      simp [ha]
    · have e : DepthFirstIter.visit ⟨⟨st⟩, vis⟩ a = ⟨⟨st ++ [a]⟩, a :: vis⟩ := by simp [DepthFirstIter.visit, ha, Stack.push]
      rw [e, ih hl.2, filter_not_mem_cons hl.1]
      simp [ha]

theorem BreadthFirstIter.foldl_visit (l : List VertexId) (hl : l.Nodup) (st vis : List VertexId) :
    l.foldl BreadthFirstIter.visit ⟨⟨st⟩, vis⟩ =
      ⟨⟨st ++ l.filter fun v => decide (v ∉ vis)⟩, (l.filter fun v => decide (v ∉ vis)).reverse ++ vis⟩ := by
  induction l generalizing st vis with
  | nil => simp
  | cons a l ih =>
    rw [List.nodup_cons] at hl
    rw [List.foldl_cons]
    by_cases ha : a ∈ vis
    · have e : BreadthFirstIter.visit ⟨⟨st⟩, vis⟩ a = ⟨⟨st⟩, vis⟩ := by simp [BreadthFirstIter.visit, ha]
      rw [e, ih hl.2]
      simp [ha]
    · have e : BreadthFirstIter.visit ⟨⟨st⟩, vis⟩ a = ⟨⟨st ++ [a]⟩, a :: vis⟩ := by simp [BreadthFirstIter.visit, ha, Queue.push]
      rw [e, ih hl.2, filter_not_mem_cons hl.1]
      simp [ha]

/-! ### Depth-first -/

theorem DepthFirstIter.next_none {g : DirectedGraph} {s : DepthFirstIter} (h : s.stack.stack = []) : Returns (next g s) none := by
  unfold next
  rw [Stack.pop_eq_none.2 h]
  exact Returns.ret _

theorem DepthFirstIter.next_some {g : DirectedGraph} (hw : WF g) {s : DepthFirstIter} {st : List VertexId} {x : VertexId}
    (h : s.stack.stack = st ++ [x]) :
    Returns (next g s) (some (x, ⟨⟨st ++ fresh g.outs x s.visited⟩, (fresh g.outs x s.visited).reverse ++ s.visited⟩)) := by
  unfold next
  have : s.stack.pop = some (x, ⟨st⟩) := Stack.pop_eq_some.2 h
  rw [this]
  simp only
  rw [foldl_visit _ (hw.nodup_outs' x)]
  exact Returns.ret _

theorem dfs_drains {g : DirectedGraph} (hw : WF g) (start : VertexId) :
    ∃ xs, Drains (DepthFirstIter.next g) (DepthFirstIter.from_ start) xs ∧ xs.Nodup ∧ xs.head? = some start ∧
      ∀ v, v ∈ xs ↔ ReachBy g.outs start v := by
  obtain ⟨xs, s', h1, h2, h3, h4, _, h5, h6⟩ := search_drains (outs := g.outs) (hw.nodup_outs') (start := start) (key := id)
    (child := fun _ v => v) (fun _ _ => rfl) (start :: g.vertices) (fun v hv => hw.reach_mem hv) (DepthFirstIter.next g)
    (fun s => s.stack.stack) (fun s => s.visited) (fun _ => True)
    (fun done s => done = [] ∧ s = DepthFirstIter.from_ start ∨ done.head? = some start)
    (fun s h => DepthFirstIter.next_none h) (by
      intro done s hi hJ hne _ _
      obtain ⟨st, x, hst⟩ : ∃ st x, s.stack.stack = st ++ [x] := by
        have := List.dropLast_concat_getLast hne
        exact ⟨_, _, this.symm⟩
      refine ⟨x, st, _, DepthFirstIter.next_some hw hst, ?_, ?_, rfl, fun _ _ => trivial, ?_⟩
      · rw [hst]; exact List.perm_append_comm
      · simp
      · rcases hJ with ⟨rfl, rfl⟩ | hh
        · right
          have : [start] = st ++ [x] := hst
          have hx : start = x := by
            rcases st with _ | ⟨a, st⟩
            · simpa using this
            · simp at this
          simp [hx]
        · right
          rw [List.head?_append, hh]; rfl)
    (DepthFirstIter.from_ start) (.init (x := start) rfl rfl) (.inl ⟨rfl, rfl⟩) (fun _ _ => trivial)
  refine ⟨xs, h1, by simpa using h5, ?_, by simpa using h6⟩
  rcases h4 with ⟨rfl, rfl⟩ | hh
  · exact absurd h3 (by simp [DepthFirstIter.from_, DepthFirstIter.empty, Stack.push, Stack.new])
  · exact hh

/-! ### Distances -/

/-- `v` can be reached from `u` in `n` steps. -/
inductive Steps (outs : VertexId → List VertexId) (u : VertexId) : Nat → VertexId → Prop where
  | zero : Steps outs u 0 u
  | succ {n v w} : Steps outs u n v → w ∈ outs v → Steps outs u (n + 1) w

theorem ReachBy.steps {outs : VertexId → List VertexId} {u v : VertexId} (h : ReachBy outs u v) : ∃ n, Steps outs u n v := by
  induction h with
  | refl => exact ⟨0, .zero⟩
  | tail _ hb ih => obtain ⟨n, hn⟩ := ih; exact ⟨n + 1, .succ hn hb⟩

theorem Steps.reach {outs : VertexId → List VertexId} {u v : VertexId} {n : Nat} (h : Steps outs u n v) : ReachBy outs u v := by
  induction h with
  | zero => exact .refl
  | succ _ hb ih => exact ih.tail hb

/-- The distance (0 for unreachable vertices). -/
noncomputable def distBy (outs : VertexId → List VertexId) (u v : VertexId) : Nat := sInf {n | Steps outs u n v}

theorem Steps.dist_le {outs : VertexId → List VertexId} {u v : VertexId} {n : Nat} (h : Steps outs u n v) : distBy outs u v ≤ n :=
  Nat.sInf_le h

theorem ReachBy.steps_dist {outs : VertexId → List VertexId} {u v : VertexId} (h : ReachBy outs u v) : Steps outs u (distBy outs u v) v :=
  Nat.sInf_mem (s := {n | Steps outs u n v}) h.steps

/-- An unvisited vertex is further away than some waiting item. -/
theorem SearchInv.unvisited_dist {T : Type} {outs : VertexId → List VertexId} {start : VertexId} {key : T → VertexId} {done items : List T}
    {visited : List VertexId} (h : SearchInv outs start key done items visited) {n : Nat} {w : VertexId} (hs : Steps outs start n w)
    (hw : w ∉ visited) : ∃ x ∈ items, distBy outs start (key x) + 1 ≤ n := by
  induction hs with
  | zero => exact absurd h.start hw
  | @succ n v w hs hb ih =>
    by_cases hv : v ∈ visited
    · obtain ⟨x, hx, rfl⟩ := List.mem_map.1 ((h.mem v).1 hv)
      rcases List.mem_append.1 hx with hx | hx
      · exact absurd (h.closed x hx w hb) hw
      · exact ⟨x, hx, by have := hs.dist_le; omega⟩
    · obtain ⟨x, hx, hle⟩ := ih hv
      exact ⟨x, hx, by omega⟩

theorem SearchInv.fresh_dist {T : Type} {outs : VertexId → List VertexId} {start : VertexId} {key : T → VertexId} {done items : List T}
    {visited : List VertexId} (h : SearchInv outs start key done items visited) {x : T} (hx : x ∈ items)
    (hmin : ∀ y ∈ items, distBy outs start (key x) ≤ distBy outs start (key y)) {v : VertexId} (hv : v ∈ fresh outs (key x) visited) :
    distBy outs start v = distBy outs start (key x) + 1 := by
  obtain ⟨h1, h2⟩ := mem_fresh.1 hv
  have hr : ReachBy outs start (key x) := h.reach _ ((h.mem _).2 (List.mem_map_of_mem (List.mem_append_right _ hx)))
  have hs := Steps.succ hr.steps_dist h1
  have hle := hs.dist_le
  obtain ⟨y, hy, hyd⟩ := h.unvisited_dist hs.reach.steps_dist h2
  have := hmin y hy
  omega

theorem WF.steps_walk {g : DirectedGraph} (h : WF g) {u v : VertexId} {n : Nat} (hs : Steps g.outs u n v) :
    ∃ l, WalkFromTo g u v l ∧ l.length = n + 1 := by
  induction hs with
  | zero => exact ⟨[u], ⟨by simp, rfl, rfl⟩, rfl⟩
  | @succ n v w _ hb ih =>
    obtain ⟨l, ⟨h1, h2, h3⟩, h4⟩ := ih
    refine ⟨l ++ [w], ⟨?_, ?_, by simp⟩, by simp [h4]⟩
    · rw [List.isChain_append]
      refine ⟨h1, by simp, ?_⟩
      intro x hx y hy
      rw [h3] at hx
      cases hx
      simp only [List.head?_cons, Option.mem_some_iff] at hy
      subst hy
      exact h.mem_outs'.1 hb
    · rw [List.head?_append, h2]; rfl

theorem WF.walk_steps {g : DirectedGraph} (h : WF g) {u v : VertexId} {l : List VertexId} (hl : WalkFromTo g u v l) :
    Steps g.outs u (l.length - 1) v := by
  obtain ⟨h1, h2, h3⟩ := hl
  induction l using List.reverseRecOn generalizing v with
  | nil => cases h2
  | append_singleton l w ih =>
    simp only [List.getLast?_append, List.getLast?_singleton, Option.some_or, Option.some.injEq] at h3
    subst h3
    rcases List.eq_nil_or_concat l with rfl | ⟨l', x, rfl⟩
    · simp at h2; subst h2; exact .zero
    · rw [List.isChain_append] at h1
      obtain ⟨c1, _, c3⟩ := h1
      have hx : Adj g x w := c3 x (by simp) w (by simp)
      have := ih c1 (by
        rw [List.head?_append] at h2
        simpa using h2) (v := x) (by simp)
      have e := Steps.succ this (h.mem_outs'.2 hx)
      simpa using e

theorem WF.dist_iff {g : DirectedGraph} (h : WF g) {u v : VertexId} {n : Nat} :
    Dist g u v n ↔ ReachBy g.outs u v ∧ distBy g.outs u v = n := by
  constructor
  · rintro ⟨⟨l, hl, hn⟩, hmin⟩
    have hs := h.walk_steps hl
    refine ⟨hs.reach, ?_⟩
    have h1 := hs.dist_le
    obtain ⟨l', hl', hn'⟩ := h.steps_walk hs.reach.steps_dist
    have := hmin l' hl'
    omega
  · rintro ⟨hr, rfl⟩
    obtain ⟨l', hl', hn'⟩ := h.steps_walk hr.steps_dist
    refine ⟨⟨l', hl', hn'⟩, ?_⟩
    intro l hl
    have := (h.walk_steps hl).dist_le
    have hne : l ≠ [] := by rintro rfl; cases hl.2.1
    have := List.length_pos_iff.2 hne
    omega

/-! ### Breadth-first -/

theorem BreadthFirstIter.next_none {g : DirectedGraph} {s : BreadthFirstIter} (h : s.queue.queue = []) : Returns (next g s) none := by
  unfold next
  rw [Queue.pop_eq_none.2 h]
  exact Returns.ret _

theorem BreadthFirstIter.next_some {g : DirectedGraph} (hw : WF g) {s : BreadthFirstIter} {q : List VertexId} {x : VertexId}
    (h : s.queue.queue = x :: q) :
    Returns (next g s) (some (x, ⟨⟨q ++ fresh g.outs x s.visited⟩, (fresh g.outs x s.visited).reverse ++ s.visited⟩)) := by
  unfold next
  have : s.queue.pop = some (x, ⟨q⟩) := Queue.pop_eq_some.2 h
  rw [this]
  simp only
  rw [foldl_visit _ (hw.nodup_outs' x)]
  exact Returns.ret _

theorem bfs_drains {g : DirectedGraph} (hw : WF g) (start : VertexId) :
    ∃ xs, Drains (BreadthFirstIter.next g) (BreadthFirstIter.from_ start) xs ∧ xs.Nodup ∧
      (xs.Pairwise fun a b => distBy g.outs start a ≤ distBy g.outs start b) ∧
      ∀ v, v ∈ xs ↔ ReachBy g.outs start v := by
  obtain ⟨xs, s', h1, h2, h3, h4, _, h5, h6⟩ := search_drains (outs := g.outs) (hw.nodup_outs') (start := start) (key := id)
    (child := fun _ v => v) (fun _ _ => rfl) (start :: g.vertices) (fun v hv => hw.reach_mem hv) (BreadthFirstIter.next g)
    (fun s => s.queue.queue) (fun s => s.visited) (fun _ => True)
    (fun done s => ((done ++ s.queue.queue).Pairwise fun a b => distBy g.outs start a ≤ distBy g.outs start b) ∧
      ∀ a ∈ s.queue.queue, ∀ b ∈ s.queue.queue, distBy g.outs start b ≤ distBy g.outs start a + 1)
    (fun s h => BreadthFirstIter.next_none h) (by
      rintro done s hi ⟨hJ1, hJ2⟩ hne _ _
      obtain ⟨x, q, hq⟩ : ∃ x q, s.queue.queue = x :: q := List.exists_cons_of_ne_nil hne
      refine ⟨x, q, _, BreadthFirstIter.next_some hw hq, ?_, ?_, rfl, fun _ _ => trivial, ?_, ?_⟩
      · rw [hq]
      · simp
      all_goals
        rw [hq] at hJ1 hJ2 hi
        have hmin : ∀ y ∈ x :: q, distBy g.outs start (id x) ≤ distBy g.outs start (id y) := by
          intro y hy
          rcases List.mem_cons.1 hy with rfl | hy
          · exact Nat.le_refl _
          · have := (List.pairwise_append.1 hJ1).2.1
            exact (List.pairwise_cons.1 this).1 y hy
        have hf : ∀ v ∈ fresh g.outs x s.visited, distBy g.outs start v = distBy g.outs start x + 1 :=
          fun v hv => hi.fresh_dist (by simp) hmin hv
        simp only
      · have e : done ++ [x] ++ (q ++ fresh g.outs x s.visited) = (done ++ x :: q) ++ fresh g.outs x s.visited := by simp
        rw [e, List.pairwise_append]
        refine ⟨hJ1, ?_, ?_⟩
        · rw [List.pairwise_iff_getElem]
          intro i j hi hj _
          rw [hf _ (List.getElem_mem hi), hf _ (List.getElem_mem hj)]
        · intro a ha b hb
          rw [hf b hb]
          rcases List.mem_append.1 ha with ha | ha
          · have := (List.pairwise_append.1 hJ1).2.2 a ha x (by simp)
            omega
          · exact hJ2 x (by simp) a ha
      · intro a ha b hb
        have ha' : distBy g.outs start x ≤ distBy g.outs start a := by
          rcases List.mem_append.1 ha with ha | ha
          · exact hmin a (by simp [ha])
          · rw [hf a ha]; omega
        rcases List.mem_append.1 hb with hb | hb
        · have := hJ2 x (by simp) b (by simp [hb])
          omega
        · rw [hf b hb]; omega)
    (BreadthFirstIter.from_ start) (.init (x := start) rfl rfl)
    (by constructor
        · simp [BreadthFirstIter.from_, BreadthFirstIter.empty, Queue.push, Queue.new]
        · intro a ha b hb
          simp only [BreadthFirstIter.from_, BreadthFirstIter.empty, Queue.push, Queue.new, List.nil_append, List.mem_singleton] at ha hb
          subst ha hb; omega) (fun _ _ => trivial)
  refine ⟨xs, h1, by simpa using h5, ?_, by simpa using h6⟩
  have := h4.1
  rw [h3] at this
  simpa using this

/-! ### Best-first -/

/-- The last vertex of a scored path. -/
def lastOf (sp : ScoredPath) : VertexId := sp.path.last.getD 0

/-- The extension of a scored path. -/
def extend (f : Path → Int) (sp : ScoredPath) (v : VertexId) : ScoredPath := ⟨sp.path.append v, f (sp.path.append v)⟩

theorem lastOf_extend (f : Path → Int) (sp : ScoredPath) (v : VertexId) : lastOf (extend f sp v) = v := by
  simp [lastOf, extend, Path.last, Path.append]

theorem SimplePathFrom.append {g : DirectedGraph} {s u v : VertexId} {l : List VertexId} (h : SimplePathFrom g s l)
    (hl : l.getLast? = some u) (ha : Adj g u v) (hv : v ∉ l) : SimplePathFrom g s (l ++ [v]) := by
  obtain ⟨h1, h2, h3⟩ := h
  refine ⟨?_, ?_, ?_⟩
  · rw [List.isChain_append]
    refine ⟨h1, by simp, ?_⟩
    intro x hx y hy
    rw [hl] at hx
    cases hx
    simp only [List.head?_cons, Option.mem_some_iff] at hy
    subst hy
    exact ha
  · rw [List.head?_append, h2]; rfl
  · rw [List.nodup_append]
    refine ⟨h3, by simp, ?_⟩
    rintro a ha' b hb rfl
    simp only [List.mem_singleton] at hb
    subst hb
    exact hv ha'

theorem SimplePathFrom.last {g : DirectedGraph} {s : VertexId} {l : List VertexId} (h : SimplePathFrom g s l) :
    ∃ u, l.getLast? = some u := by
  cases hl : l.getLast? with
  | none =>
    rw [List.getLast?_eq_none_iff] at hl
    subst hl
    cases h.2.1
  | some u => exact ⟨u, rfl⟩

theorem BestFirstIter.forEach_visit {H : ScoredHeap} {g : DirectedGraph} {scorefn : ScoreFn} {f : Path → Int} (wp : ScoredPath)
    (l : List VertexId) (hl : l.Nodup) (q : MinPriorityQueue ScoredPath ScoredPath.le H) (vis : List VertexId)
    (hf : ∀ v ∈ l, v ∉ vis → scorefn g (wp.path.append v) = .done (f (wp.path.append v))) :
    ∃ q', Run.forEach (visit g scorefn wp) ⟨q, vis⟩ l =
        .done ⟨q', (l.filter fun v => decide (v ∉ vis)).reverse ++ vis⟩ ∧
      q'.items.Perm (q.items ++ (l.filter fun v => decide (v ∉ vis)).map (extend f wp)) := by
  induction l generalizing q vis with
  | nil => exact ⟨q, rfl, by simp⟩
  | cons a l ih =>
    rw [List.nodup_cons] at hl
    unfold Run.forEach
    by_cases ha : a ∈ vis
    · have e : visit g scorefn wp ⟨q, vis⟩ a = .done ⟨q, vis⟩ := by simp [visit, ha]
      rw [e, Run.bind_done]
      obtain ⟨q', h1, h2⟩ := ih hl.2 q vis (fun v hv => hf v (List.mem_cons_of_mem _ hv))
      refine ⟨q', ?_, ?_⟩
      · rw [h1]; simp [ha]
      · simpa [ha] using h2
    · have e : visit g scorefn wp ⟨q, vis⟩ a = .done ⟨q.push (extend f wp a), a :: vis⟩ := by
        simp [visit, ha, hf a (by simp) ha, extend]
      rw [e, Run.bind_done]
      obtain ⟨q', h1, h2⟩ := ih hl.2 (q.push (extend f wp a)) (a :: vis)
        (fun v hv hn => hf v (List.mem_cons_of_mem _ hv) (fun h => hn (List.mem_cons_of_mem _ h)))
      rw [filter_not_mem_cons hl.1] at h1 h2
      refine ⟨q', ?_, ?_⟩
      · rw [h1]; simp [ha]
      · refine h2.trans ?_
        simp only [ha, not_false_eq_true, decide_true, List.filter_cons_of_pos, List.map_cons]
        refine (List.Perm.append_right _ (q.items_push _)).trans ?_
        exact (List.perm_middle).symm

/-- Everything known about best-first search. `Q` collects facts about items that hold when items are taken in order of distance. -/
theorem best_drains {H : ScoredHeap} {g : DirectedGraph} (hw : WF g) {scorefn : ScoreFn} {f : Path → Int} {start : VertexId}
    (hf : ScoresBy g start scorefn f) :
    ∃ s xs, BestFirstIter.from_ (H := H) g scorefn start = .done s ∧ Drains (BestFirstIter.next g scorefn) s xs ∧
      (∀ sp ∈ xs, SimplePathFrom g start sp.path.vertices ∧ sp.score = f sp.path) ∧ (xs.map lastOf).Nodup ∧
      (∀ v, v ∈ xs.map lastOf ↔ ReachBy g.outs start v) ∧
      ((∀ p q : Path, p.vertices.length < q.vertices.length → f p < f q) → ∀ sp ∈ xs, sp.path.vertices.length = distBy g.outs start (lastOf sp) + 1) := by
  have h0 : SimplePathFrom g start [start] := ⟨by simp, rfl, by simp⟩
  have hfrom : BestFirstIter.from_ (H := H) g scorefn start =
      .done ⟨(MinPriorityQueue.new).push ⟨⟨[start]⟩, f ⟨[start]⟩⟩, [start]⟩ := by
    have := hf ⟨[start]⟩ h0
    simp [BestFirstIter.from_, BestFirstIter.empty, Path.empty, Path.append, this]
  have hitems : ((MinPriorityQueue.new).push ⟨⟨[start]⟩, f ⟨[start]⟩⟩ : MinPriorityQueue ScoredPath ScoredPath.le H).items =
      [⟨⟨[start]⟩, f ⟨[start]⟩⟩] := by
    have := MinPriorityQueue.items_push (MinPriorityQueue.new : MinPriorityQueue ScoredPath ScoredPath.le H) ⟨⟨[start]⟩, f ⟨[start]⟩⟩
    rw [MinPriorityQueue.items_new] at this
    exact List.perm_singleton.1 this
  obtain ⟨xs, s', h1, h2, h3, h4, h5, h6, h7⟩ := search_drains (outs := g.outs) (hw.nodup_outs') (start := start) (key := lastOf)
    (child := extend f) (lastOf_extend f) (start :: g.vertices) (fun v hv => hw.reach_mem hv)
    (BestFirstIter.next g scorefn) (fun s : BestFirstIter H => s.queue.items) (fun s => s.visited)
    (fun sp => SimplePathFrom g start sp.path.vertices ∧ sp.score = f sp.path)
    (fun done s => (∀ sp ∈ s.queue.items, ∀ u ∈ sp.path.vertices, u ∈ s.visited) ∧
      ((∀ p q : Path, p.vertices.length < q.vertices.length → f p < f q) →
        ∀ sp ∈ done ++ s.queue.items, sp.path.vertices.length = distBy g.outs start (lastOf sp) + 1))
    (by
      intro s hs
      unfold BestFirstIter.next
      rw [MinPriorityQueue.pop_none.2 hs]
      exact Returns.ret _)
    (by
      rintro done s hi ⟨hJ1, hJ2⟩ hne hP _
      obtain ⟨x, q, hq⟩ := MinPriorityQueue.exists_pop hne
      obtain ⟨p1, p2⟩ := MinPriorityQueue.pop_some hq
      have hx : x ∈ s.queue.items := p1.mem_iff.2 (by simp)
      obtain ⟨hx1, hx2⟩ := hP x hx
      obtain ⟨u, hu⟩ := hx1.last
      have hul : x.path.last = some u := hu
      have hlast : lastOf x = u := by simp [lastOf, hul]
      have hsimple : ∀ v ∈ fresh g.outs u s.visited, SimplePathFrom g start (x.path.append v).vertices := by
        intro v hv
        obtain ⟨h1, h2⟩ := mem_fresh.1 hv
        exact hx1.append hu (hw.mem_outs'.1 h1) (fun h => h2 (hJ1 x hx v h))
      obtain ⟨q', r1, r2⟩ := BestFirstIter.forEach_visit (f := f) (scorefn := scorefn) (g := g) x (g.outs u) (hw.nodup_outs' u) q s.visited
        (fun v hv hn => hf _ (hsimple v (mem_fresh.2 ⟨hv, hn⟩)))
      refine ⟨x, q.items, ⟨q', (fresh g.outs (lastOf x) s.visited).reverse ++ s.visited⟩, ?_, p1, ?_, rfl, ?_, ?_, ?_⟩
      · unfold BestFirstIter.next
        rw [hq]
        simp only
        rw [hul, Run.unwrap_some, Run.bind_done, r1, Run.bind_done, hlast]
        exact Returns.lift_done _
      · rw [hlast]; exact r2
      · intro v hv
        rw [hlast] at hv
        exact ⟨hsimple v hv, rfl⟩
      · intro sp hsp w hw'
        rcases List.mem_append.1 (r2.mem_iff.1 hsp) with hsp | hsp
        · exact List.mem_append_right _ (hJ1 sp (p1.mem_iff.2 (List.mem_cons_of_mem _ hsp)) w hw')
        · obtain ⟨v, hv, rfl⟩ := List.mem_map.1 hsp
          rw [hlast]
          have hw'' : w ∈ x.path.vertices ++ [v] := hw'
          rcases List.mem_append.1 hw'' with hw' | hw'
          · exact List.mem_append_right _ (hJ1 x hx w hw')
          · simp only [List.mem_singleton] at hw'
            subst hw'
            exact List.mem_append_left _ (List.mem_reverse.2 hv)
      · intro hunit sp hsp
        have hJ2 := hJ2 hunit
        have hold : ∀ sp ∈ done ++ s.queue.items, sp.path.vertices.length = distBy g.outs start (lastOf sp) + 1 := hJ2
        rw [List.append_assoc] at hsp
        rcases List.mem_append.1 hsp with hsp | hsp
        · exact hJ2 sp (List.mem_append_left _ hsp)
        rcases List.mem_append.1 hsp with hsp | hsp
        · simp only [List.mem_singleton] at hsp
          subst hsp
          exact hJ2 sp (List.mem_append_right _ hx)
        rcases List.mem_append.1 (r2.mem_iff.1 hsp) with hsp | hsp
        · exact hJ2 sp (List.mem_append_right _ (p1.mem_iff.2 (List.mem_cons_of_mem _ hsp)))
        · obtain ⟨v, hv, rfl⟩ := List.mem_map.1 hsp
          have hmin : ∀ y ∈ s.queue.items, distBy g.outs start (lastOf x) ≤ distBy g.outs start (lastOf y) := by
            intro y hy
            have h1 := p2 y hy
            simp only [ScoredPath.le, decide_eq_true_eq] at h1
            rw [hx2, (hP y hy).2] at h1
            have h2 : ¬ y.path.vertices.length < x.path.vertices.length := fun hlt => by
              have := hunit _ _ hlt
              omega
            have e1 := hJ2 x (List.mem_append_right _ hx)
            have e2 := hJ2 y (List.mem_append_right _ hy)
            omega
          have hd := hi.fresh_dist hx hmin (by rw [hlast]; exact hv)
          rw [lastOf_extend, hd, ← hJ2 x (List.mem_append_right _ hx)]
          simp [extend, Path.append])
    ⟨(MinPriorityQueue.new).push ⟨⟨[start]⟩, f ⟨[start]⟩⟩, [start]⟩
    (.init (x := ⟨⟨[start]⟩, f ⟨[start]⟩⟩) rfl hitems)
    ⟨by
        intro sp hsp u hu
        rw [hitems] at hsp
        simp only [List.mem_singleton] at hsp
        subst hsp
        simpa using hu,
      by
        intro _ sp hsp
        rw [hitems] at hsp
        simp only [List.nil_append, List.mem_singleton] at hsp
        subst hsp
        have : distBy g.outs start start = 0 := Nat.le_zero.1 (Steps.zero.dist_le)
        simp [lastOf, Path.last, this]⟩
    (by
      intro sp hsp
      rw [hitems] at hsp
      simp only [List.mem_singleton] at hsp
      subst hsp
      exact ⟨h0, rfl⟩)
  refine ⟨_, xs, hfrom, h1, h5, h6, h7, ?_⟩
  intro hunit sp hsp
  exact h4.2 hunit sp (List.mem_append_left _ hsp)

/-! ### Path iterators -/

/-- The extensions of a path by an out-neighbour of its last vertex that is not on it. -/
def pathChildren (g : DirectedGraph) (p : Path) : List Path :=
  match p.last with
  | none => []
  | some u => ((g.outs u).filter fun v => decide (v ∉ p.vertices)).map p.append

theorem DepthFirstPathIter.foldl_visit (p : Path) (l : List VertexId) (st : List Path) :
    l.foldl (visit p) ⟨⟨st⟩⟩ = ⟨⟨st ++ (l.filter fun v => decide (v ∉ p.vertices)).map p.append⟩⟩ := by
  induction l generalizing st with
  | nil => simp
  | cons a l ih =>
    rw [List.foldl_cons]
    by_cases ha : a ∈ p.vertices
    · have e : visit p ⟨⟨st⟩⟩ a = ⟨⟨st⟩⟩ := by simp [visit, Path.containsVertex, ha]
      rw [e, ih]; simp [ha]
    · have e : visit p ⟨⟨st⟩⟩ a = ⟨⟨st ++ [p.append a]⟩⟩ := by simp [visit, Path.containsVertex, ha, Stack.push]
      rw [e, ih]; simp [ha]

theorem BreadthFirstPathIter.foldl_visit (p : Path) (l : List VertexId) (st : List Path) :
    l.foldl (visit p) ⟨⟨st⟩⟩ = ⟨⟨st ++ (l.filter fun v => decide (v ∉ p.vertices)).map p.append⟩⟩ := by
  induction l generalizing st with
  | nil => simp
  | cons a l ih =>
    rw [List.foldl_cons]
    by_cases ha : a ∈ p.vertices
    · have e : visit p ⟨⟨st⟩⟩ a = ⟨⟨st⟩⟩ := by simp [visit, Path.containsVertex, ha]
      rw [e, ih]; simp [ha]
    · have e : visit p ⟨⟨st⟩⟩ a = ⟨⟨st ++ [p.append a]⟩⟩ := by simp [visit, Path.containsVertex, ha, Queue.push]
      rw [e, ih]; simp [ha]

theorem mem_pathChildren {g : DirectedGraph} (hw : WF g) {p q : Path} :
    q ∈ pathChildren g p ↔ ∃ u v, p.vertices.getLast? = some u ∧ Adj g u v ∧ v ∉ p.vertices ∧ q = p.append v := by
  unfold pathChildren Path.last
  cases h : p.vertices.getLast? with
  | none => simp
  | some u =>
    simp only [List.mem_map, List.mem_filter, decide_eq_true_eq, Option.some.injEq]
    constructor
    · rintro ⟨v, ⟨h1, h2⟩, rfl⟩
      exact ⟨u, v, rfl, hw.mem_outs'.1 h1, h2, rfl⟩
    · rintro ⟨_, v, rfl, h1, h2, rfl⟩
      exact ⟨v, ⟨hw.mem_outs'.2 h1, h2⟩, rfl⟩

theorem SimplePathFrom.subset {g : DirectedGraph} (hw : WF g) {s : VertexId} {l : List VertexId} (h : SimplePathFrom g s l) :
    l ⊆ s :: g.vertices := by
  intro v hv
  obtain ⟨h1, h2, _⟩ := h
  obtain ⟨l1, l2, rfl⟩ := List.append_of_mem hv
  rcases List.eq_nil_or_concat l1 with rfl | ⟨l', x, rfl⟩
  · simp at h2; simp [h2]
  · rw [List.isChain_append] at h1
    exact List.mem_cons_of_mem _ (hw.adj_vertex (h1.2.2 x (by simp) v (by simp))).2

theorem SimplePathFrom.length_le {g : DirectedGraph} (hw : WF g) {s : VertexId} {l : List VertexId} (h : SimplePathFrom g s l) :
    l.length ≤ g.vertices.length + 1 := by
  have := (List.subperm_of_subset h.2.2 (h.subset hw)).length_le
  simpa using this

theorem pathChildren_rank {g : DirectedGraph} (hw : WF g) (start : VertexId) (p : Path) (hp : SimplePathFrom g start p.vertices) :
    ∀ q ∈ pathChildren g p, SimplePathFrom g start q.vertices ∧
      g.vertices.length + 1 - q.vertices.length < g.vertices.length + 1 - p.vertices.length := by
  intro q hq
  obtain ⟨u, v, h1, h2, h3, rfl⟩ := (mem_pathChildren hw).1 hq
  have h := hp.append h1 h2 h3
  refine ⟨h, ?_⟩
  have := SimplePathFrom.length_le hw h
  simp only [Path.append, List.length_append, List.length_singleton] at *
  omega

theorem descends_pathChildren {g : DirectedGraph} (hw : WF g) (start : VertexId) (p : Path) :
    Descends (pathChildren g) ⟨[start]⟩ p ↔ SimplePathFrom g start p.vertices := by
  constructor
  · intro h
    induction h with
    | refl => exact ⟨by simp, rfl, by simp⟩
    | tail _ hb ih =>
      obtain ⟨u, v, h1, h2, h3, rfl⟩ := (mem_pathChildren hw).1 hb
      exact ih.append h1 h2 h3
  · obtain ⟨l⟩ := p
    intro h
    simp only at h
    induction l using List.reverseRecOn with
    | nil => cases h.2.1
    | append_singleton l w ih =>
      obtain ⟨h1, h2, h3⟩ := h
      rcases List.eq_nil_or_concat l with rfl | ⟨l', x, rfl⟩
      · simp at h2; subst h2; exact .refl
      · rw [List.isChain_append] at h1
        rw [List.nodup_append] at h3
        refine .tail (ih ⟨h1.1, ?_, h3.1⟩) ?_
        · rw [List.head?_append] at h2
          simpa using h2
        · refine (mem_pathChildren hw).2 ⟨x, w, by simp, h1.2.2 x (by simp) w (by simp), ?_, rfl⟩
          intro hm
          exact h3.2.2 w hm w (by simp) rfl

theorem prefix_nodesAux {g : DirectedGraph} (hw : WF g) (n : Nat) (p q : Path) (h : q ∈ nodesAux (pathChildren g) n p) :
    p.vertices <+: q.vertices := by
  induction n generalizing p with
  | zero => simp only [nodesAux, List.mem_singleton] at h; subst h; exact List.prefix_refl _
  | succ n ih =>
    simp only [nodesAux, List.mem_cons, List.mem_flatMap] at h
    rcases h with rfl | ⟨c, hc, h⟩
    · exact List.prefix_refl _
    · obtain ⟨u, v, _, _, _, rfl⟩ := (mem_pathChildren hw).1 hc
      exact (List.prefix_append _ _).trans (ih _ h)

theorem nodup_nodesAux {g : DirectedGraph} (hw : WF g) (n : Nat) (p : Path) : (nodesAux (pathChildren g) n p).Nodup := by
  induction n generalizing p with
  | zero => simp [nodesAux]
  | succ n ih =>
    simp only [nodesAux]
    rw [List.nodup_cons, List.nodup_flatMap]
    refine ⟨?_, fun c _ => ih c, ?_⟩
    · intro h
      obtain ⟨c, hc, h⟩ := List.mem_flatMap.1 h
      obtain ⟨u, v, _, _, _, rfl⟩ := (mem_pathChildren hw).1 hc
      have := (prefix_nodesAux hw _ _ _ h).length_le
      simp only [Path.append, List.length_append, List.length_singleton] at this
      omega
    · unfold pathChildren
      split
      · exact .nil
      · rename_i u _
        rw [List.pairwise_map]
        have := (hw.nodup_outs' u).filter fun v => decide (v ∉ p.vertices)
        refine this.imp ?_
        intro a b hab
        rw [Function.onFun, List.disjoint_left]
        intro q hq1 hq2
        have h1 := prefix_nodesAux hw _ _ _ hq1
        have h2 := prefix_nodesAux hw _ _ _ hq2
        have := List.prefix_of_prefix_length_le h1 h2 (by simp [Path.append])
        have := this.eq_of_length (by simp [Path.append])
        simp only [Path.append, List.append_cancel_left_eq, List.cons.injEq, and_true] at this
        exact hab this

theorem dfs_path_drains {g : DirectedGraph} (hw : WF g) (start : VertexId) :
    ∃ xs, Drains (DepthFirstPathIter.next g) (DepthFirstPathIter.from_ start) xs ∧ xs.Nodup ∧
      ∀ p, p ∈ xs ↔ SimplePathFrom g start p.vertices := by
  have h0 : SimplePathFrom g start [start] := ⟨by simp, rfl, by simp⟩
  obtain ⟨xs, s', h1, h2, _⟩ := tree_drains (children := pathChildren g) (P := fun p => SimplePathFrom g start p.vertices)
    (rank := fun p => g.vertices.length + 1 - p.vertices.length) (pathChildren_rank hw start) (DepthFirstPathIter.next g)
    (fun s => s.stack.stack) (fun _ _ => True)
    (by
      intro s hs
      unfold DepthFirstPathIter.next
      rw [Stack.pop_eq_none.2 hs]
      exact Returns.ret _)
    (by
      intro done s _ hne hP
      obtain ⟨st, x, hst⟩ : ∃ st x, s.stack.stack = st ++ [x] := ⟨_, _, (List.dropLast_concat_getLast hne).symm⟩
      obtain ⟨u, hu⟩ := (hP x (by rw [hst]; simp)).last
      have hul : x.last = some u := hu
      refine ⟨x, st, ⟨⟨st ++ pathChildren g x⟩⟩, ?_, ?_, .refl _, trivial⟩
      · unfold DepthFirstPathIter.next
        have : s.stack.pop = some (x, ⟨st⟩) := Stack.pop_eq_some.2 hst
        rw [this]
        simp only
        rw [hul, Run.unwrap_some, Run.bind_done, DepthFirstPathIter.foldl_visit]
        have : pathChildren g x = ((g.outs u).filter fun v => decide (v ∉ x.vertices)).map x.append := by
          unfold pathChildren; rw [hul]
        rw [this]
        exact Returns.lift_done _
      · rw [hst]; exact List.perm_append_comm)
    (DepthFirstPathIter.from_ start) ⟨[start]⟩ h0 rfl trivial
  refine ⟨xs, h1, h2.nodup_iff.2 (nodup_nodesAux hw _ _), ?_⟩
  intro p
  rw [h2.mem_iff, ← descends_pathChildren hw]
  exact mem_nodesAux (P := fun p : Path => SimplePathFrom g start p.vertices) (pathChildren_rank hw start) _ _ h0

theorem bfs_path_drains {g : DirectedGraph} (hw : WF g) (start : VertexId) :
    ∃ xs, Drains (BreadthFirstPathIter.next g) (BreadthFirstPathIter.from_ start) xs ∧ xs.Nodup ∧
      (xs.Pairwise fun p q : Path => p.vertices.length ≤ q.vertices.length) ∧
      ∀ p, p ∈ xs ↔ SimplePathFrom g start p.vertices := by
  have h0 : SimplePathFrom g start [start] := ⟨by simp, rfl, by simp⟩
  obtain ⟨xs, s', h1, h2, h3, h4⟩ := tree_drains (children := pathChildren g) (P := fun p => SimplePathFrom g start p.vertices)
    (rank := fun p => g.vertices.length + 1 - p.vertices.length) (pathChildren_rank hw start) (BreadthFirstPathIter.next g)
    (fun s => s.queue.queue)
    (fun done s => ((done ++ s.queue.queue).Pairwise fun p q : Path => p.vertices.length ≤ q.vertices.length) ∧
      ∀ p ∈ s.queue.queue, ∀ q ∈ s.queue.queue, q.vertices.length ≤ p.vertices.length + 1)
    (by
      intro s hs
      unfold BreadthFirstPathIter.next
      rw [Queue.pop_eq_none.2 hs]
      exact Returns.ret _)
    (by
      rintro done s ⟨hJ1, hJ2⟩ hne hP
      obtain ⟨x, q, hq⟩ : ∃ x q, s.queue.queue = x :: q := List.exists_cons_of_ne_nil hne
      obtain ⟨u, hu⟩ := (hP x (by rw [hq]; simp)).last
      have hul : x.last = some u := hu
      have hlen : ∀ c ∈ pathChildren g x, c.vertices.length = x.vertices.length + 1 := by
        intro c hc
        obtain ⟨u, v, _, _, _, rfl⟩ := (mem_pathChildren hw).1 hc
        simp [Path.append]
      rw [hq] at hJ1 hJ2
      have hmin : ∀ y ∈ x :: q, x.vertices.length ≤ y.vertices.length := by
        intro y hy
        rcases List.mem_cons.1 hy with rfl | hy
        · exact Nat.le_refl _
        · exact (List.pairwise_cons.1 (List.pairwise_append.1 hJ1).2.1).1 y hy
      refine ⟨x, q, ⟨⟨q ++ pathChildren g x⟩⟩, ?_, ?_, .refl _, ?_, ?_⟩
      · unfold BreadthFirstPathIter.next
        have : s.queue.pop = some (x, ⟨q⟩) := Queue.pop_eq_some.2 hq
        rw [this]
        simp only
        rw [hul, Run.unwrap_some, Run.bind_done, BreadthFirstPathIter.foldl_visit]
        have : pathChildren g x = ((g.outs u).filter fun v => decide (v ∉ x.vertices)).map x.append := by
          unfold pathChildren; rw [hul]
        rw [this]
        exact Returns.lift_done _
      · rw [hq]
      · have e : done ++ [x] ++ (q ++ pathChildren g x) = (done ++ x :: q) ++ pathChildren g x := by simp
        simp only
        rw [e, List.pairwise_append]
        refine ⟨hJ1, ?_, ?_⟩
        · rw [List.pairwise_iff_getElem]
          intro i j hi hj _
          rw [hlen _ (List.getElem_mem hi), hlen _ (List.getElem_mem hj)]
        · intro a ha b hb
          rw [hlen b hb]
          rcases List.mem_append.1 ha with ha | ha
          · have := (List.pairwise_append.1 hJ1).2.2 a ha x (by simp)
            omega
          · exact hJ2 x (by simp) a ha
      · intro a ha b hb
        have ha' : x.vertices.length ≤ a.vertices.length := by
          rcases List.mem_append.1 ha with ha | ha
          · exact hmin a (by simp [ha])
          · rw [hlen a ha]; omega
        rcases List.mem_append.1 hb with hb | hb
        · have := hJ2 x (by simp) b (by simp [hb])
          omega
        · rw [hlen b hb]; omega)
    (BreadthFirstPathIter.from_ start) ⟨[start]⟩ h0 rfl
    (by constructor
        · simp [BreadthFirstPathIter.from_, Queue.push, Queue.new]
        · intro a ha b hb
          simp only [BreadthFirstPathIter.from_, Queue.push, Queue.new, List.nil_append, List.mem_singleton] at ha hb
          subst ha hb; omega)
  refine ⟨xs, h1, h2.nodup_iff.2 (nodup_nodesAux hw _ _), ?_, ?_⟩
  · have := h3.1
    rw [h4] at this
    simpa using this
  intro p
  rw [h2.mem_iff, ← descends_pathChildren hw]
  exact mem_nodesAux (P := fun p : Path => SimplePathFrom g start p.vertices) (pathChildren_rank hw start) _ _ h0

end GC
