/-
C142: best-first search and shortest_path use scores only by comparing them.
-/
import Verif.Props.BestOrder
namespace GC
open DirectedGraph

theorem BestFirstOrder.same {g : DirectedGraph} {s : VertexId} {f f' : Path → Int} {ps : List (List VertexId)} (hs : SameOrder g s f f')
    (hp : ∀ l ∈ ps, SimplePathFrom g s l) (h : BestFirstOrder g s (fun l => f ⟨l⟩) ps) : BestFirstOrder g s (fun l => f' ⟨l⟩) ps := by
  refine ⟨fun i p hi => ?_, h.all⟩
  obtain ⟨h1, h2, h3⟩ := h.best i p hi
  refine ⟨h1, h2, fun q hq hn => ?_⟩
  have hm : Found g s ps q := by
    have := Found.mono (qs := ps.drop i) hq
    rwa [List.take_append_drop] at this
  exact (hs ⟨p⟩ ⟨q⟩ (hp p (List.mem_of_getElem? hi)) (hp q (h.all q hm))).1 (h3 q hq hn)

/-- Twice the score of the examples, and 3. -/
def exTwice (p : Path) : Int := 2 * exDigits p + 3

theorem exTwice_same : SameOrder exIterGraph 1 exDigits exTwice := fun p q _ _ => by
  unfold exTwice
  omega

/-- What `best_iter_from` yields is also an order of best-first search for every other score that orders the paths in the same way. -/
theorem C142_order (H : ScoredHeap) (g : DirectedGraph) (h : Built g) (s : VertexId) (scorefn : ScoreFn) (f f' : Path → Int)
    (hf : ScoresBy g s scorefn f) (hs : SameOrder g s f f') (it : BestFirstIter H) (out : List ScoredPath)
    (hi : BestFirstIter.from_ g scorefn s = .done it) (ho : Returns (Prog.collect (BestFirstIter.next g scorefn) it) out) :
    BestFirstOrder g s (fun l => f' ⟨l⟩) (out.map fun sp => sp.path.vertices) := by
  obtain ⟨_, xs, h1, h2, h3, h4, _, h5⟩ := best_drains_order (H := H) h.wf hf
  rw [hi] at h1
  cases h1
  rw [ho.unique h2.collect]
  refine (h5.order h3 h4).same hs ?_
  intro l hl
  obtain ⟨a, ha, rfl⟩ := List.mem_map.1 hl
  exact (h3 a ha).1

example : BestFirstOrder exIterGraph 1 (fun l => exTwice ⟨l⟩) [[1], [1, 2], [1, 3], [1, 2, 4]] :=
  C142_order exHeap exIterGraph exIterGraph_built 1 (fun _ p => .done (exDigits p)) exDigits exTwice (fun _ _ => rfl) exTwice_same
    _ [⟨⟨[1]⟩, 1⟩, ⟨⟨[1, 2]⟩, 21⟩, ⟨⟨[1, 3]⟩, 31⟩, ⟨⟨[1, 2, 4]⟩, 421⟩] rfl
    (Mono.returns (n := 9) (Mono.collect mono_best _) (by decide))

theorem same_paths {H H' : ScoredHeap} {g : DirectedGraph} (h : Built g) {s : VertexId} {f f' : Path → Int} {xs ys : List ScoredPath}
    {vis vis' : List VertexId} (hs : SameOrder g s f f')
    (hinj : ∀ p q : Path, SimplePathFrom g s p.vertices → SimplePathFrom g s q.vertices → f p = f q → p = q)
    (h3 : ∀ sp ∈ xs, SimplePathFrom g s sp.path.vertices ∧ sp.score = f sp.path) (h4 : (xs.map lastOf).Nodup) (h5 : OrderInv g s f xs [] vis)
    (h3' : ∀ sp ∈ ys, SimplePathFrom g s sp.path.vertices ∧ sp.score = f' sp.path) (h4' : (ys.map lastOf).Nodup)
    (h5' : OrderInv g s f' ys [] vis') : pathsOf xs = pathsOf ys := by
  refine BestFirstOrder.unique (f := fun l => f' ⟨l⟩) ?_ ((h5.order h3 h4).same hs ?_) (h5'.order h3' h4')
  · intro p hp q hq he
    obtain ⟨a, ha, rfl⟩ := List.mem_map.1 hp
    obtain ⟨b, hb, rfl⟩ := List.mem_map.1 hq
    have k1 := (hs a.path b.path (h3 a ha).1 (h3' b hb).1).2 (Int.le_of_eq he)
    have k2 := (hs b.path a.path (h3' b hb).1 (h3 a ha).1).2 (Int.le_of_eq he.symm)
    exact congrArg Path.vertices (hinj a.path b.path (h3 a ha).1 (h3' b hb).1 (Int.le_antisymm k1 k2))
  · intro l hl
    obtain ⟨a, ha, rfl⟩ := List.mem_map.1 hl
    exact (h3 a ha).1

/-- Without ties the same paths are yielded in the same order, each with its own score. -/
theorem C142_iteration (H H' : ScoredHeap) (g : DirectedGraph) (h : Built g) (s : VertexId) (scorefn scorefn' : ScoreFn) (f f' : Path → Int)
    (hf : ScoresBy g s scorefn f) (hf' : ScoresBy g s scorefn' f') (hs : SameOrder g s f f')
    (hinj : ∀ p q : Path, SimplePathFrom g s p.vertices → SimplePathFrom g s q.vertices → f p = f q → p = q)
    (it : BestFirstIter H) (it' : BestFirstIter H') (out out' : List ScoredPath)
    (hi : BestFirstIter.from_ g scorefn s = .done it) (hi' : BestFirstIter.from_ g scorefn' s = .done it')
    (ho : Returns (Prog.collect (BestFirstIter.next g scorefn) it) out)
    (ho' : Returns (Prog.collect (BestFirstIter.next g scorefn') it') out') :
    out' = out.map fun sp => ⟨sp.path, f' sp.path⟩ := by
  obtain ⟨_, xs, h1, h2, h3, h4, _, h5⟩ := best_drains_order (H := H) h.wf hf
  obtain ⟨_, ys, h1', h2', h3', h4', _, h5'⟩ := best_drains_order (H := H') h.wf hf'
  rw [hi] at h1
  rw [hi'] at h1'
  cases h1
  cases h1'
  rw [ho.unique h2.collect, ho'.unique h2'.collect]
  have hu := same_paths (H := H) (H' := H') h hs hinj h3 h4 h5 h3' h4' h5'
  have e : ys = (pathsOf ys).map fun l => ⟨⟨l⟩, f' ⟨l⟩⟩ := by
    unfold pathsOf
    rw [List.map_map]
    conv_lhs => rw [← List.map_id ys]
    refine List.map_congr_left fun sp hsp => ?_
    show sp = ⟨sp.path, f' sp.path⟩
    rw [← (h3' sp hsp).2]
  rw [e, ← hu]
  unfold pathsOf
  rw [List.map_map]
  rfl

example (H : ScoredHeap) (it : BestFirstIter H) (out : List ScoredPath)
    (hi : BestFirstIter.from_ exIterGraph (fun _ p => .done (exTwice p)) 1 = .done it)
    (ho : Returns (Prog.collect (BestFirstIter.next exIterGraph (fun _ p => .done (exTwice p))) it) out) :
    out = [⟨⟨[1]⟩, 5⟩, ⟨⟨[1, 2]⟩, 45⟩, ⟨⟨[1, 3]⟩, 65⟩, ⟨⟨[1, 2, 4]⟩, 845⟩] :=
  (C142_iteration exHeap H exIterGraph exIterGraph_built 1 (fun _ p => .done (exDigits p)) _ exDigits exTwice (fun _ _ => rfl) (fun _ _ => rfl)
    exTwice_same exDigits_inj _ it [⟨⟨[1]⟩, 1⟩, ⟨⟨[1, 2]⟩, 21⟩, ⟨⟨[1, 3]⟩, 31⟩, ⟨⟨[1, 2, 4]⟩, 421⟩] out rfl hi
    (Mono.returns (n := 9) (Mono.collect mono_best _) (by decide)) ho).trans (by decide)

/-- Without ties `shortest_path` finds the same path for costs and heuristics whose sums order the paths in the same way. -/
theorem C142_shortest_path (H H' : ScoredHeap) (g : DirectedGraph) (h : Built g) (start end_ : VertexId) (cost heuristic cost' heuristic' : ScoreFn)
    (f f' : Path → Int) (hf : ScoresBy g start (AStar.sumScore cost heuristic) f) (hf' : ScoresBy g start (AStar.sumScore cost' heuristic') f')
    (hs : SameOrder g start f f')
    (hinj : ∀ p q : Path, SimplePathFrom g start p.vertices → SimplePathFrom g start q.vertices → f p = f q → p = q)
    (r : Option ScoredPath) (hr : Returns (AStar.shortestPath H g cost heuristic start end_) r) :
    Returns (AStar.shortestPath H' g cost' heuristic' start end_) (r.map fun sp => ⟨sp.path, f' sp.path⟩) := by
  obtain ⟨it, xs, h1, h2, _⟩ := best_drains_order (H := H) h.wf hf
  obtain ⟨it', ys, h1', h2', _⟩ := best_drains_order (H := H') h.wf hf'
  have he := C142_iteration H H' g h start _ _ f f' hf hf' hs hinj it it' xs ys h1 h1' h2.collect h2'.collect
  have e1 : Returns (AStar.shortestPath H g cost heuristic start end_) (xs.find? (AStar.endsAt end_)) := by
    unfold AStar.shortestPath
    rw [h1]
    exact Returns.bind (Returns.lift_done _) (h2.find _)
  have e2 : Returns (AStar.shortestPath H' g cost' heuristic' start end_) (ys.find? (AStar.endsAt end_)) := by
    unfold AStar.shortestPath
    rw [h1']
    exact Returns.bind (Returns.lift_done _) (h2'.find _)
  rw [hr.unique e1]
  rw [he, List.find?_map] at e2
  exact e2

/-- Twice the cost, and the heuristic 3. -/
theorem exTwice_scores : ScoresBy exIterGraph 1 (AStar.sumScore (fun _ p => .done (2 * exDigits p)) (fun _ _ => .done 3)) exTwice := by
  intro p hp
  have h1 := SimplePathFrom.length_le exIterGraph_built.wf hp
  have h2 : exIterGraph.vertices.length = 5 := by decide
  have h3 : Nat.ofDigits 10 (p.vertices.map fun v => v.id.toNat) < 10 ^ (p.vertices.map fun v => v.id.toNat).length :=
    Nat.ofDigits_lt_base_pow_length (by decide) fun d hd => by
      obtain ⟨v, hv, rfl⟩ := List.mem_map.1 hd
      exact (exIterGraph_digits p hp v hv).2
  have h4 : 10 ^ (p.vertices.map fun v => v.id.toNat).length ≤ 10 ^ 6 :=
    Nat.pow_le_pow_right (by decide) (by rw [List.length_map]; omega)
  unfold AStar.sumScore addI64
  rw [Run.bind_done, Run.bind_done, if_pos (by unfold exDigits; omega), exTwice]

example (H : ScoredHeap) :
    Returns (AStar.shortestPath H exIterGraph (fun _ p => .done (2 * exDigits p)) (fun _ _ => .done 3) 1 4) (some ⟨⟨[1, 2, 4]⟩, 845⟩) :=
  C142_shortest_path exHeap H exIterGraph exIterGraph_built 1 4 (fun _ p => .done (exDigits p)) AStar.zeroHeuristic _ _ exDigits exTwice
    (exDigits_scores fun _ _ => .rfl) exTwice_scores exTwice_same exDigits_inj (some ⟨⟨[1, 2, 4]⟩, 421⟩)
    (Mono.returns (n := 9) (Mono.bind (Mono.lift _) fun s => Mono.find mono_best _ _) (by decide +kernel))

end GC
