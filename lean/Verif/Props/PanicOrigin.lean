/-
C148: best-first searches panic only where the closures do.
-/
import Verif.Proofs.PanicOrigin
import Verif.Spec.NoScore
import Verif.Props.OnlyUnpruned
namespace GC
open AStar

theorem noScore {g : DirectedGraph} {cost heuristic : ScoreFn} {p : Path} (h : sumScore cost heuristic g p = .panicked) :
    NoScore g cost heuristic p.vertices := by
  unfold sumScore at h
  cases hc : cost g p with
  | running => rw [hc] at h; cases h
  | panicked => exact .inl hc
  | done a =>
    rw [hc, Run.bind_done] at h
    cases hh : heuristic g p with
    | running => rw [hh] at h; cases h
    | panicked => exact .inr (.inl hh)
    | done b =>
      rw [hh, Run.bind_done, addI64] at h
      split at h
      · cases h
      · rename_i hab; exact .inr (.inr ⟨a, b, hc, hh, hab⟩)

theorem not_noScore {g : DirectedGraph} {cost heuristic : ScoreFn} {p : Path} {c : Int} (h : sumScore cost heuristic g p = .done c) :
    ¬ NoScore g cost heuristic p.vertices := by
  unfold sumScore at h
  obtain ⟨a, ha, h⟩ := Run.bind_eq_done.1 h
  obtain ⟨b, hb, h⟩ := Run.bind_eq_done.1 h
  rintro (h1 | h1 | ⟨a', b', h1, h2, h3⟩)
  · rw [ha] at h1; cases h1
  · rw [hb] at h1; cases h1
  · rw [ha] at h1; rw [hb] at h2
    cases h1; cases h2
    rw [addI64, if_neg h3] at h
    cases h

/-- C148: if `shortest_path` panics, then the score of some simple path from the start without shortcut cannot be computed. -/
theorem C148_shortest_path (H : ScoredHeap) (g : DirectedGraph) (h : Built g) (s t : VertexId) (cost heuristic : ScoreFn)
    (hp : Panics (shortestPath H g cost heuristic s t)) : ∃ l, ChordlessFrom g s l ∧ NoScore g cost heuristic l := by
  by_contra hn
  have hf : ∀ p : Path, ChordlessFrom g s p.vertices → sumScore cost heuristic g p ≠ .panicked :=
    fun p hp hd => hn ⟨p.vertices, hp, noScore hd⟩
  obtain ⟨n, hp⟩ := hp
  have hp := hp n (Nat.le_refl n)
  unfold shortestPath at hp
  rw [Prog.bind, Prog.lift] at hp
  have h0 := best_from (H := H) (s := s) (f := sumScore cost heuristic) (f' := sumScore cost heuristic) (g := g) fun _ _ => rfl
  cases hi : BestFirstIter.from_ (H := H) g (sumScore cost heuristic) s with
  | running => rw [hi] at hp; cases hp
  | panicked =>
    unfold BestFirstIter.from_ at hi
    cases hc : sumScore cost heuristic g (Path.empty.append s) with
    | running => rw [hc] at hi; cases hi
    | done a => rw [hc] at hi; cases hi
    | panicked =>
      refine hf _ ⟨⟨.singleton s, rfl, List.nodup_singleton s⟩, fun i j u v _ hj hij => ?_⟩ hc
      have := (List.getElem?_eq_some_iff.1 hj).1
      simp only [List.length_singleton] at this
      omega
  | done it =>
    rw [hi, Run.bind_done] at hp
    exact find_panics (P := BestInv (H := H) g s) (fun st hs => ⟨best_next_panics h.wf hf hs n, fun x st' hd =>
      (best_agree (f' := sumScore cost heuristic) h.wf (fun _ _ => rfl) st hs).2 n x st' hd⟩) (h0.2 it hi) hp

/-- A search that panics: the closure refuses walks with more than two vertices, for example the path 1, 2, 4. -/
example : Panics (shortestPath exHeap exIterGraph (exShy 2) zeroHeuristic 1 9) ∧ NoScore exIterGraph (exShy 2) zeroHeuristic [1, 2, 4] := by
  refine ⟨?_, .inl (by decide)⟩
  unfold shortestPath
  exact (Mono.bind (Mono.lift _) fun _ => Mono.find mono_best _ _).panics (n := 9) (by decide)

/-- One that panics because cost and heuristic together exceed an `i64`, though neither panics. -/
example : Panics (shortestPath exHeap exIterGraph (fun _ _ => .done (2 ^ 63 - 1)) (fun _ p => .done (p.vertices.length - 1)) 1 4) ∧
    NoScore exIterGraph (fun _ _ => .done (2 ^ 63 - 1)) (fun _ p => .done (p.vertices.length - 1)) [1, 2] := by
  refine ⟨?_, .inr (.inr ⟨_, _, rfl, rfl, by decide⟩)⟩
  unfold shortestPath
  exact (Mono.bind (Mono.lift _) fun _ => Mono.find mono_best _ _).panics (n := 9) (by decide)

/-- C148: if `constrained_shortest_path` panics, then the score of the start, or of a walk that prolongs by one edge a walk the constraints
do not prune, cannot be computed. -/
theorem C148_constrained (H : ScoredHeap) (g : DirectedGraph) (h : Built g) (s t : VertexId) (cs : List Constraint)
    (cost heuristic : ScoreFn) (hp : Panics (constrainedShortestPath H g cost heuristic s t cs)) :
    NoScore g cost heuristic [s] ∨ ∃ (x : ScoredPath) (v : VertexId), Unpruned g (sumScore cost heuristic) cs s x ∧
      WalkFrom g s (x.path.vertices ++ [v]) ∧ NoScore g cost heuristic (x.path.vertices ++ [v]) := by
  by_contra hn
  have hf : ∀ x u v, Unpruned g (sumScore cost heuristic) cs s x → x.path.vertices.getLast? = some u → Adj g u v →
      sumScore cost heuristic g (x.path.append v) ≠ .panicked := fun x u v hx hl ha hd =>
    hn (.inr ⟨x, v, hx, ⟨chain_append hx.1.1 hl ha, by rw [List.head?_append, hx.1.2, Option.some_or]⟩, noScore hd⟩)
  obtain ⟨n, hp⟩ := hp
  have hp := hp n (Nat.le_refl n)
  unfold constrainedShortestPath at hp
  rw [Prog.bind, Prog.lift] at hp
  cases hi : ConstrainedBestFirstIter.from_ (H := H) g (sumScore cost heuristic) s with
  | running => rw [hi] at hp; cases hp
  | panicked =>
    unfold ConstrainedBestFirstIter.from_ at hi
    cases hc : sumScore cost heuristic g (Path.empty.append s) with
    | running => rw [hc] at hi; cases hi
    | done a => rw [hc] at hi; cases hi
    | panicked => exact hn (.inl (noScore hc))
  | done it =>
    rw [hi, Run.bind_done] at hp
    exact find_panics (P := UnprunedInv (H := H) g (sumScore cost heuristic) cs s) (fun st hs => ⟨constrained_next_panics h.wf hf hs n,
      fun x st' hd => (unpruned_agree (f' := sumScore cost heuristic) h.wf (fun _ _ _ _ _ _ => rfl) st hs).2 n x st' hd⟩)
      (fun sp hsp => (CInv.init cs hi).node sp (by simpa using hsp)) hp

/-- The walk 1, 2, 4 prolongs 1, 2, which `MaxLength 2` allows; the closure refuses it and the search panics. With `MaxLength 1` no walk
with three vertices is asked for, and the same search returns. -/
example : Panics (constrainedShortestPath exHeap exIterGraph (exShy 2) zeroHeuristic 1 4 [.MaxLength 2]) ∧
    constrainedShortestPath exHeap exIterGraph (exShy 2) zeroHeuristic 1 4 [.MaxLength 1] 9 = .done none := by
  refine ⟨?_, by decide⟩
  unfold constrainedShortestPath
  exact (Mono.bind (Mono.lift _) fun _ => Mono.find (fun s => ConstrainedBestFirstIter.mono_next s) _ _).panics (n := 9) (by decide)

/-- C148: conversely, if `constrained_shortest_path` answers `None`, then all these scores could be computed: a closure that panics on one of
them never gets the answer that there is no solution. -/
theorem C148_none (H : ScoredHeap) (g : DirectedGraph) (h : Built g) (s t : VertexId) (cs : List Constraint) (cost heuristic : ScoreFn)
    (hr : Returns (constrainedShortestPath H g cost heuristic s t cs) none) :
    ¬ NoScore g cost heuristic [s] ∧ ∀ (x : ScoredPath) (v : VertexId), Unpruned g (sumScore cost heuristic) cs s x →
      WalkFrom g s (x.path.vertices ++ [v]) → ¬ NoScore g cost heuristic (x.path.vertices ++ [v]) := by
  unfold constrainedShortestPath at hr
  cases hi : ConstrainedBestFirstIter.from_ (H := H) g (sumScore cost heuristic) s with
  | running => rw [hi] at hr; obtain ⟨n, hr⟩ := hr; cases hr n (Nat.le_refl n)
  | panicked => rw [hi] at hr; obtain ⟨n, hr⟩ := hr; cases hr n (Nat.le_refl n)
  | done it =>
    rw [hi] at hr
    have hr : Returns (Prog.find (isSolution t cs) (ConstrainedBestFirstIter.next g (sumScore cost heuristic) cs) it) none := hr
    obtain ⟨out, it', hrun, _, hend | ⟨x, _, hx, _⟩⟩ := find_inv (fun s => ConstrainedBestFirstIter.mono_next s) hr
    · have hinv := cinv_run h.wf hi hrun
      obtain ⟨c, hc, _⟩ := hinv.root
      refine ⟨not_noScore hc, fun x v hx hw => ?_⟩
      have hmem := C31_stream_complete H g h _ cs s it it' out hi hrun hend.2 x hx
      cases hl : x.path.vertices.getLast? with
      | none =>
        have hh := hx.1.2
        rw [List.getLast?_eq_none_iff.1 hl] at hh
        cases hh
      | some u =>
        obtain ⟨c, hc, _⟩ := hinv.closed x hmem u v hl ((List.isChain_append.1 hw.1).2.2 u hl v rfl)
        exact not_noScore hc
    · cases hx

/-- The search of the first example with a bound that fits the closure ends with `None`. -/
example : Returns (constrainedShortestPath exHeap exIterGraph (exShy 3) zeroHeuristic 1 4 [.MaxLength 2]) none := by
  unfold constrainedShortestPath
  exact (Mono.bind (Mono.lift _) fun _ => Mono.find (fun s => ConstrainedBestFirstIter.mono_next s) _ _).returns (n := 9) (by decide)

end GC
