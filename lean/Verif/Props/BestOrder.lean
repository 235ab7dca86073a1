/-
Property C124: the order of best-first iteration.
-/
import Mathlib.Data.Nat.Digits.Defs
import Verif.Proofs.BestOrder
import Verif.Props.Search
namespace GC
open DirectedGraph

/-- C124: for every heap and scoring closure, `best_iter_from` yields at each step a path of least score among those found and not yet yielded,
and stops when there is none. -/
theorem C124_order (H : ScoredHeap) (g : DirectedGraph) (h : Built g) (s : VertexId) (scorefn : ScoreFn) (f : Path → Int)
    (hf : ScoresBy g s scorefn f) (it : BestFirstIter H) (out : List ScoredPath) (hi : BestFirstIter.from_ g scorefn s = .done it)
    (ho : Returns (Prog.collect (BestFirstIter.next g scorefn) it) out) :
    BestFirstOrder g s (fun l => f ⟨l⟩) (out.map fun sp => sp.path.vertices) := by
  obtain ⟨it', xs, h1, h2, h3, h4, _, h5⟩ := best_drains_order (H := H) h.wf hf
  rw [hi] at h1
  cases h1
  rw [ho.unique h2.collect]
  exact h5.order h3 h4

/-- The score of the examples: the vertices of the path read as decimal digits, the first vertex being the last digit. -/
def exDigits (p : Path) : Int := (Nat.ofDigits 10 (p.vertices.map fun v => v.id.toNat) : Nat)

theorem mono_best {H : ScoredHeap} {g : DirectedGraph} {scorefn : ScoreFn} (s : BestFirstIter H) : Mono (BestFirstIter.next g scorefn s) := by
  unfold BestFirstIter.next
  split
  · exact Mono.ret _
  · exact Mono.lift _

/-- `C124_order` for `exIterGraph` and that score: the paths to 2 and 3 come before the one to 4, which goes through 2. -/
example : BestFirstOrder exIterGraph 1 (fun l => exDigits ⟨l⟩) [[1], [1, 2], [1, 3], [1, 2, 4]] :=
  C124_order exHeap exIterGraph exIterGraph_built 1 (fun _ p => .done (exDigits p)) exDigits (fun _ _ => rfl)
    _ [⟨⟨[1]⟩, 1⟩, ⟨⟨[1, 2]⟩, 21⟩, ⟨⟨[1, 3]⟩, 31⟩, ⟨⟨[1, 2, 4]⟩, 421⟩] rfl
    (Mono.returns (n := 9) (Mono.collect mono_best _) (by decide))

/-- C124: every vertex of a yielded path but the first was entered from the path that was yielded before it, so all the beginnings of a
yielded path were yielded earlier. -/
theorem C124_beginnings (H : ScoredHeap) (g : DirectedGraph) (h : Built g) (s : VertexId) (scorefn : ScoreFn) (f : Path → Int)
    (hf : ScoresBy g s scorefn f) (it : BestFirstIter H) (out : List ScoredPath) (hi : BestFirstIter.from_ g scorefn s = .done it)
    (ho : Returns (Prog.collect (BestFirstIter.next g scorefn) it) out) (i : Nat) (sp : ScoredPath) (hsp : out[i]? = some sp)
    (l : List VertexId) (hl : l <+: sp.path.vertices) (h0 : l ≠ []) :
    ∃ (j : Nat) (sp' : ScoredPath), j ≤ i ∧ out[j]? = some sp' ∧ sp'.path.vertices = l := by
  have ho' := C124_order H g h s scorefn f hf it out hi ho
  generalize hn : sp.path.vertices.length = n
  induction n using Nat.strongRecOn generalizing i sp with
  | _ n ih =>
    obtain ⟨h1, _⟩ := ho'.best i sp.path.vertices (by rw [List.getElem?_map, hsp]; rfl)
    by_cases he : l = sp.path.vertices
    · exact ⟨i, sp, Nat.le_refl _, hsp, he.symm⟩
    · rcases h1 with h1 | ⟨j, p, u, v, h2, h3, h4, h5, h6, h7⟩
      · rw [h1] at hl he
        rcases List.prefix_cons_iff.1 hl with rfl | ⟨t, rfl, ht⟩
        · exact absurd rfl h0
        · rw [List.prefix_nil.1 ht] at he
          exact absurd rfl he
      · rw [h7] at hl he hn
        have hlp : l <+: p := by
          rcases List.prefix_concat_iff.1 hl with h | h
          · exact absurd h he
          · exact h
        rw [List.getElem?_take] at h2
        split at h2
        · rename_i hji
          rw [List.getElem?_map, Option.map_eq_some_iff] at h2
          obtain ⟨sp', h8, rfl⟩ := h2
          rw [List.length_append] at hn
          obtain ⟨k, sp'', h9, h10⟩ := ih _ (by simp at hn; omega) j sp' h8 hlp rfl
          exact ⟨k, sp'', by omega, h10⟩
        · cases h2

/-- C124: if extending a path never lowers its score, the scores come in non-decreasing order. -/
theorem C124_sorted (H : ScoredHeap) (g : DirectedGraph) (h : Built g) (s : VertexId) (scorefn : ScoreFn) (f : Path → Int)
    (hf : ScoresBy g s scorefn f) (hm : ∀ (p : Path) v, SimplePathFrom g s (p.vertices ++ [v]) → f p ≤ f (p.append v))
    (it : BestFirstIter H) (out : List ScoredPath) (hi : BestFirstIter.from_ g scorefn s = .done it)
    (ho : Returns (Prog.collect (BestFirstIter.next g scorefn) it) out) :
    out.Pairwise fun a b => a.score ≤ b.score := by
  obtain ⟨it', xs, h1, h2, h3, h4, _, h5⟩ := best_drains_order (H := H) h.wf hf
  rw [hi] at h1
  cases h1
  rw [ho.unique h2.collect]
  rw [← List.isChain_iff_pairwise, List.isChain_iff_getElem]
  have hb := h5.order h3 h4
  intro i hi'
  have hget : ∀ k (hk : k < xs.length), (pathsOf xs)[k]? = some xs[k].path.vertices := by
    intro k hk
    unfold pathsOf
    rw [List.getElem?_map, List.getElem?_eq_getElem hk]
    rfl
  obtain ⟨a1, a2, a3⟩ := hb.best i xs[i].path.vertices (hget _ _)
  obtain ⟨b1, b2, b3⟩ := hb.best (i + 1) xs[i + 1].path.vertices (hget _ _)
  rw [(h3 _ (List.getElem_mem _)).2, (h3 _ (List.getElem_mem _)).2]
  have e : (pathsOf xs).take (i + 1) = (pathsOf xs).take i ++ [xs[i].path.vertices] := by
    rw [List.take_add_one, hget]
    rfl
  rw [e] at b1 b2
  obtain ⟨u, hu⟩ := (h3 xs[i] (List.getElem_mem _)).1.last
  rcases (found_snoc hu _).1 b1 with b1 | ⟨v, _, _, _, b1⟩
  · exact a3 _ b1 (fun hn => b2 (List.mem_append_left _ hn))
  · have hs := (h3 xs[i + 1] (List.getElem_mem _)).1
    rw [b1] at hs
    have := hm xs[i].path v hs
    have e' : xs[i + 1].path = xs[i].path.append v := by
      show Path.mk xs[i + 1].path.vertices = _
      rw [b1]; rfl
    rwa [e']

/-- `C124_beginnings` and `C124_sorted` for `exIterGraph`: the beginning `[1, 2]` of the path to 4 was yielded before it, and the scores
1, 21, 31, 421 increase. -/
example (out : List ScoredPath) (ho : ∀ it, BestFirstIter.from_ (H := exHeap) exIterGraph (fun _ p => .done (exDigits p)) 1 = .done it →
      Returns (Prog.collect (BestFirstIter.next exIterGraph (fun _ p => .done (exDigits p))) it) out) :
    (∀ (i : Nat) (sp : ScoredPath), out[i]? = some sp → sp.path = ⟨[1, 2, 4]⟩ → ∃ (j : Nat) (sp' : ScoredPath), j ≤ i ∧ out[j]? = some sp' ∧
      sp'.path.vertices = [1, 2]) ∧ out.Pairwise fun a b => a.score ≤ b.score := by
  refine ⟨fun i sp hsp he => ?_, ?_⟩
  · exact C124_beginnings exHeap exIterGraph exIterGraph_built 1 _ exDigits (fun _ _ => rfl) _ out rfl (ho _ rfl) i sp hsp [1, 2]
      (by rw [he]; decide) (by decide)
  · refine C124_sorted exHeap exIterGraph exIterGraph_built 1 _ exDigits (fun _ _ => rfl) ?_ _ out rfl (ho _ rfl)
    intro p v _
    simp only [exDigits, Path.append, List.map_append, Nat.ofDigits_append]
    omega

/-- C124: without ties between different paths, what is yielded is determined by the edges of the graph and the scores: it does not depend on
the heap, on the order of edges in the graph or on how the graph was built. -/
theorem C124_determined (H H' : ScoredHeap) (g g' : DirectedGraph) (h : Built g) (h' : Built g') (ha : ∀ u v, Adj g u v ↔ Adj g' u v)
    (s : VertexId) (scorefn scorefn' : ScoreFn) (f : Path → Int) (hf : ScoresBy g s scorefn f) (hf' : ScoresBy g' s scorefn' f)
    (hinj : ∀ p q : Path, SimplePathFrom g s p.vertices → SimplePathFrom g s q.vertices → f p = f q → p = q)
    (it : BestFirstIter H) (it' : BestFirstIter H') (out out' : List ScoredPath)
    (hi : BestFirstIter.from_ g scorefn s = .done it) (hi' : BestFirstIter.from_ g' scorefn' s = .done it')
    (ho : Returns (Prog.collect (BestFirstIter.next g scorefn) it) out)
    (ho' : Returns (Prog.collect (BestFirstIter.next g' scorefn') it') out') : out = out' := by
  have hsimple : ∀ l, SimplePathFrom g' s l → SimplePathFrom g s l := fun l hl =>
    ⟨hl.1.imp fun u v h => (ha u v).2 h, hl.2⟩
  obtain ⟨_, xs, h1, h2, h3, h4, _, h5⟩ := best_drains_order (H := H) h.wf hf
  obtain ⟨_, ys, h1', h2', h3', h4', _, h5'⟩ := best_drains_order (H := H') h'.wf hf'
  rw [hi] at h1
  rw [hi'] at h1'
  cases h1
  cases h1'
  rw [ho.unique h2.collect, ho'.unique h2'.collect]
  have hu : pathsOf xs = pathsOf ys := by
    refine BestFirstOrder.unique ?_ (h5.order h3 h4) ((h5'.order h3' h4').congr fun u v => (ha u v).symm)
    intro p hp q hq he
    obtain ⟨a, ha', rfl⟩ := List.mem_map.1 hp
    obtain ⟨b, hb', rfl⟩ := List.mem_map.1 hq
    exact congrArg Path.vertices (hinj a.path b.path (h3 a ha').1 (hsimple _ (h3' b hb').1) he)
  have hx : ∀ zs : List ScoredPath, (∀ sp ∈ zs, sp.score = f sp.path) → zs = (pathsOf zs).map fun l => ⟨⟨l⟩, f ⟨l⟩⟩ := by
    intro zs hz
    unfold pathsOf
    rw [List.map_map]
    conv_lhs => rw [← List.map_id zs]
    refine List.map_congr_left fun sp hsp => ?_
    show sp = ⟨sp.path, f sp.path⟩
    rw [← hz sp hsp]
  rw [hx xs fun sp hsp => (h3 sp hsp).2, hx ys fun sp hsp => (h3' sp hsp).2, hu]

/-- C124: the answer of `shortest_path` is the path to the end in such an order of best-first search. -/
theorem C124_shortest_path (H : ScoredHeap) (g : DirectedGraph) (h : Built g) (start end_ : VertexId) (cost heuristic : ScoreFn)
    (f : Path → Int) (hf : ScoresBy g start (AStar.sumScore cost heuristic) f) :
    ∃ ps, BestFirstOrder g start (fun l => f ⟨l⟩) ps ∧ Returns (AStar.shortestPath H g cost heuristic start end_)
      ((ps.find? fun l => l.getLast? = some end_).map fun l => ⟨⟨l⟩, f ⟨l⟩⟩) := by
  obtain ⟨it, xs, h1, h2, h3, h4, _, h5⟩ := best_drains_order (H := H) h.wf hf
  refine ⟨pathsOf xs, h5.order h3 h4, ?_⟩
  have e : ((pathsOf xs).find? fun l => l.getLast? = some end_).map (fun l => (⟨⟨l⟩, f ⟨l⟩⟩ : ScoredPath)) = xs.find? (AStar.endsAt end_) := by
    unfold pathsOf
    rw [List.find?_map, Option.map_map]
    have : ((fun l => decide (l.getLast? = some end_)) ∘ fun sp : ScoredPath => sp.path.vertices) = AStar.endsAt end_ := rfl
    rw [this]
    cases hfd : xs.find? (AStar.endsAt end_) with
    | none => rfl
    | some sp =>
      show some (⟨sp.path, f sp.path⟩ : ScoredPath) = some sp
      rw [← (h3 sp (List.mem_of_find?_eq_some hfd)).2]
  rw [e]
  unfold AStar.shortestPath
  rw [h1]
  exact Returns.bind (Returns.lift_done _) (h2.find _)

/-- C124: without ties between different paths, the answer of `shortest_path` is determined by the edges of the graph and the scores. -/
theorem C124_shortest_path_determined (H H' : ScoredHeap) (g g' : DirectedGraph) (h : Built g) (h' : Built g')
    (ha : ∀ u v, Adj g u v ↔ Adj g' u v) (start end_ : VertexId) (cost heuristic cost' heuristic' : ScoreFn) (f : Path → Int)
    (hf : ScoresBy g start (AStar.sumScore cost heuristic) f) (hf' : ScoresBy g' start (AStar.sumScore cost' heuristic') f)
    (hinj : ∀ p q : Path, SimplePathFrom g start p.vertices → SimplePathFrom g start q.vertices → f p = f q → p = q)
    (r : Option ScoredPath) (hr : Returns (AStar.shortestPath H g cost heuristic start end_) r) :
    Returns (AStar.shortestPath H' g' cost' heuristic' start end_) r := by
  obtain ⟨it, xs, h1, h2, _⟩ := best_drains_order (H := H) h.wf hf
  obtain ⟨it', ys, h1', h2', _⟩ := best_drains_order (H := H') h'.wf hf'
  have he : xs = ys := C124_determined H H' g g' h h' ha start _ _ f hf hf' hinj it it' xs ys h1 h1' h2.collect h2'.collect
  subst he
  have e1 : Returns (AStar.shortestPath H g cost heuristic start end_) (xs.find? (AStar.endsAt end_)) := by
    unfold AStar.shortestPath
    rw [h1]
    exact Returns.bind (Returns.lift_done _) (h2.find _)
  rw [hr.unique e1]
  unfold AStar.shortestPath
  rw [h1']
  exact Returns.bind (Returns.lift_done _) (h2'.find _)

/-- The edges of `exIterGraph`, added in another order and among others that were removed again. -/
def exIterGraph' : DirectedGraph :=
  GraphCommand.applyCommands [.AddEdge 4 1, .AddEdge 5 1, .AddEdge 1 3, .AddEdge 3 2, .AddEdge 3 4, .AddEdge 2 4, .AddEdge 1 2,
    .RemoveEdge 3 2] .new

theorem exIterGraph'_built : Built exIterGraph' := Built.new.applyCommands _

theorem exIterGraph'_adj (u v : VertexId) : Adj exIterGraph u v ↔ Adj exIterGraph' u v := by
  have h1 : ∀ e ∈ exIterGraph.edges, e ∈ exIterGraph'.edges := by decide
  have h2 : ∀ e ∈ exIterGraph'.edges, e ∈ exIterGraph.edges := by decide
  exact ⟨fun h => exIterGraph'_built.wf.mem_edges.1 (h1 _ (exIterGraph_built.wf.mem_edges.2 h)),
    fun h => exIterGraph_built.wf.mem_edges.1 (h2 _ (exIterGraph'_built.wf.mem_edges.2 h))⟩

theorem exIterGraph_digits (p : Path) (hp : SimplePathFrom exIterGraph 1 p.vertices) : ∀ v ∈ p.vertices, 0 < v.id.toNat ∧ v.id.toNat < 10 := by
  have he : ∀ e ∈ exIterGraph.edges, 0 < e.dst.id.toNat ∧ e.dst.id.toNat < 10 := by decide
  have key : ∀ (l : List VertexId) a, (a :: l).IsChain (Adj exIterGraph) → 0 < a.id.toNat ∧ a.id.toNat < 10 →
      ∀ v ∈ a :: l, 0 < v.id.toNat ∧ v.id.toNat < 10 := by
    intro l
    induction l with
    | nil =>
      intro a _ ha v hv
      rwa [List.mem_singleton.1 hv]
    | cons b l ih =>
      intro a hc ha v hv
      rw [List.isChain_cons_cons] at hc
      rcases List.mem_cons.1 hv with rfl | hv
      · exact ha
      · exact ih b hc.2 (he _ (exIterGraph_built.wf.mem_edges.2 hc.1)) v hv
  obtain ⟨l⟩ := p
  obtain ⟨h1, h2, _⟩ := hp
  cases l with
  | nil => cases h2
  | cons a l =>
    cases h2
    exact key l 1 h1 (by decide)

/-- The score has no ties between the simple paths of `exIterGraph` from 1, because their vertices are digits other than 0. -/
theorem exDigits_inj (p q : Path) (hp : SimplePathFrom exIterGraph 1 p.vertices) (hq : SimplePathFrom exIterGraph 1 q.vertices)
    (h : exDigits p = exDigits q) : p = q := by
  have hd : ∀ p : Path, SimplePathFrom exIterGraph 1 p.vertices →
      Nat.digits 10 (Nat.ofDigits 10 (p.vertices.map fun v => v.id.toNat)) = p.vertices.map fun v => v.id.toNat := by
    intro p hp
    refine Nat.digits_ofDigits 10 (by decide) _ ?_ ?_
    · intro d hd
      obtain ⟨v, hv, rfl⟩ := List.mem_map.1 hd
      exact (exIterGraph_digits p hp v hv).2
    · intro hne
      obtain ⟨v, hv, he⟩ := List.mem_map.1 (List.getLast_mem hne)
      rw [← he]
      exact Nat.pos_iff_ne_zero.1 (exIterGraph_digits p hp v hv).1
  have e : Nat.ofDigits 10 (p.vertices.map fun v => v.id.toNat) = Nat.ofDigits 10 (q.vertices.map fun v => v.id.toNat) := by
    unfold exDigits at h
    exact_mod_cast h
  have e2 : (p.vertices.map fun v => v.id.toNat) = q.vertices.map fun v => v.id.toNat := by rw [← hd p hp, ← hd q hq, e]
  have hi : Function.Injective fun v : VertexId => v.id.toNat := by
    rintro ⟨a⟩ ⟨b⟩ h
    exact congrArg VertexId.mk (UInt64.toNat_inj.1 h)
  obtain ⟨a⟩ := p
  obtain ⟨b⟩ := q
  exact congrArg Path.mk (List.map_injective_iff.2 hi e2)

/-- `C124_determined` for `exIterGraph` and `exIterGraph'`: any heap yields for the second what `exHeap` yields for the first. -/
example (H : ScoredHeap) (it : BestFirstIter H) (out : List ScoredPath)
    (hi : BestFirstIter.from_ exIterGraph' (fun _ p => .done (exDigits p)) 1 = .done it)
    (ho : Returns (Prog.collect (BestFirstIter.next exIterGraph' (fun _ p => .done (exDigits p))) it) out) :
    out = [⟨⟨[1]⟩, 1⟩, ⟨⟨[1, 2]⟩, 21⟩, ⟨⟨[1, 3]⟩, 31⟩, ⟨⟨[1, 2, 4]⟩, 421⟩] :=
  C124_determined H exHeap exIterGraph' exIterGraph exIterGraph'_built exIterGraph_built (fun u v => (exIterGraph'_adj u v).symm) 1
    _ (fun _ p => .done (exDigits p)) exDigits (fun _ _ => rfl) (fun _ _ => rfl)
    (fun p q hp hq => exDigits_inj p q ⟨hp.1.imp fun u v h => (exIterGraph'_adj u v).2 h, hp.2⟩
      ⟨hq.1.imp fun u v h => (exIterGraph'_adj u v).2 h, hq.2⟩) it _ out _ hi rfl ho
    (Mono.returns (n := 9) (Mono.collect mono_best _) (by decide))

/-- The scores are `i64`: a simple path from 1 has at most six vertices. -/
theorem exDigits_scores {g : DirectedGraph} (ha : ∀ u v, Adj exIterGraph u v ↔ Adj g u v) :
    ScoresBy g 1 (AStar.sumScore (fun _ p => .done (exDigits p)) AStar.zeroHeuristic) exDigits := by
  intro p hp
  have hp' : SimplePathFrom exIterGraph 1 p.vertices := ⟨hp.1.imp fun u v h => (ha u v).2 h, hp.2⟩
  have h1 := SimplePathFrom.length_le exIterGraph_built.wf hp'
  have h2 : exIterGraph.vertices.length = 5 := by decide
  have h3 : Nat.ofDigits 10 (p.vertices.map fun v => v.id.toNat) < 10 ^ (p.vertices.map fun v => v.id.toNat).length :=
    Nat.ofDigits_lt_base_pow_length (by decide) fun d hd => by
      obtain ⟨v, hv, rfl⟩ := List.mem_map.1 hd
      exact (exIterGraph_digits p hp' v hv).2
  have h4 : 10 ^ (p.vertices.map fun v => v.id.toNat).length ≤ 10 ^ 6 :=
    Nat.pow_le_pow_right (by decide) (by rw [List.length_map]; omega)
  unfold AStar.sumScore AStar.zeroHeuristic addI64
  rw [Run.bind_done, Run.bind_done, if_pos (by unfold exDigits; omega), Int.add_zero]

/-- `C124_shortest_path` and `C124_shortest_path_determined` for `exIterGraph`, with the score as cost and no heuristic: from the order
found there, any heap answers the path through 2 to vertex 4, also for `exIterGraph'`. -/
example (H : ScoredHeap) :
    (∃ ps, BestFirstOrder exIterGraph 1 (fun l => exDigits ⟨l⟩) ps ∧
      Returns (AStar.shortestPath exHeap exIterGraph (fun _ p => .done (exDigits p)) AStar.zeroHeuristic 1 4)
        ((ps.find? fun l => l.getLast? = some 4).map fun l => ⟨⟨l⟩, exDigits ⟨l⟩⟩)) ∧
    Returns (AStar.shortestPath H exIterGraph' (fun _ p => .done (exDigits p)) AStar.zeroHeuristic 1 4) (some ⟨⟨[1, 2, 4]⟩, 421⟩) := by
  have h0 : ∀ u v, Adj exIterGraph u v ↔ Adj exIterGraph u v := fun _ _ => .rfl
  have h3 := C124_shortest_path_determined exHeap H exIterGraph exIterGraph' exIterGraph_built exIterGraph'_built exIterGraph'_adj 1 4
    _ _ (fun _ p => .done (exDigits p)) AStar.zeroHeuristic exDigits (exDigits_scores h0) (exDigits_scores exIterGraph'_adj) exDigits_inj
    (some ⟨⟨[1, 2, 4]⟩, 421⟩)
    (Mono.returns (n := 9) (Mono.bind (Mono.lift _) fun s => Mono.find mono_best _ _) (by decide +kernel))
  exact ⟨C124_shortest_path exHeap exIterGraph exIterGraph_built 1 4 _ _ exDigits (exDigits_scores h0), h3⟩

end GC
