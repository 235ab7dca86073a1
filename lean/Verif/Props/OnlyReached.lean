/-
C146: which weights the weighted searches look at.
-/
import Verif.Proofs.OnlyReached
import Verif.Props.Fit
import Verif.Props.Attribute
import Verif.Props.MaxFlow
namespace GC
open ShortestPath LongestPath AttributeCommand

/-- C146: `bellman_ford` from `s` gives the same for weights that agree on the edges leaving vertices reachable from `s`. -/
theorem C146_bellman_ford (g : DirectedGraph) (h : Built g) (w w' : WeightFn) (s : VertexId)
    (hw : ∀ e, g.containsEdge e = true → Reach g s e.src → w e = w' e) : bellmanFord g w s = bellmanFord g w' s :=
  bellmanFord_agree h.wf hw

/-- C146: the same for `spfa`, also if it panics or does not return. -/
theorem C146_spfa (g : DirectedGraph) (h : Built g) (w w' : WeightFn) (s : VertexId)
    (hw : ∀ e, g.containsEdge e = true → Reach g s e.src → w e = w' e) : spfa g w s = spfa g w' s :=
  spfa_agree h.wf hw

/-- C146: the same for `dag_shortest_paths` and `dag_longest_paths`; a closure of the first may even panic on other edges. -/
theorem C146_dag (g : DirectedGraph) (h : Built g) (s : VertexId) :
    (∀ f f' : PartialWeightFn, (∀ e, g.containsEdge e = true → Reach g s e.src → f e = f' e) →
      dagShortestPathsWith ⟨g⟩ f s = dagShortestPathsWith ⟨g⟩ f' s) ∧
    ∀ w w' : WeightFn, (∀ e, g.containsEdge e = true → Reach g s e.src → w e = w' e) →
      dagShortestPaths ⟨g⟩ w s = dagShortestPaths ⟨g⟩ w' s ∧ dagLongestPaths ⟨g⟩ w s = dagLongestPaths ⟨g⟩ w' s := by
  refine ⟨fun f f' hf => dagShortestPathsWith_agree h.wf hf, fun w w' hw => ⟨?_, ?_⟩⟩
  · exact dagShortestPathsWith_agree h.wf fun e he hr => by rw [pureFn, pureFn, hw e he hr]
  · unfold dagLongestPaths
    rw [dagShortestPathsWith_agree h.wf fun e he hr => by rw [hw e he hr]]

/-- Weights that differ on an edge of the graph that cannot be reached: from 2 the edge 1 → 2 of `exWeighted` is not seen. -/
example : exWeighted.containsEdge ⟨1, 2⟩ = true ∧
    ∀ e, exWeighted.containsEdge e = true → Reach exWeighted 2 e.src → exWeights e = (if e = ⟨1, 2⟩ then 77 else exWeights e) := by
  refine ⟨by decide, fun e he hr => ?_⟩
  rw [if_neg]
  rintro rfl
  rcases hr.cases_tail with h1 | ⟨u, _, hu⟩
  · cases h1
  · have hm := ((C02_listings_exact exWeighted exWeighted_built).2.2.2 ⟨u, 1⟩).2 hu
    have : ∀ e ∈ exWeighted.edges, e.dst ≠ 1 := by decide
    exact this _ hm rfl

/-- C146: and each of these weights is needed: if the edge is in the graph and leaves a vertex that can be reached, there are weights
that differ on this edge only and give different answers. -/
theorem C146_each_matters (g : DirectedGraph) (h : Built g) (hsize : g.vertexCount < 2 ^ 63 - 1) (s : VertexId) (e : Edge) :
    ((∀ w w' : WeightFn, (∀ x, x ≠ e → w x = w' x) → bellmanFord g w s = bellmanFord g w' s) ↔
      ¬ (g.containsEdge e = true ∧ Reach g s e.src)) ∧
    ((∀ w w' : WeightFn, (∀ x, x ≠ e → w x = w' x) → spfa g w s = spfa g w' s) ↔
      ¬ (g.containsEdge e = true ∧ Reach g s e.src)) := by
  have ok : ¬ (g.containsEdge e = true ∧ Reach g s e.src) → ∀ w w' : WeightFn, (∀ x, x ≠ e → w x = w' x) →
      ∀ x, g.containsEdge x = true → Reach g s x.src → w x = w' x := by
    intro hn w w' hw x hx hr
    refine hw x ?_
    rintro rfl
    exact hn ⟨hx, hr⟩
  have zero : SmallWeights g (fun _ => 0) := fun x _ => by norm_num
  have one : SmallWeights g (fun x => if x = e then -1 else 0) := by
    intro x _
    show |if x = e then (-1 : Int) else 0| * _ < _
    split
    · rw [abs_neg, abs_one, one_mul]; omega
    · norm_num
  have weight : ∀ l : List VertexId, walkWeight (fun _ => 0) l = 0 := by
    intro l
    induction l with
    | nil => rfl
    | cons a l ih =>
      cases l with
      | nil => rfl
      | cons b l => rw [walkWeight, ih]; rfl
  have noneg : ¬ NegativeCycle g (fun _ => 0) s := by
    rintro ⟨v, c, _, _, hc⟩
    rw [weight] at hc
    exact absurd hc (lt_irrefl _)
  have absurd' : ∀ sc, Reports g (fun _ => 0) s sc → Reports g (fun x => if x = e then -1 else 0) s sc →
      ¬ (g.containsEdge e = true ∧ Reach g s e.src) := by
    rintro sc h0 h1 ⟨he, hr⟩
    have l0 := reports_lightest h zero h0
    obtain ⟨⟨v, sp⟩, hm, hv⟩ := List.mem_map.1 ((l0.2.1 e.src).2 hr)
    simp only at hv
    subst hv
    have h2 := (l0.2.2 _ _ hm).2.1
    rw [weight] at h2
    obtain ⟨b, ⟨sp', hm', hb⟩, hlt⟩ := (C141_equations g h _ one s sc h1).2.1 e.src e.dst 0 he ⟨sp, hm, h2⟩
    have h3 := (l0.2.2 _ _ hm').2.1
    rw [weight] at h3
    have hx : (if (⟨e.src, e.dst⟩ : Edge) = e then (-1 : Int) else 0) = -1 := if_pos rfl
    rw [hx] at hlt
    omega
  refine ⟨⟨fun hall => ?_, fun hn w w' hw => C146_bellman_ford g h w w' s (ok hn w w' hw)⟩,
    ⟨fun hall => ?_, fun hn w w' hw => C146_spfa g h w w' s (ok hn w w' hw)⟩⟩
  · obtain ⟨sc, hsc, _⟩ := C43_bellman_ford_returns g h _ zero s noneg
    have h1 := hall (fun _ => 0) (fun x => if x = e then -1 else 0) fun x hx => by simp [hx]
    exact absurd' sc (.inl hsc) (.inl (h1 ▸ hsc))
  · obtain ⟨sc, hsc⟩ := (C45_spfa_returns_iff g h _ zero s).1.2 noneg
    have h1 := hall (fun _ => 0) (fun x => if x = e then -1 else 0) fun x hx => by simp [hx]
    exact absurd' sc (.inr (.inl hsc)) (.inr (.inl (h1 ▸ hsc)))

example : Built exWeighted ∧ exWeighted.vertexCount < 2 ^ 63 - 1 ∧ exWeighted.containsEdge ⟨1, 3⟩ = true ∧ Reach exWeighted 1 1 :=
  ⟨exWeighted_built, by decide, by decide, .refl⟩

/-- C146: `max_flow` looks at the capacities of the edges of the graph only. -/
theorem C146_max_flow (g : DirectedGraph) (h : Built g) (cap cap' : Edge → UInt64)
    (hc : ∀ e, g.containsEdge e = true → cap e = cap' e) (s t : VertexId) : MaxFlow.maxFlow g cap s t = MaxFlow.maxFlow g cap' s t := by
  have : ∀ (l : List Edge), (∀ e ∈ l, g.containsEdge e = true) → ∀ m : MaxFlow.FlowMap,
      l.foldl (fun m e => HMap.insert m e (0, (cap e).toNat)) m = l.foldl (fun m e => HMap.insert m e (0, (cap' e).toNat)) m := by
    intro l
    induction l with
    | nil => intro _ m; rfl
    | cons e l ih =>
      intro hl m
      rw [List.foldl_cons, List.foldl_cons, hc e (hl e (by simp)), ih fun x hx => hl x (by simp [hx])]
  unfold MaxFlow.maxFlow MaxFlow.initialFlow
  rw [this _ fun e he => h.wf.mem_edges.1 he]

example : Built exWeighted ∧ ∀ e, exWeighted.containsEdge e = true → (5 : UInt64) = if exWeighted.containsEdge e then 5 else 0 :=
  ⟨exWeighted_built, fun e he => by rw [if_pos he]⟩

/-- C146: weights kept in an attribute mapping: attribute commands about edges that are not in the graph or cannot be reached do not
change the answer. -/
theorem C146_attributes (g : DirectedGraph) (h : Built g) (name : Text) (cs ds : List (AttributeCommand Int)) (d : Int) (s : VertexId)
    (hd : ∀ e, g.containsEdge e = true → Reach g s e.src → ∀ c ∈ ds, ¬ TouchesEdge e c) :
    let w := (applyEdgeCommandsTo cs (.new name)).asClosureWithDefaults d
    let w' := (applyEdgeCommandsTo (cs ++ ds) (.new name)).asClosureWithDefaults d
    bellmanFord g w' s = bellmanFord g w s ∧ spfa g w' s = spfa g w s ∧ dagShortestPaths ⟨g⟩ w' s = dagShortestPaths ⟨g⟩ w s ∧
      dagLongestPaths ⟨g⟩ w' s = dagLongestPaths ⟨g⟩ w s := by
  intro w w'
  have hw : ∀ e, g.containsEdge e = true → Reach g s e.src → w' e = w e := by
    intro e he hr
    have hn := hd e he hr
    have : ∀ x, EdgeHas (cs ++ ds) e x ↔ EdgeHas cs e x := by
      intro x
      clear hd
      induction ds using List.reverseRecOn with
      | nil => simp
      | append_singleton ds c ih =>
        rw [← ih fun c hc => hn c (by simp [hc])]
        have hc := hn c (by simp)
        constructor
        · rintro ⟨pre, post, he, hp⟩
          rcases List.eq_nil_or_concat post with rfl | ⟨post, y, rfl⟩
          · have he' : (cs ++ ds) ++ [c] = pre ++ [.AddEdgeAttr e.src e.dst x] := by simpa using he
            have h2 := List.append_inj_right' he' rfl
            simp only [List.cons.injEq, and_true] at h2
            exact absurd (.inl ⟨x, h2⟩) hc
          · have he' : (cs ++ ds) ++ [c] = (pre ++ .AddEdgeAttr e.src e.dst x :: post) ++ [y] := by simpa using he
            exact ⟨pre, post, List.append_inj_left' he' rfl, fun z hz => hp z (by simp [hz])⟩
        · rintro ⟨pre, post, he, hp⟩
          refine ⟨pre, post ++ [c], by rw [← List.append_assoc, he]; simp, fun z hz => ?_⟩
          rcases List.mem_append.1 hz with hz | hz
          · exact hp z hz
          · rw [List.mem_singleton.1 hz]; exact hc
    have k : HMap.get? (applyEdgeCommandsTo (cs ++ ds) (.new name)).mapping e = HMap.get? (applyEdgeCommandsTo cs (.new name)).mapping e := by
      ext x
      have h1 := (C66_edge_lookup name (cs ++ ds) e).1 x
      have h2 := (C66_edge_lookup name cs e).1 x
      exact h1.trans ((this x).trans h2.symm)
    show (HMap.get? _ e).getD d = (HMap.get? _ e).getD d
    rw [k]
  exact ⟨C146_bellman_ford g h w' w s hw, C146_spfa g h w' w s hw, ((C146_dag g h s).2 w' w hw).1, ((C146_dag g h s).2 w' w hw).2⟩

/-- An attribute of an edge that is not in the graph. -/
example : ∀ e, exWeighted.containsEdge e = true → Reach exWeighted 1 e.src →
    ∀ c ∈ [AttributeCommand.AddEdgeAttr 4 1 (9 : Int)], ¬ TouchesEdge e c := by
  intro e he _ c hc
  rw [List.mem_singleton] at hc
  subst hc
  rintro (⟨x, hx⟩ | hx)
  · injection hx with h1 h2
    obtain ⟨a, b⟩ := e
    simp only at h1 h2
    subst h1 h2
    exact absurd he (by decide)
  · cases hx

end GC
