/-
Properties C54-C56: max_flow.
-/
import Verif.Proofs.MaxFlow
namespace GC
open DirectedGraph Path MaxFlow

theorem maxFlow_result {g : DirectedGraph} (h : Built g) {cap : Edge → UInt64} {s t : VertexId} (hst : s ≠ t) {r : Nat × FlowMap}
    (hr : Returns (maxFlow g cap s t) r) : Result g cap s t r := by
  rcases maxFlow_spec h.wf cap hst with ⟨r', h1, h2, _⟩ | ⟨h1, _⟩
  · exact h1.unique hr ▸ h2
  · exact absurd h1 hr.not_panics

theorem maxFlow_lt {g : DirectedGraph} (h : Built g) {cap : Edge → UInt64} {s t : VertexId} (hst : s ≠ t) {r : Nat × FlowMap}
    (hr : Returns (maxFlow g cap s t) r) : r.1 < 2 ^ 64 := by
  rcases maxFlow_spec h.wf cap hst with ⟨r', h1, _, h2⟩ | ⟨h1, _⟩
  · exact h1.unique hr ▸ h2
  · exact absurd h1 hr.not_panics

/-- Example network: 1→2→4, 1→3→4, 2→3. -/
def exNetwork : DirectedGraph :=
  GraphCommand.applyCommands [.AddEdge 1 2, .AddEdge 2 4, .AddEdge 1 3, .AddEdge 3 4, .AddEdge 2 3] .new

/-- Example capacities. -/
def exCapacity (e : Edge) : UInt64 := if e = ⟨1, 2⟩ then 7 else if e = ⟨2, 4⟩ then 3 else if e = ⟨2, 3⟩ then 10 else 5

/-! ### C54: the returned flow is feasible -/

/-- C54: `max_flow` returns the capacity of every edge together with a flow `f` that respects the capacities and is conserved; the reported
value is the flow leaving `s` and the flow entering `t`, and nothing enters `s` or leaves `t`. -/
theorem C54_feasible (g : DirectedGraph) (h : Built g) (cap : Edge → UInt64) (s t : VertexId) (hst : s ≠ t) (n : Nat) (m : FlowMap)
    (hr : Returns (maxFlow g cap s t) (n, m)) :
    ∃ f : Edge → Nat, (∀ e, HMap.get? m e = if g.containsEdge e = true then some (f e, (cap e).toNat) else none) ∧
      Feasible g cap s t f ∧ outFlow g f s = n ∧ inFlow g f s = 0 ∧ inFlow g f t = n ∧ outFlow g f t = 0 := by
  obtain ⟨f, h1, h2, _⟩ := maxFlow_result h hst hr
  have e1 : inFlow g f s = 0 := Finset.sum_eq_zero fun e he => h2.intoStart e (Finset.mem_filter.1 he).2
  have e2 : outFlow g f t = 0 := Finset.sum_eq_zero fun e he => h2.outOfEnd e (Finset.mem_filter.1 he).2
  have e3 := h2.value
  have e4 := netOut_target h.wf hst h2.net
  rw [e3] at e4
  unfold netOut at e3 e4
  exact ⟨f, h1.2, h2.feasible, by simp only at e3; omega, e1, by simp only at e4; omega, e2⟩

/-- The value and, in the order of the edge map, the flow on each edge. -/
def flowsOf (r : Run (Nat × FlowMap)) : Run (Nat × List (Edge × Nat)) := r.bind fun p => .done (p.1, p.2.map fun q => (q.1, q.2.1))

example : flowsOf (maxFlow exNetwork exCapacity 1 4 30) =
    .done (8, [(⟨1, 2⟩, 3), (⟨1, 3⟩, 5), (⟨2, 4⟩, 3), (⟨2, 3⟩, 0), (⟨3, 4⟩, 5)]) := by decide

/-! ### C55: maximality -/

/-- C55: no path from `s` to `t` can take more flow, and the reported value is at most the capacity of every cut.
Missing: the value may be smaller than that of another flow, see `C55_counterexample`. -/
theorem C55_blocking_partial (g : DirectedGraph) (h : Built g) (cap : Edge → UInt64) (s t : VertexId) (hst : s ≠ t) (n : Nat) (m : FlowMap)
    (hr : Returns (maxFlow g cap s t) (n, m)) :
    (∀ S, IsCut s t S → n ≤ cutCapacity g cap S) ∧
    ∀ l, WalkFromTo g s t l → ∃ e, Traverses ⟨l⟩ e ∧ HMap.get? m e = some ((cap e).toNat, (cap e).toNat) := by
  obtain ⟨f, h1, h2, h3⟩ := maxFlow_result h hst hr
  refine ⟨fun S hS => ?_, fun l hl => ?_⟩
  · have := h2.feasible.le_cut h.wf hS
    have := h2.value
    simp only at this
    omega
  · by_contra hno
    refine no_reach h3 ?_
    have hes : ∀ e ∈ edgesOf l, f e < (cap e).toNat := by
      intro e he
      have hc := edgesOf_adj hl.1 he
      rcases Nat.lt_or_eq_of_le (h2.le e hc) with hlt | heq
      · exact hlt
      · exact absurd ⟨e, mem_edgesOf.1 he, by rw [h1.2 e, if_pos hc, heq]⟩ hno
    clear hno hr
    obtain ⟨k1, k2, k3⟩ := hl
    clear hst h1 h2 h3
    induction l generalizing s with
    | nil => cases k2
    | cons a l ih =>
      simp only [List.head?_cons, Option.some.injEq] at k2
      subst k2
      rcases l with _ | ⟨b, l⟩
      · simp only [List.getLast?_singleton, Option.some.injEq] at k3
        subst k3
        exact .refl
      · rw [List.isChain_cons_cons] at k1
        exact .head ⟨k1.1, hes _ (by simp [edgesOf])⟩ (ih b (fun e he => hes e (by simp [edgesOf, he])) k1.2 rfl (by simpa using k3))

/-- C55: the reported value is the maximum if every vertex other than `s` and `t` has at most one incoming edge.
Missing: other graphs, see `C55_counterexample`. -/
theorem C55_single_entry_partial (g : DirectedGraph) (h : Built g) (cap : Edge → UInt64) (s t : VertexId) (hst : s ≠ t)
    (hin : ∀ u u' v, v ≠ s → v ≠ t → Adj g u v → Adj g u' v → u = u') (n : Nat) (m : FlowMap)
    (hr : Returns (maxFlow g cap s t) (n, m)) : IsMaxFlowValue g cap s t n := by
  classical
  obtain ⟨f, h1, h2, h3⟩ := maxFlow_result h hst hr
  let R := Relation.ReflTransGen (fun u v => Adj g u v ∧ f ⟨u, v⟩ < (cap ⟨u, v⟩).toNat)
  refine h2.feasible.max_of_cut h.wf (S := fun v => decide (R s v)) ⟨by simpa using (.refl : R s s), by simpa using no_reach h3⟩ ?_ ?_ h2.value
  · intro u v ha hu hv
    simp only [decide_eq_true_eq, decide_eq_false_iff_not] at hu hv
    rcases Nat.lt_or_eq_of_le (h2.le ⟨u, v⟩ ha) with hlt | heq
    · exact absurd (hu.tail ⟨ha, hlt⟩) hv
    · exact heq
  · intro u v ha hu hv
    simp only [decide_eq_true_eq, decide_eq_false_iff_not] at hu hv
    by_cases hs : v = s
    · exact h2.intoStart _ hs
    · have ht : v ≠ t := by
        rintro rfl
        exact no_reach h3 hv
      rcases Relation.ReflTransGen.cases_tail hv with e | ⟨w, hw, ha', _⟩
      · exact absurd e hs
      · exact absurd (hin u w v hs ht ha ha' ▸ hw) hu

/-- C55: the reported value is the maximum if every vertex other than `s` and `t` has at most one outgoing edge.
Missing: other graphs, see `C55_counterexample`. -/
theorem C55_single_exit_partial (g : DirectedGraph) (h : Built g) (cap : Edge → UInt64) (s t : VertexId) (hst : s ≠ t)
    (hout : ∀ u v v', u ≠ s → u ≠ t → Adj g u v → Adj g u v' → v = v') (n : Nat) (m : FlowMap)
    (hr : Returns (maxFlow g cap s t) (n, m)) : IsMaxFlowValue g cap s t n := by
  classical
  obtain ⟨f, h1, h2, h3⟩ := maxFlow_result h hst hr
  let R := Relation.ReflTransGen (fun u v => Adj g u v ∧ f ⟨u, v⟩ < (cap ⟨u, v⟩).toNat)
  refine h2.feasible.max_of_cut h.wf (S := fun v => decide (¬ R v t)) ⟨by simpa using no_reach h3, by simpa using (.refl : R t t)⟩ ?_ ?_ h2.value
  · intro u v ha hu hv
    simp only [decide_eq_true_eq, decide_eq_false_iff_not, not_not] at hu hv
    rcases Nat.lt_or_eq_of_le (h2.le ⟨u, v⟩ ha) with hlt | heq
    · exact absurd (Relation.ReflTransGen.head ⟨ha, hlt⟩ hv) hu
    · exact heq
  · intro u v ha hu hv
    simp only [decide_eq_true_eq, decide_eq_false_iff_not, not_not] at hu hv
    by_cases ht : u = t
    · exact h2.outOfEnd _ ht
    · have hs : u ≠ s := by
        rintro rfl
        exact no_reach h3 hu
      rcases Relation.ReflTransGen.cases_head hu with e | ⟨w, ⟨ha', _⟩, hw⟩
      · exact absurd e ht
      · exact absurd (hout u v w hs ht ha ha' ▸ hw) hv

/-- Example network with one entry and one exit per inner vertex: 1→2→4, 1→3→4. -/
def exParallel : DirectedGraph := GraphCommand.applyCommands [.AddEdge 1 2, .AddEdge 2 4, .AddEdge 1 3, .AddEdge 3 4] .new

example : (∀ u u' v, v ≠ 1 → v ≠ 4 → Adj exParallel u v → Adj exParallel u' v → u = u') ∧
    (∀ u v v', u ≠ 1 → u ≠ 4 → Adj exParallel u v → Adj exParallel u v' → v = v') ∧
    (flowsOf (maxFlow exParallel exCapacity 1 4 30)).bind (fun r => .done r.1) = .done 8 := by
  have key : ∀ u v, Adj exParallel u v → (⟨u, v⟩ : Edge) ∈ [(⟨1, 2⟩ : Edge), ⟨1, 3⟩, ⟨2, 4⟩, ⟨3, 4⟩] := by
    intro u v h
    have := ((Built.new.applyCommands [.AddEdge 1 2, .AddEdge 2 4, .AddEdge 1 3, .AddEdge 3 4]).wf.mem_edges).2 h
    have e : (GraphCommand.applyCommands [.AddEdge 1 2, .AddEdge 2 4, .AddEdge 1 3, .AddEdge 3 4] .new).edges =
      [⟨1, 2⟩, ⟨1, 3⟩, ⟨2, 4⟩, ⟨3, 4⟩] := by decide
    rw [e] at this
    exact this
  refine ⟨?_, ?_, by decide⟩
  · intro u u' v h1 h4 ha hb
    have ha := key u v ha
    have hb := key u' v hb
    have d : ∀ a ∈ [(⟨1, 2⟩ : Edge), ⟨1, 3⟩, ⟨2, 4⟩, ⟨3, 4⟩], ∀ b ∈ [(⟨1, 2⟩ : Edge), ⟨1, 3⟩, ⟨2, 4⟩, ⟨3, 4⟩],
      a.dst = b.dst → a.dst ≠ 4 → a.src = b.src := by decide
    exact d _ ha _ hb rfl h4
  · intro u v v' h1 h4 ha hb
    have ha := key u v ha
    have hb := key u v' hb
    have d : ∀ a ∈ [(⟨1, 2⟩ : Edge), ⟨1, 3⟩, ⟨2, 4⟩, ⟨3, 4⟩], ∀ b ∈ [(⟨1, 2⟩ : Edge), ⟨1, 3⟩, ⟨2, 4⟩, ⟨3, 4⟩],
      a.src = b.src → a.src ≠ 1 → a.dst = b.dst := by decide
    exact d _ ha _ hb rfl h1

/-- C55: the reported value is 0 exactly when the maximum is 0. -/
theorem C55_zero_partial (g : DirectedGraph) (h : Built g) (cap : Edge → UInt64) (s t : VertexId) (hst : s ≠ t) (n : Nat) (m : FlowMap)
    (hr : Returns (maxFlow g cap s t) (n, m)) : n = 0 ↔ IsMaxFlowValue g cap s t 0 := by
  classical
  obtain ⟨f, h1, h2, h3⟩ := maxFlow_result h hst hr
  constructor
  · rintro rfl
    have hz := h2.zero rfl
    let R := Relation.ReflTransGen (fun u v => Adj g u v ∧ f ⟨u, v⟩ < (cap ⟨u, v⟩).toNat)
    refine h2.feasible.max_of_cut h.wf (S := fun v => decide (R s v)) ⟨by simpa using (.refl : R s s), by simpa using no_reach h3⟩ ?_ ?_
      h2.value
    · intro u v ha hu hv
      simp only [decide_eq_true_eq, decide_eq_false_iff_not] at hu hv
      rcases Nat.lt_or_eq_of_le (h2.le ⟨u, v⟩ ha) with hlt | heq
      · exact absurd (hu.tail ⟨ha, hlt⟩) hv
      · exact heq
    · exact fun u v _ _ _ => hz _
  · rintro ⟨_, hm⟩
    have := hm f h2.feasible
    have := h2.value
    simp only at this
    omega

/-- C55: no flow has a value above the reported value times half the number of vertices, rounded down. With at most three vertices the
reported value is the maximum.
Missing: with more vertices it may be smaller than the maximum, see `C55_counterexample`. -/
theorem C55_ratio_partial (g : DirectedGraph) (h : Built g) (cap : Edge → UInt64) (s t : VertexId) (hst : s ≠ t) (n : Nat) (m : FlowMap)
    (hr : Returns (maxFlow g cap s t) (n, m)) :
    (∀ f, Feasible g cap s t f → netOut g f s ≤ (n * (g.vertexCount / 2) : Nat)) ∧ (g.vertexCount ≤ 3 → IsMaxFlowValue g cap s t n) := by
  classical
  obtain ⟨f, h1, h2, h3⟩ := maxFlow_result h hst hr
  let R := Relation.ReflTransGen (fun u v => Adj g u v ∧ f ⟨u, v⟩ < (cap ⟨u, v⟩).toNat)
  have key : ∀ f', Feasible g cap s t f' → netOut g f' s ≤ (n * (g.vertexCount / 2) : Nat) := by
    intro f' hf'
    have k1 := hf'.le_cut h.wf (S := fun v => decide (R s v)) ⟨by simpa using (.refl : R s s), by simpa using no_reach h3⟩
    have k2 := h2.cross (fun v => decide (R s v))
    have e1 : crossOut g f (fun v => decide (R s v)) = cutCapacity g cap (fun v => decide (R s v)) := by
      refine Finset.sum_congr rfl fun e he => ?_
      simp only [Finset.mem_filter, List.mem_toFinset, decide_eq_true_eq, decide_eq_false_iff_not] at he
      have hc := h.wf.mem_edges.1 he.1
      rcases Nat.lt_or_eq_of_le (h2.le e hc) with hlt | heq
      · exact absurd (Relation.ReflTransGen.tail he.2.1 ⟨hc, hlt⟩) he.2.2
      · exact heq
    simp only at k2
    omega
  refine ⟨key, fun hv => ⟨⟨f, h2.feasible, h2.value⟩, fun f' hf' => ?_⟩⟩
  have k1 := key f' hf'
  have k2 : n * (g.vertexCount / 2) ≤ n * 1 := Nat.mul_le_mul_left _ (by omega)
  omega

example : exNetwork.vertexCount = 4 ∧ (flowsOf (maxFlow exNetwork exCapacity 1 4 30)).bind (fun r => .done r.1) = .done 8 := by decide

/-- Example network with three vertices: 1→2→3, 1→3. -/
def exTriangle : DirectedGraph := GraphCommand.applyCommands [.AddEdge 1 2, .AddEdge 2 3, .AddEdge 1 3] .new

example : exTriangle.vertexCount = 3 ∧ (flowsOf (maxFlow exTriangle exCapacity 1 3 30)).bind (fun r => .done r.1) = .done 12 := by decide

theorem mono_find (g : DirectedGraph) (m : FlowMap) (s t : VertexId) : Mono (findAugmentingPath g m s t) := by
  refine Mono.loop (fun q => ?_) _
  unfold nextStep
  split
  · exact Mono.ret _
  · exact Mono.lift _

theorem mono_maxFlow (g : DirectedGraph) (cap : Edge → UInt64) (s t : VertexId) : Mono (maxFlow g cap s t) := by
  refine Mono.loop (fun q => ?_) _
  unfold step
  refine Mono.bind (mono_find _ _ _ _) fun r => ?_
  rcases r with _ | ⟨p, c⟩
  · exact Mono.ret _
  · exact Mono.lift _

/-- `C54_feasible`, `C55_blocking_partial`, `C55_zero_partial` and `C55_ratio_partial` for the flow of value 8 in `exNetwork`: no feasible flow has
a value above 16, and the flow is not zero. -/
example : ∃ m, Returns (maxFlow exNetwork exCapacity 1 4) (8, m) ∧
    (∃ f, Feasible exNetwork exCapacity 1 4 f ∧ outFlow exNetwork f 1 = 8 ∧ inFlow exNetwork f 4 = 8) ∧
    (∀ S, IsCut 1 4 S → 8 ≤ cutCapacity exNetwork exCapacity S) ∧ ¬ IsMaxFlowValue exNetwork exCapacity 1 4 0 ∧
    ∀ f, Feasible exNetwork exCapacity 1 4 f → netOut exNetwork f 1 ≤ 16 := by
  have hb : Built exNetwork := Built.new.applyCommands _
  have h1 : flowsOf (maxFlow exNetwork exCapacity 1 4 30) =
    .done (8, [(⟨1, 2⟩, 3), (⟨1, 3⟩, 5), (⟨2, 4⟩, 3), (⟨2, 3⟩, 0), (⟨3, 4⟩, 5)]) := by decide +kernel
  obtain ⟨m, hm⟩ : ∃ m, maxFlow exNetwork exCapacity 1 4 30 = .done (8, m) := by
    cases h : maxFlow exNetwork exCapacity 1 4 30 with
    | running => rw [h] at h1; cases h1
    | panicked => rw [h] at h1; cases h1
    | done r =>
      rw [h] at h1
      have : r.1 = 8 := congrArg Prod.fst (Run.done.inj h1)
      exact ⟨r.2, by rw [← this]⟩
  have hr := (mono_maxFlow exNetwork exCapacity 1 4).returns hm
  obtain ⟨f, _, h2, h3, _, h4, _⟩ := C54_feasible exNetwork hb exCapacity 1 4 (by decide) 8 m hr
  refine ⟨m, hr, ⟨f, h2, h3, h4⟩, (C55_blocking_partial exNetwork hb exCapacity 1 4 (by decide) 8 m hr).1, fun hz => ?_, fun f hf => ?_⟩
  · exact absurd ((C55_zero_partial exNetwork hb exCapacity 1 4 (by decide) 8 m hr).2 hz) (by decide)
  · have h5 := (C55_ratio_partial exNetwork hb exCapacity 1 4 (by decide) 8 m hr).1 f hf
    rwa [show exNetwork.vertexCount = 4 by decide] at h5

/-- `C55_single_entry_partial` and `C55_single_exit_partial`: whatever is returned for the two parallel paths is the maximum. -/
example (n : Nat) (m : FlowMap) (hr : Returns (maxFlow exParallel exCapacity 1 4) (n, m)) : IsMaxFlowValue exParallel exCapacity 1 4 n := by
  have hb : Built exParallel := Built.new.applyCommands _
  have h1 : ∀ e ∈ exParallel.edges, ∀ e' ∈ exParallel.edges, e.dst = e'.dst → e.dst = 4 ∨ e.src = e'.src := by decide
  have h2 : ∀ e ∈ exParallel.edges, ∀ e' ∈ exParallel.edges, e.src = e'.src → e.src = 1 ∨ e.dst = e'.dst := by decide
  have := C55_single_entry_partial exParallel hb exCapacity 1 4 (by decide) (fun u u' v _ hv4 hu hu' =>
    (h1 _ (hb.wf.mem_edges.2 hu) _ (hb.wf.mem_edges.2 hu') rfl).resolve_left hv4) n m hr
  exact C55_single_exit_partial exParallel hb exCapacity 1 4 (by decide) (fun u v v' hu1 _ hv hv' =>
    (h2 _ (hb.wf.mem_edges.2 hv) _ (hb.wf.mem_edges.2 hv') rfl).resolve_left hu1) n m hr

/-- Example network: 1→2→3→4, 1→5→6→3, 2→7→8→4. -/
def exReroute : DirectedGraph :=
  GraphCommand.applyCommands [.AddEdge 1 2, .AddEdge 2 3, .AddEdge 3 4, .AddEdge 1 5, .AddEdge 5 6, .AddEdge 6 3, .AddEdge 2 7, .AddEdge 7 8,
    .AddEdge 8 4] .new

/-- C55 is false: flow that was sent along a short path is never rerouted. With all capacities 1 the value reported from 1 to 4 is 1, but
there is a flow of value 2. -/
theorem C55_counterexample :
    Built exReroute ∧ (∃ m, Returns (maxFlow exReroute (fun _ => 1) 1 4) (1, m)) ∧ ¬ IsMaxFlowValue exReroute (fun _ => 1) 1 4 1 ∧
      ∃ f, Feasible exReroute (fun _ => 1) 1 4 f ∧ netOut exReroute f 1 = 2 := by
  have hf : Feasible exReroute (fun _ => 1) 1 4 (fun e => if e = ⟨2, 3⟩ then 0 else 1) ∧
      netOut exReroute (fun e => if e = ⟨2, 3⟩ then 0 else 1) 1 = 2 := by
    refine ⟨⟨?_, ?_⟩, by decide⟩
    · intro e _
      dsimp only
      split <;> decide
    · intro v hv
      have hv := mem_vertices.2 hv
      have e : ∀ v ∈ exReroute.vertices, v ≠ 1 → v ≠ 4 →
        inFlow exReroute (fun e => if e = ⟨2, 3⟩ then 0 else 1) v = outFlow exReroute (fun e => if e = ⟨2, 3⟩ then 0 else 1) v := by decide
      exact e v hv
  refine ⟨Built.new.applyCommands _, ?_, ?_, _, hf⟩
  · obtain ⟨m, hm⟩ : ∃ m, maxFlow exReroute (fun _ => 1) 1 4 40 = .done (1, m) := by
      have : (maxFlow exReroute (fun _ => 1) 1 4 40).bind (fun r => .done r.1) = .done 1 := by decide
      rcases e : maxFlow exReroute (fun _ => 1) 1 4 40 with _ | _ | ⟨n, m⟩
      · rw [e] at this; cases this
      · rw [e] at this; cases this
      · rw [e] at this; cases this
        exact ⟨m, rfl⟩
    exact ⟨m, (mono_maxFlow _ _ _ _).returns hm⟩
  · rintro ⟨_, h⟩
    have := h _ hf.1
    rw [hf.2] at this
    exact absurd this (by decide)

/-! ### C56: termination -/

/-- C56: `max_flow` always comes to an end. -/
theorem C56_terminates (g : DirectedGraph) (h : Built g) (cap : Edge → UInt64) (s t : VertexId) :
    (∃ r, Returns (maxFlow g cap s t) r) ∨ Panics (maxFlow g cap s t) := by
  by_cases hst : s = t
  · subst hst
    right
    exact (mono_maxFlow g cap s s).panics (n := 1) (by
      simp [maxFlow, Prog.loop, Prog.loopAux, step, Prog.bind, findAugmentingPath, nextStep, Queue.new, Queue.push, Queue.pop,
        AugmentingPath.new, AugmentingPath.last, Prog.lift, Run.unwrap, Run.bind, checkPath, residualCapacity, AugmentingPath.edges, residuals])
  · rcases maxFlow_spec h.wf cap hst with ⟨r, h1, _⟩ | ⟨h1, _⟩
    · exact .inl ⟨r, h1⟩
    · exact .inr h1

/-- C56: `max_flow` returns without panic if `s` and `t` differ and some cut between them has a capacity below 2^64.
Missing: see `C56_counterexample_same` and `C56_counterexample_overflow`. -/
theorem C56_returns_partial (g : DirectedGraph) (h : Built g) (cap : Edge → UInt64) (s t : VertexId) (hst : s ≠ t) (S : VertexId → Bool)
    (hS : IsCut s t S) (hc : cutCapacity g cap S < 2 ^ 64) : ∃ r, Returns (maxFlow g cap s t) r := by
  rcases maxFlow_spec h.wf cap hst with ⟨r, h1, _⟩ | ⟨_, f, n, hn, hf⟩
  · exact ⟨r, h1⟩
  · have := hf.feasible.le_cut h.wf hS
    rw [hf.value] at this
    omega

example : IsCut 1 4 (fun v => decide (v = 1)) ∧ cutCapacity exNetwork exCapacity (fun v => decide (v = 1)) = 12 := by
  unfold IsCut
  decide

/-- C56: for different `s` and `t`, `max_flow` panics only if some flow has a value of at least 2^64, and it does if the value of some flow is
above 2^64 - 1 times half the number of vertices, rounded down.
Missing: between the two bounds it depends on the order of the edges. -/
theorem C56_panics_partial (g : DirectedGraph) (h : Built g) (cap : Edge → UInt64) (s t : VertexId) (hst : s ≠ t) :
    (Panics (maxFlow g cap s t) → ∃ f, Feasible g cap s t f ∧ 2 ^ 64 ≤ netOut g f s) ∧
    (∀ f, Feasible g cap s t f → ((2 ^ 64 - 1) * (g.vertexCount / 2) : Nat) < netOut g f s → Panics (maxFlow g cap s t)) := by
  constructor
  · intro hp
    rcases maxFlow_spec h.wf cap hst with ⟨r, h1, _⟩ | ⟨_, f, n, hn, hf⟩
    · exact absurd hp h1.not_panics
    · exact ⟨f, hf.feasible, by rw [hf.value]; exact_mod_cast hn⟩
  · intro f hf hv
    rcases C56_terminates g h cap s t with ⟨⟨n, m⟩, hr⟩ | hp
    · exfalso
      have h1 := (C55_ratio_partial g h cap s t hst n m hr).1 f hf
      have h2 : n ≤ 2 ^ 64 - 1 := Nat.le_sub_one_of_lt (maxFlow_lt h hst hr)
      have h3 := Nat.mul_le_mul_right (g.vertexCount / 2) h2
      omega
    · exact hp

/-- `C56_panics_partial` for two parallel ways of the largest capacity. -/
example := C56_panics_partial exParallel (Built.new.applyCommands _) (fun _ => 18446744073709551615) 1 4 (by decide)

/-- The largest flow in `exNetwork` is at most 12, so `max_flow` returns (`C56_terminates`, `C56_returns_partial`). -/
example : ∃ r, Returns (maxFlow exNetwork exCapacity 1 4) r :=
  C56_returns_partial exNetwork (Built.new.applyCommands _) exCapacity 1 4 (by decide) (fun v => decide (v = 1)) ⟨by decide, by decide⟩
    (by decide +kernel)

example : ∃ f, Feasible exTriangle (fun _ => 18446744073709551615) 1 3 f ∧
    ((2 ^ 64 - 1) * (exTriangle.vertexCount / 2) : Nat) < netOut exTriangle f 1 := by
  refine ⟨fun _ => 18446744073709551615, ⟨fun e _ => by dsimp only; decide, fun v hv => ?_⟩, by decide⟩
  have hv := mem_vertices.2 hv
  have e : ∀ v ∈ exTriangle.vertices, v ≠ 1 → v ≠ 3 → inFlow exTriangle (fun _ => 18446744073709551615) v =
    outFlow exTriangle (fun _ => 18446744073709551615) v := by decide
  exact e v hv

/-- C56 is false: `max_flow` panics for every graph if `s` and `t` are the same. -/
theorem C56_counterexample_same (g : DirectedGraph) (cap : Edge → UInt64) (s : VertexId) : Panics (maxFlow g cap s s) :=
  (mono_maxFlow g cap s s).panics (n := 1) (by
    simp [maxFlow, Prog.loop, Prog.loopAux, step, Prog.bind, findAugmentingPath, nextStep, Queue.new, Queue.push, Queue.pop,
      AugmentingPath.new, AugmentingPath.last, Prog.lift, Run.unwrap, Run.bind, checkPath, residualCapacity, AugmentingPath.edges, residuals])

/-- C56 is false: the value overflows if two paths have capacity 2^64 - 1. -/
theorem C56_counterexample_overflow : Built exNetwork ∧ Panics (maxFlow exNetwork (fun _ => 18446744073709551615) 1 4) :=
  ⟨Built.new.applyCommands _, (mono_maxFlow _ _ _ _).panics (n := 30) (by decide)⟩

end GC
