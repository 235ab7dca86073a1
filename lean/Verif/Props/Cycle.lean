/-
Properties C47-C53: Hamiltonian paths and cycles.
-/
import Verif.Proofs.Adaptors
import Verif.Props.Args
import Verif.Proofs.Samples
namespace GC
open DirectedGraph Text Args

/-! ### C47: Hamiltonian paths -/

/-- C47: `iter_hamiltonian_paths` ends; it yields exactly the paths through all vertices, each once. -/
theorem C47_hamiltonian_paths (g : DirectedGraph) (h : Built g) :
    ∃ ps, Returns (Prog.collect (Hamiltonian.next g) (Hamiltonian.iter g)) ps ∧ ps.Nodup ∧
      ∀ p : Path, p ∈ ps ↔ p.vertices ≠ [] ∧ HamiltonianPath g p.vertices := by
  obtain ⟨ps, h1, h2, h3⟩ := hamiltonian_drains h.wf
  exact ⟨ps, h1.collect, h2, h3⟩

/-- C47: `first_path` returns a path through all vertices exactly when there is one. -/
theorem C47_first_path (g : DirectedGraph) (h : Built g) :
    ∃ r, Returns (Hamiltonian.firstPath g) r ∧ (∀ p, r = some p → p.vertices ≠ [] ∧ HamiltonianPath g p.vertices) ∧
      (r = none ↔ ∀ l, l ≠ [] → ¬ HamiltonianPath g l) := by
  obtain ⟨ps, h1, h2, h3⟩ := hamiltonian_drains h.wf
  refine ⟨_, h1.nextOnly, fun p hp => (h3 p).1 (List.mem_of_head? hp), ?_⟩
  rw [List.head?_eq_none_iff, List.eq_nil_iff_forall_not_mem]
  constructor
  · intro hn l hl hh
    exact hn ⟨l⟩ ((h3 _).2 ⟨hl, hh⟩)
  · intro hn p hp
    obtain ⟨k1, k2⟩ := (h3 p).1 hp
    exact hn _ k1 k2

/-- C47: `is_hamiltonian` says whether there is a path through all vertices (the empty path for the empty graph). -/
theorem C47_is_hamiltonian (g : DirectedGraph) (h : Built g) :
    ∃ b, Returns (Hamiltonian.isHamiltonian g) b ∧ (b = true ↔ ∃ l, HamiltonianPath g l) := by
  unfold Hamiltonian.isHamiltonian
  by_cases he : g.isEmpty = true
  · refine ⟨true, by rw [if_pos he]; exact Returns.ret _, by
      simp only [true_iff]
      refine ⟨[], by simp, by simp, fun v => ?_⟩
      have : g.vertices = [] := by
        simp only [DirectedGraph.isEmpty, DirectedGraph.vertexCount, beq_iff_eq, List.length_eq_zero_iff] at he
        simp [DirectedGraph.vertices, HMap.keys, he]
      rw [← mem_vertices, this]⟩
  · obtain ⟨r, h1, h2, h3⟩ := C47_first_path g h
    refine ⟨r.isSome, by rw [if_neg he]; exact Returns.bind h1 (Returns.ret _), ?_⟩
    constructor
    · intro hr
      obtain ⟨p, hp⟩ := Option.isSome_iff_exists.1 hr
      exact ⟨_, (h2 p hp).2⟩
    · rintro ⟨l, hl⟩
      rcases hr : r with _ | p
      · exfalso
        rcases l with _ | ⟨x, l⟩
        · apply he
          have : g.vertices = [] := by
            rw [List.eq_nil_iff_forall_not_mem]
            intro v hv
            have := (hl.2.2 v).2 (mem_vertices.1 hv)
            cases this
          have hlen : g.vertexCount = g.vertices.length := by simp [DirectedGraph.vertexCount, DirectedGraph.vertices, HMap.keys]
          simp [DirectedGraph.isEmpty, hlen, this]
        · exact h3.1 hr _ (by simp) hl
      · rfl

/-- C47: `is_path_hamiltonian` recognises the paths through all vertices among the walks of the graph. -/
theorem C47_is_path_hamiltonian (g : DirectedGraph) (h : Built g) (p : Path) (hc : p.vertices.IsChain (Adj g))
    (hv : ∀ v ∈ p.vertices, g.containsVertex v = true) :
    Hamiltonian.isPathHamiltonian p g = true ↔ HamiltonianPath g p.vertices := by
  unfold Hamiltonian.isPathHamiltonian
  rw [Bool.and_eq_true, Bool.not_eq_true', containsCycle_false_iff, beq_iff_eq]
  constructor
  · rintro ⟨h1, h2⟩
    refine ⟨hc, h1, fun v => ⟨hv v, ?_⟩⟩
    exact (covers_iff h.wf h1 fun v hm => mem_vertices.2 (hv v hm)).1 h2 v
  · rintro ⟨_, h1, h2⟩
    exact ⟨h1, (covers_iff h.wf h1 fun v hm => mem_vertices.2 (hv v hm)).2 fun v => (h2 v).2⟩

/-- Example graph: 1→2→3→1, 2→4, 4→3. -/
def exCycleGraph : DirectedGraph :=
  GraphCommand.applyCommands [.AddEdge 1 2, .AddEdge 2 3, .AddEdge 3 1, .AddEdge 2 4, .AddEdge 4 3] .new

theorem exCycleGraph_built : Built exCycleGraph := Built.new.applyCommands _

example : Prog.collect (Hamiltonian.next exCycleGraph) (Hamiltonian.iter exCycleGraph) 30 =
    .done [⟨[1, 2, 4, 3]⟩, ⟨[2, 4, 3, 1]⟩, ⟨[3, 1, 2, 4]⟩, ⟨[4, 3, 1, 2]⟩] := by decide
example : Hamiltonian.isHamiltonian (GraphCommand.applyCommands [.AddEdge 1 2, .AddEdge 1 3] .new) 30 = .done false := by decide

/-! ### C48, C49: enumeration of cycles -/

/-- C48: `cycle_iter` ends; it yields only simple cycles of the graph, each starting with its smallest vertex, and no two of them are
rotations of each other. -/
theorem C48_cycle_iter_sound (g : DirectedGraph) (h : Built g) :
    ∃ cs, Returns (CycleAlg.takeAll g) cs ∧ cs.Nodup ∧ (∀ c ∈ cs, IsCycle g c.vertices ∧ SmallestFirst c.vertices) ∧
      ∀ c ∈ cs, ∀ d ∈ cs, c.vertices ~r d.vertices → c = d := by
  obtain ⟨cs, h1, h2, h3⟩ := cycle_drains h.wf
  refine ⟨cs, h1.collect, h2, fun c hc => ⟨((h3 c).1 hc).1, ((h3 c).1 hc).2.1⟩, ?_⟩
  intro c hc d hd hr
  have k1 := (h3 c).1 hc
  have k2 := (h3 d).1 hd
  have := canonical_unique k1.1.2.1 hr k1.2.1 k2.2.1
  cases c; cases d; simp_all

/-- C49, exact form: a simple cycle of the graph is yielded (up to rotation) exactly when one of its vertices can be reached from a
vertex without incoming edge, or, in a graph without such vertices, from the vertex that comes first in the iteration order. -/
theorem C49_exact (g : DirectedGraph) (h : Built g) :
    ∃ cs, Returns (CycleAlg.takeAll g) cs ∧ ∀ l, IsCycle g l →
      ((∃ c ∈ cs, c.vertices ~r l) ↔
        ∃ s v, (IsRoot g s ∨ ((∀ r, ¬ IsRoot g r) ∧ g.headOption = some s)) ∧ v ∈ l ∧ Reach g s v) := by
  obtain ⟨cs, h1, h2, h3⟩ := cycle_drains h.wf
  refine ⟨cs, h1.collect, fun l hl => ⟨?_, ?_⟩⟩
  · rintro ⟨c, hc, hr⟩
    obtain ⟨_, _, s, hs, v, hv, hsv⟩ := (h3 c).1 hc
    exact ⟨s, v, (mem_findStartingEdges h.wf).1 hs, hr.mem_iff.1 hv, hsv⟩
  · rintro ⟨s, v, hs, hv, hsv⟩
    obtain ⟨d, _, k2, k3⟩ := canonical_spec l hl.1
    exact ⟨⟨d⟩, (h3 _).2 ⟨hl.rotated k2, k3, s, (mem_findStartingEdges h.wf).2 hs, v, k2.mem_iff.1 hv, hsv⟩, k2.symm⟩

/-- C49, partial: every simple cycle is yielded if all vertices can be reached from vertices without incoming edges, or if the graph
is strongly connected. Missing: all other graphs (see `C49_counterexample`). -/
theorem C49_complete_partial (g : DirectedGraph) (h : Built g) (hc : RootReachable g ∨ StronglyConnected g) :
    ∃ cs, Returns (CycleAlg.takeAll g) cs ∧ ∀ l, IsCycle g l → ∃ c ∈ cs, c.vertices ~r l := by
  obtain ⟨cs, h1, h2⟩ := C49_exact g h
  refine ⟨cs, h1, fun l hl => (h2 l hl).2 ?_⟩
  obtain ⟨v, hv⟩ := List.exists_mem_of_ne_nil _ hl.1
  have hvg := hl.vertex h.wf hv
  by_cases hr : ∃ r, IsRoot g r
  · rcases hc with hc | hc
    · obtain ⟨r, h3, h4⟩ := hc v (mem_vertices.1 hvg)
      exact ⟨r, v, .inl h3, hv, h4⟩
    · obtain ⟨r, hr⟩ := hr
      exact ⟨r, v, .inl hr, hv, hc r v hr.1 (mem_vertices.1 hvg)⟩
  · rcases hc with hc | hc
    · obtain ⟨r, h3, h4⟩ := hc v (mem_vertices.1 hvg)
      exact absurd ⟨r, h3⟩ hr
    · obtain ⟨s, hs⟩ : ∃ s, g.headOption = some s := by
        unfold DirectedGraph.headOption
        rcases e : g.vertices with _ | ⟨x, t⟩
        · rw [e] at hvg; cases hvg
        · exact ⟨x, rfl⟩
      refine ⟨s, v, .inr ⟨fun r hr' => hr ⟨r, hr'⟩, hs⟩, hv, hc s v ?_ (mem_vertices.1 hvg)⟩
      exact mem_vertices.1 (List.mem_of_head? hs)

theorem mono_cycle_next (g : DirectedGraph) (s : CycleIter) : Mono (CycleIter.next g s) := by
  refine Mono.loop (fun s => ?_) s
  unfold CycleIter.step
  split
  · exact Mono.ret _
  · exact Mono.lift _

/-- Example graph: 1→2, 3→4, 4→3, 3→2. It is connected and has the cycle 3→4→3, which cannot be reached from the root 1. -/
def exMissed : DirectedGraph :=
  GraphCommand.applyCommands [.AddEdge 1 2, .AddEdge 3 4, .AddEdge 4 3, .AddEdge 3 2] .new

/-- C49 is false: a connected graph with a cycle for which nothing is yielded. -/
theorem C49_counterexample :
    ∃ g, Built g ∧ WeaklyConnected g ∧ (∃ l, IsCycle g l) ∧ Returns (CycleAlg.takeAll g) [] := by
  refine ⟨exMissed, Built.new.applyCommands _, ?_, ⟨[3, 4], ?_⟩, ?_⟩
  · have key : ∀ v, exMissed.containsVertex v = true →
        Relation.ReflTransGen (fun a b => Adj exMissed a b ∨ Adj exMissed b a) 2 v ∧
        Relation.ReflTransGen (fun a b => Adj exMissed a b ∨ Adj exMissed b a) v 2 := by
      intro v hv
      have hv := mem_vertices.2 hv
      have e : exMissed.vertices = [1, 2, 3, 4] := by decide
      rw [e] at hv
      have a12 : Adj exMissed 1 2 := by unfold Adj; decide
      have a32 : Adj exMissed 3 2 := by unfold Adj; decide
      have a43 : Adj exMissed 4 3 := by unfold Adj; decide
      simp only [List.mem_cons, List.not_mem_nil, or_false] at hv
      rcases hv with rfl | rfl | rfl | rfl
      · exact ⟨.single (.inr a12), .single (.inl a12)⟩
      · exact ⟨.refl, .refl⟩
      · exact ⟨.single (.inr a32), .single (.inl a32)⟩
      · exact ⟨.tail (.single (.inr a32)) (.inr a43), .head (.inl a43) (.single (.inl a32))⟩
    exact fun u v hu hv => (key u hu).2.trans (key v hv).1
  · refine ⟨by simp, by decide, ?_⟩
    simp only [List.head?_cons, Option.toList_some, List.cons_append, List.nil_append, List.isChain_cons_cons, List.isChain_singleton,
      and_true, Adj]
    decide
  · exact Mono.returns (n := 6) (Mono.collect (mono_cycle_next _) _) (by decide)

/-- Example graph: 1⇄2→3⇄4, without roots. -/
def exNoRoot : DirectedGraph :=
  GraphCommand.applyCommands [.AddEdge 1 2, .AddEdge 2 1, .AddEdge 2 3, .AddEdge 3 4, .AddEdge 4 3] .new

/-- C49 is false: the cycles yielded for one and the same graph depend on the iteration order of the hash map. -/
theorem C49_counterexample_order :
    ∃ g h, Built g ∧ Built h ∧ SameGraph g h ∧ Returns (CycleAlg.takeAll g) [⟨[3, 4]⟩, ⟨[1, 2]⟩] ∧
      Returns (CycleAlg.takeAll h) [⟨[3, 4]⟩] := by
  have hb : Built exNoRoot := Built.new.applyCommands _
  have hp : exNoRoot.edgeMap.Perm exNoRoot.edgeMap.reverse := (List.reverse_perm _).symm
  refine ⟨exNoRoot, ⟨exNoRoot.edgeMap.reverse⟩, hb, hb.reorder hp, ?_, ?_, ?_⟩
  · rw [sameGraph_iff]
    exact (toSet_perm hb.wf hp).symm
  · exact Mono.returns (n := 10) (Mono.collect (mono_cycle_next _) _) (by decide)
  · exact Mono.returns (n := 10) (Mono.collect (mono_cycle_next _) _) (by decide)

example : CycleAlg.takeAll exCycleGraph 20 = .done [⟨[1, 2, 4, 3]⟩, ⟨[1, 2, 3]⟩] := by decide
example : IsCycle exCycleGraph [2, 3, 1] :=
  ⟨by simp, by decide, by
    simp only [List.head?_cons, Option.toList_some, List.cons_append, List.nil_append, List.isChain_cons_cons, List.isChain_singleton,
      and_true, Adj]
    decide⟩
example : StronglyConnected (GraphCommand.applyCommands [.AddEdge 1 2, .AddEdge 2 1] .new) := by
  have key : ∀ v, DirectedGraph.containsVertex (GraphCommand.applyCommands [.AddEdge 1 2, .AddEdge 2 1] .new) v = true → v = 1 ∨ v = 2 := by
    intro v hv
    have e : DirectedGraph.vertices (GraphCommand.applyCommands [.AddEdge 1 2, .AddEdge 2 1] .new) = [1, 2] := by decide
    have := mem_vertices.2 hv
    rw [e] at this
    simpa using this
  intro u v hu hv
  rcases key u hu with rfl | rfl <;> rcases key v hv with rfl | rfl
  · exact .refl
  · exact .single (by unfold Adj; decide)
  · exact .single (by unfold Adj; decide)
  · exact .refl

/-! ### C50: cycle queries -/

/-- C50: `first`, `count` and `take` report the first, the number and a prefix of the enumerated cycles `cs` (those of `take_all`). -/
theorem C50_first_count_take (g : DirectedGraph) (h : Built g) :
    ∃ cs, Returns (CycleAlg.takeAll g) cs ∧ Returns (CycleAlg.first g) cs.head? ∧ Returns (CycleAlg.count g) cs.length ∧
      ∀ n, Returns (CycleAlg.take g n) (cs.take n) := by
  obtain ⟨cs, h1, _, _⟩ := cycle_drains h.wf
  exact ⟨cs, h1.collect, h1.nextOnly, h1.consume _, fun n => h1.takeN n⟩

/-- C50: `girth` is the smallest length of the enumerated cycles. -/
theorem C50_girth (g : DirectedGraph) (h : Built g) :
    ∃ cs r, Returns (CycleAlg.takeAll g) cs ∧ Returns (CycleAlg.girth g) r ∧ (r = none ↔ cs = []) ∧
      ∀ n, r = some n → (∃ c ∈ cs, c.vertices.length = n) ∧ ∀ c ∈ cs, n ≤ c.vertices.length := by
  obtain ⟨cs, h1, _, _⟩ := cycle_drains h.wf
  refine ⟨cs, _, h1.collect, h1.consume _, by rw [minByKey_eq_none]; simp, fun n hn => ?_⟩
  obtain ⟨h2, h3⟩ := minByKey_some hn
  obtain ⟨c, hc, e⟩ := List.mem_map.1 h2
  exact ⟨⟨c, hc, e⟩, fun c hc => h3 _ (List.mem_map.2 ⟨c, hc, rfl⟩)⟩

/-- C50: `shortest` is one of the enumerated cycles of smallest length. -/
theorem C50_shortest (g : DirectedGraph) (h : Built g) :
    ∃ cs r, Returns (CycleAlg.takeAll g) cs ∧ Returns (CycleAlg.shortest g) r ∧ (r = none ↔ cs = []) ∧
      ∀ c, r = some c → c ∈ cs ∧ ∀ d ∈ cs, c.vertices.length ≤ d.vertices.length := by
  obtain ⟨cs, h1, _, _⟩ := cycle_drains h.wf
  exact ⟨cs, _, h1.collect, h1.consume _, minByKey_eq_none, fun c hc => minByKey_some hc⟩

/-- C50: `longest` is one of the enumerated cycles of greatest length. -/
theorem C50_longest (g : DirectedGraph) (h : Built g) :
    ∃ cs r, Returns (CycleAlg.takeAll g) cs ∧ Returns (CycleAlg.longest g) r ∧ (r = none ↔ cs = []) ∧
      ∀ c, r = some c → c ∈ cs ∧ ∀ d ∈ cs, d.vertices.length ≤ c.vertices.length := by
  obtain ⟨cs, h1, _, _⟩ := cycle_drains h.wf
  exact ⟨cs, _, h1.collect, h1.consume _, maxByKey_eq_none, fun c hc => maxByKey_some hc⟩

/-- C50: in a graph where all vertices can be reached from roots, or that is strongly connected, `girth` is the length of a shortest
cycle of the graph, and there is none only if the graph has no cycle. -/
theorem C50_girth_of_graph (g : DirectedGraph) (h : Built g) (hc : RootReachable g ∨ StronglyConnected g) :
    ∃ r, Returns (CycleAlg.girth g) r ∧ (r = none ↔ ∀ l, ¬ IsCycle g l) ∧
      ∀ n, r = some n → (∃ l, IsCycle g l ∧ l.length = n) ∧ ∀ l, IsCycle g l → n ≤ l.length := by
  obtain ⟨cs, r, h1, h2, h3, h4⟩ := C50_girth g h
  obtain ⟨cs', h5, h6⟩ := C49_complete_partial g h hc
  obtain ⟨cs'', h7, _, h8, _⟩ := C48_cycle_iter_sound g h
  cases h1.unique h5
  cases h1.unique h7
  refine ⟨r, h2, ?_, ?_⟩
  · rw [h3]
    constructor
    · rintro rfl l hl
      obtain ⟨c, hc, _⟩ := h6 l hl
      cases hc
    · intro hn
      rw [List.eq_nil_iff_forall_not_mem]
      exact fun c hc => hn _ (h8 c hc).1
  · intro n hn
    obtain ⟨⟨c, hc, e⟩, h9⟩ := h4 n hn
    refine ⟨⟨_, (h8 c hc).1, e⟩, fun l hl => ?_⟩
    obtain ⟨d, hd, hr⟩ := h6 l hl
    have := h9 d hd
    rw [hr.perm.length_eq] at this
    exact this

example : CycleAlg.girth exCycleGraph 20 = .done (some 3) ∧ CycleAlg.shortest exCycleGraph 20 = .done (some ⟨[1, 2, 3]⟩) ∧
    CycleAlg.longest exCycleGraph 20 = .done (some ⟨[1, 2, 4, 3]⟩) ∧ CycleAlg.count exCycleGraph 20 = .done 2 := by decide

/-! ### C51: Hamiltonian cycles -/

/-- C51: `hamiltonian` returns a cycle through all vertices exactly when there is one. -/
theorem C51_hamiltonian_cycle (g : DirectedGraph) (h : Built g) :
    ∃ r, Returns (CycleAlg.hamiltonian g) r ∧ (∀ c, r = some c → HamiltonianCycle g c.vertices) ∧
      (r = none ↔ ∀ l, ¬ HamiltonianCycle g l) := by
  obtain ⟨cs, h1, _, h3⟩ := cycle_drains h.wf
  have hlen : ∀ c ∈ cs, c.len = g.vertexCount → HamiltonianCycle g c.vertices := by
    intro c hc e
    have hi := ((h3 c).1 hc).1
    exact ⟨hi, (covers_iff h.wf hi.2.1 fun v hv => hi.vertex h.wf hv).1 e⟩
  refine ⟨_, (h1.filter _).nextOnly, ?_, ?_⟩
  · intro c hc
    obtain ⟨k1, k2⟩ := List.mem_filter.1 (List.mem_of_head? hc)
    exact hlen c k1 (by simpa using k2)
  · rw [List.head?_eq_none_iff, List.eq_nil_iff_forall_not_mem]
    constructor
    · rintro hn l ⟨hl, hv⟩
      obtain ⟨cs', h5, h6⟩ := C49_complete_partial g h (.inr fun u v hu hv' => hl.reach (hv u hu) (hv v hv'))
      cases h1.collect.unique h5
      obtain ⟨c, hc, hr⟩ := h6 l hl
      refine hn c (List.mem_filter.2 ⟨hc, ?_⟩)
      have := (covers_iff h.wf hl.2.1 fun v hv => hl.vertex h.wf hv).2 hv
      rw [← hr.perm.length_eq] at this
      exact beq_iff_eq.2 this
    · intro hn c hc
      obtain ⟨k1, k2⟩ := List.mem_filter.1 hc
      exact hn _ (hlen c k1 (by simpa using k2))

example : CycleAlg.hamiltonian exCycleGraph 20 = .done (some ⟨[1, 2, 4, 3]⟩) ∧ CycleAlg.hamiltonian exMissed 20 = .done none := by decide

/-! ### C52: canonical cycles -/

/-- C52: `canonical` rotates a cycle so that it starts with its smallest vertex, and does not change the result again. -/
theorem C52_canonical (c : Cycle) (h : c.vertices ≠ []) :
    ∃ d, Cycle.canonical c = .done d ∧ c.vertices ~r d.vertices ∧ SmallestFirst d.vertices ∧ Cycle.canonical d = .done d := by
  obtain ⟨d, h1, h2, h3⟩ := canonical_spec c.vertices h
  refine ⟨⟨d⟩, h1, h2, h3, ?_⟩
  have hd : d ≠ [] := by
    obtain ⟨m, hm, _⟩ := h3
    rintro rfl
    cases hm
  obtain ⟨a, m, b, k1, k2, k3, k4⟩ := canonical_split d hd
  have ha : a = [] := by
    rcases a with _ | ⟨x, a⟩
    · rfl
    · exfalso
      obtain ⟨m', e, hm'⟩ := h3
      rw [k1] at e
      simp at e
      subst e
      have e1 := k3 x (by simp)
      have e2 := hm' m (by rw [k1]; simp)
      exact absurd e1 (UInt64.not_lt.2 e2)
  subst ha
  simp only [List.nil_append, List.append_nil] at k1 k2
  rw [k2, ← k1]

/-- C52: cycles without repeated vertex (it is enough that one has none) have the same canonical form exactly when they are rotations of
each other. -/
theorem C52_equal_iff_rotation (c d : Cycle) (hc' : c.vertices ≠ []) (hd : d.vertices.Nodup) (hd' : d.vertices ≠ []) : Cycle.canonical c = Cycle.canonical d ↔ c.vertices ~r d.vertices := by
  obtain ⟨c1, h1, h2, h3⟩ := canonical_spec c.vertices hc'
  constructor
  · intro h
    obtain ⟨d1, k1, k2, k3⟩ := canonical_spec d.vertices hd'
    have h1' : Cycle.canonical c = .done ⟨c1⟩ := h1
    have k1' : Cycle.canonical d = .done ⟨d1⟩ := k1
    rw [h1', k1'] at h
    cases Run.done.inj h
    exact h2.trans k2.symm
  · intro h
    have h1' : Cycle.canonical c = .done ⟨c1⟩ := h1
    have : Cycle.canonical d = .done ⟨c1⟩ := (canonical_eq_iff hd hd').2 ⟨h.symm.trans h2, h3⟩
    rw [h1', this]

/-- C52: `is_canonical` recognises the cycles that start with their smallest vertex, which are the canonical forms. -/
theorem C52_is_canonical (c : Cycle) (h : c.vertices ≠ []) :
    ∃ b, Cycle.isCanonical c = .done b ∧ (b = true ↔ SmallestFirst c.vertices) ∧ (b = true ↔ Cycle.canonical c = .done c) := by
  obtain ⟨m, hm⟩ : ∃ m, minByKey (fun v : VertexId => v.id.toNat) c.vertices = some m := by
    rcases e : minByKey (fun v : VertexId => v.id.toNat) c.vertices with _ | m
    · exact absurd (minByKey_eq_none.1 e) h
    · exact ⟨m, rfl⟩
  obtain ⟨h1, h2⟩ := minByKey_some hm
  have key : SmallestFirst c.vertices ↔ c.vertices.head? = some m := by
    constructor
    · rintro ⟨m', e, hm'⟩
      have e1 := h2 m' (List.mem_of_head? e)
      have e2 := UInt64.le_iff_toNat_le.1 (hm' m h1)
      rw [e]
      have : m'.id = m.id := UInt64.toNat_inj.1 (Nat.le_antisymm e2 e1)
      cases m; cases m'; simp_all
    · intro e
      exact ⟨m, e, fun v hv => UInt64.le_iff_toNat_le.2 (h2 v hv)⟩
  refine ⟨decide (c.vertices.head? = some m), ?_, ?_, ?_⟩
  · simp [Cycle.isCanonical, hm, Run.unwrap_some]
  · rw [key, decide_eq_true_eq]
  · rw [decide_eq_true_eq, ← key]
    obtain ⟨d, k1, k2, k3, k4⟩ := C52_canonical c h
    constructor
    · intro hs
      obtain ⟨a, m', b, l1, l2, l3, l4⟩ := canonical_split c.vertices h
      have ha : a = [] := by
        rcases a with _ | ⟨x, a⟩
        · rfl
        · exfalso
          obtain ⟨m'', e, hm'⟩ := hs
          rw [l1] at e
          simp at e
          subst e
          have e1 := l3 x (by simp)
          have e2 := hm' m' (by rw [l1]; simp)
          exact absurd e1 (UInt64.not_lt.2 e2)
      subst ha
      simp only [List.nil_append, List.append_nil] at l1 l2
      have l2' : Cycle.canonical c = .done ⟨m' :: b⟩ := l2
      rw [l2', ← l1]
    · intro e
      rw [k1] at e
      cases Run.done.inj e
      exact k3

/-- C52: `from_vertices` (and `from_path`) accept exactly the duplicate-free lists of at least two vertices, unchanged. -/
theorem C52_from_vertices (l : List VertexId) (c : Cycle) :
    (Cycle.fromVertices l = some c ↔ c.vertices = l ∧ 2 ≤ l.length ∧ l.Nodup) ∧
    Cycle.fromPath ⟨l⟩ = Cycle.fromVertices l := by
  refine ⟨?_, rfl⟩
  have hu := uniqueCount_eq [] l
  simp only [List.not_mem_nil, not_false_eq_true, implies_true, and_true] at hu
  unfold Cycle.fromVertices
  split
  · rename_i h
    simp only [Bool.or_eq_true, decide_eq_true_eq, bne_iff_ne] at h
    constructor
    · intro e; cases e
    · rintro ⟨_, h2, h3⟩
      have := hu.2 h3
      omega
  · rename_i h
    simp only [Bool.or_eq_true, decide_eq_true_eq, bne_iff_ne, not_or, not_not] at h
    constructor
    · intro e
      cases e
      exact ⟨rfl, by omega, hu.1 h.2.symm⟩
    · rintro ⟨rfl, _⟩
      rfl

example : Cycle.canonical ⟨[7, 9, 2, 5]⟩ = .done ⟨[2, 5, 7, 9]⟩ ∧ Cycle.canonical ⟨[9, 2, 5, 7]⟩ = .done ⟨[2, 5, 7, 9]⟩ ∧
    Cycle.isCanonical ⟨[7, 9, 2, 5]⟩ = .done false := by decide
example : Cycle.fromVertices [4, 2] = some ⟨[4, 2]⟩ ∧ Cycle.fromVertices [4, 2, 4] = none ∧ Cycle.fromVertices [4] = none := by decide

/-! ### C53: gc-cycle -/

/-- C53: the options of gc-cycle select a cycle of distinct vertices exactly when it is as the help text says, the closing edge included.
Missing: `max-score` (see C23), and the case that the options name the closing edge of the cycle (see `C53_counterexample`). -/
theorem C53_options_partial (a : CycleArgs) (hm : a.maxScore = none) (c : Cycle)
    (hn : ∀ e, NamesEdge a e → ¬ IsClosingEdge c.vertices e) :
    GcCycle.check c (cycleConstraints a) = true ↔ ClosedMeets a c.vertices := by
  unfold GcCycle.check
  rw [C23_cycle_options_partial a hm]
  unfold CycleMeets ClosedMeets MeetsBounds
  have h1 : (∀ t es, a.includeAllEdges = some t → ArgEdges t es → ∀ e ∈ es, Traverses c.asPath e) ↔
      (∀ t es, a.includeAllEdges = some t → ArgEdges t es → ∀ e ∈ es, CycleTraverses c.vertices e) := by
    refine forall_congr' fun t => forall_congr' fun es => forall_congr' fun e1 => forall_congr' fun e2 => forall_congr' fun e =>
      forall_congr' fun e3 => ?_
    rw [closing_or_open]
    exact ⟨.inl, fun h => h.resolve_right (hn e (.inl ⟨t, es, e1, e2, e3⟩))⟩
  have h2 : (∀ t es, a.excludeAllEdges = some t → ArgEdges t es → ∀ e ∈ es, ¬ Traverses c.asPath e) ↔
      (∀ t es, a.excludeAllEdges = some t → ArgEdges t es → ∀ e ∈ es, ¬ CycleTraverses c.vertices e) := by
    refine forall_congr' fun t => forall_congr' fun es => forall_congr' fun e1 => forall_congr' fun e2 => forall_congr' fun e =>
      forall_congr' fun e3 => not_congr ?_
    rw [closing_or_open]
    exact ⟨.inl, fun h => h.resolve_right (hn e (.inr ⟨t, es, e1, e2, e3⟩))⟩
  have h3 : ∀ v, Visits c.asPath v ↔ v ∈ c.vertices := fun v => List.mem_iff_getElem?.symm
  rw [h1, h2]
  simp only [h3]
  rfl

/-- C53: what gc-cycle prints with each action for the selected cycles. `sel` are the enumerated cycles that meet the options, in the
order of the enumeration. Missing: as in `C53_options_partial`. -/
theorem C53_selected_partial (g : DirectedGraph) (h : Built g) (a : CycleArgs) (hm : a.maxScore = none)
    (hn : ∀ l e, IsCycle g l → SmallestFirst l → NamesEdge a e → ¬ IsClosingEdge l e) :
    ∃ cs sel, Returns (CycleAlg.takeAll g) cs ∧ sel.Sublist cs ∧ (∀ c ∈ cs, c ∈ sel ↔ ClosedMeets a c.vertices) ∧
      Returns (GcCycle.main g { count := true } a) ["count: ".toList ++ GcCycle.showNat sel.length] ∧
      (∃ r, Returns (GcCycle.main g { shortest := true } a) ["shortest cycle: ".toList ++ GcCycle.formatCycleOpt r] ∧ (r = none ↔ sel = []) ∧
        ∀ c, r = some c → c ∈ sel ∧ ∀ d ∈ sel, c.vertices.length ≤ d.vertices.length) ∧
      (∃ r, Returns (GcCycle.main g { longest := true } a) ["longest cycle: ".toList ++ GcCycle.formatCycleOpt r] ∧ (r = none ↔ sel = []) ∧
        ∀ c, r = some c → c ∈ sel ∧ ∀ d ∈ sel, d.vertices.length ≤ c.vertices.length) ∧
      Returns (GcCycle.main g { head := true } a) ((sel.take 1).map GcCycle.formatCycle) ∧
      (∀ t n, ArgNat t n → Returns (GcCycle.main g { takeN := some t } a) ((sel.take n).map GcCycle.formatCycle)) ∧
      Returns (GcCycle.main g { all := true } a) (sel.map GcCycle.formatCycle) := by
  obtain ⟨cs, h1, h2, h3⟩ := cycle_drains h.wf
  have hf : Drains (GcCycle.next g (cycleConstraints a)) (CycleIter.cycleIter g) (cs.filter fun c => GcCycle.check c (cycleConstraints a)) :=
    h1.filter _
  refine ⟨cs, cs.filter fun c => GcCycle.check c (cycleConstraints a), h1.collect, List.filter_sublist, ?_, ?_, ?_, ?_, ?_, ?_, ?_⟩
  · intro c hc
    have hi := (h3 c).1 hc
    rw [List.mem_filter, C53_options_partial a hm c fun e he => hn _ e hi.1 hi.2.1 he]
    exact ⟨fun h => h.2, fun h => ⟨hc, h⟩⟩
  · exact Returns.bind (hf.consume _) (.ret _)
  · exact ⟨_, Returns.bind (hf.consume _) (.ret _), minByKey_eq_none, fun c hc => minByKey_some hc⟩
  · exact ⟨_, Returns.bind (hf.consume _) (.ret _), maxByKey_eq_none, fun c hc => maxByKey_some hc⟩
  · exact Returns.bind (hf.takeN 1) (.ret _)
  · intro t n ht
    have e : GcCycle.takeN { takeN := some t } = some n := parseUsize_iff.2 ht
    simp only [GcCycle.main, Bool.false_eq_true, if_false, e]
    exact Returns.bind (hf.takeN n) (.ret _)
  · exact Returns.bind hf.collect (.ret _)

/-- C53: different cycles are printed differently. -/
theorem C53_format_injective (c d : Cycle) (h : GcCycle.formatCycle c = GcCycle.formatCycle d) : c = d := by
  have h' : GcCycle.showList c.vertices ++ "]".toList = GcCycle.showList d.vertices ++ "]".toList := by
    simpa [GcCycle.formatCycle] using h
  have := showList_injective h'
  cases c; cases d; simp_all

/-- C53 is false: the closing edge is not seen. In the graph 1→2→3→1, 2→4→3 both cycles go along the edge 3→1, but with
`include-all-edges 3 1` none is counted, and `exclude-all-edges 3 1` does not exclude any. -/
theorem C53_counterexample :
    Built exCycleGraph ∧ Returns (CycleAlg.takeAll exCycleGraph) [⟨[1, 2, 4, 3]⟩, ⟨[1, 2, 3]⟩] ∧
      CycleTraverses [1, 2, 4, 3] ⟨3, 1⟩ ∧ CycleTraverses [1, 2, 3] ⟨3, 1⟩ ∧ ArgEdges [['3'], ['1']] [⟨3, 1⟩] ∧
      Returns (GcCycle.main exCycleGraph { count := true } { includeAllEdges := some [['3'], ['1']] }) ["count: 0".toList] ∧
      Returns (GcCycle.main exCycleGraph { all := true } { excludeAllEdges := some [['3'], ['1']] })
        ["[1, 2, 4, 3]".toList, "[1, 2, 3]".toList] := by
  have hf : ∀ p s, Mono (Prog.filterNext p (CycleIter.next exCycleGraph) s) := by
    intro p s
    refine Mono.loop (fun s => ?_) s
    refine Mono.bind (mono_cycle_next _ s) fun r => ?_
    rcases r with _ | ⟨x, s'⟩
    · exact Mono.ret _
    · dsimp only
      split <;> exact Mono.ret _
  refine ⟨exCycleGraph_built, Mono.returns (n := 20) (Mono.collect (mono_cycle_next _) _) (by decide), ⟨3, rfl, rfl⟩, ⟨2, rfl, rfl⟩,
    parseEdgeList_iff.1 (by decide), ?_, ?_⟩
  · refine Mono.returns (n := 20) ?_ (by decide)
    exact Mono.bind (Mono.bind (Mono.collect (hf _) _) fun _ => Mono.ret _) fun _ => Mono.ret _
  · refine Mono.returns (n := 20) ?_ (by decide)
    exact Mono.bind (Mono.collect (hf _) _) fun _ => Mono.ret _

example : GcCycle.main exCycleGraph { shortest := true } { includeAll := some [['4']] } 30 =
    .done ["shortest cycle: [1, 2, 4, 3]".toList] := by decide
example : ¬ IsClosingEdge [1, 2, 4, 3] ⟨2, 3⟩ ∧
    GcCycle.main exCycleGraph { all := true } { excludeAllEdges := some [['2'], ['3']] } 30 = .done ["[1, 2, 4, 3]".toList] := by
  constructor
  · rintro ⟨h, _⟩
    exact absurd h (by decide)
  · decide

/-- C53: `girth` prints the smallest length of an enumerated cycle, or `Infinity`, and `hamiltonian` prints a Hamiltonian cycle if there is
one, or `N/A`, whatever the constraint options are. -/
theorem C53_girth_hamiltonian (g : DirectedGraph) (h : Built g) (a : CycleArgs) :
    (∃ cs t, Returns (CycleAlg.takeAll g) cs ∧ Returns (GcCycle.main g { girth := true } a) ["girth: ".toList ++ t] ∧
      (cs = [] → t = "Infinity".toList) ∧
      (cs ≠ [] → ∃ n, t = GcCycle.showNat n ∧ (∃ c ∈ cs, c.vertices.length = n) ∧ ∀ c ∈ cs, n ≤ c.vertices.length)) ∧
    (∃ t, Returns (GcCycle.main g { hamiltonian := true } a) ["hamiltonian: ".toList ++ t] ∧
      ((t = "N/A".toList ∧ ∀ l, ¬ HamiltonianCycle g l) ∨ ∃ c, t = GcCycle.formatCycle c ∧ HamiltonianCycle g c.vertices)) := by
  constructor
  · obtain ⟨cs, r, h1, h2, h3, h4⟩ := C50_girth g h
    obtain ⟨cs', h5, _, h6, _⟩ := C48_cycle_iter_sound g h
    cases h1.unique h5
    refine ⟨cs, _, h1, Returns.bind h2 (.ret _), ?_, ?_⟩
    · intro e
      rw [h3.2 e]
      rfl
    · intro e
      rcases r with _ | n
      · exact absurd (h3.1 rfl) e
      · obtain ⟨⟨c, hc, e1⟩, h7⟩ := h4 n rfl
        refine ⟨n, ?_, ⟨c, hc, e1⟩, h7⟩
        have : n ≠ 0 := by
          rintro rfl
          exact (h6 c hc).1.1 (List.length_eq_zero_iff.1 e1)
        rcases n with _ | n
        · exact absurd rfl this
        · rfl
  · obtain ⟨r, h1, h2, h3⟩ := C51_hamiltonian_cycle g h
    refine ⟨_, Returns.bind h1 (.ret _), ?_⟩
    rcases r with _ | c
    · exact .inl ⟨rfl, h3.1 rfl⟩
    · exact .inr ⟨c, rfl, h2 c rfl⟩

example : GcCycle.main exCycleGraph { girth := true } {} 30 = .done ["girth: 3".toList] ∧
    GcCycle.main exCycleGraph { hamiltonian := true } {} 30 = .done ["hamiltonian: [1, 2, 4, 3]".toList] ∧
    GcCycle.main .new { girth := true } {} 30 = .done ["girth: Infinity".toList] := by decide

/-- C53: edge options are silently ignored when they have an odd number of values. -/
theorem C53_odd_edge_values_ignored (g : DirectedGraph) (act : GcCycle.Actions) (a : CycleArgs) (t : List Text) (ht : t.length % 2 = 1) :
    GcCycle.main g act { a with includeAllEdges := some t } = GcCycle.main g act { a with includeAllEdges := none } ∧
    GcCycle.main g act { a with excludeAllEdges := some t } = GcCycle.main g act { a with excludeAllEdges := none } := by
  have e : parseEdgeList t = none := by
    rcases e : parseEdgeList t with _ | es
    · rfl
    · exfalso
      have := parseEdgeList_iff.1 e
      clear e
      induction this with
      | nil => simp at ht
      | cons _ _ _ ih => exact ih (by simp at ht; omega)
  have e1 : cycleConstraints { a with includeAllEdges := some t } = cycleConstraints { a with includeAllEdges := none } := by
    unfold cycleConstraints
    dsimp only
    rw [Option.bind_some, e, Option.bind_none]
  have e2 : cycleConstraints { a with excludeAllEdges := some t } = cycleConstraints { a with excludeAllEdges := none } := by
    unfold cycleConstraints
    dsimp only
    rw [Option.bind_some, e, Option.bind_none]
  unfold GcCycle.main
  rw [e1, e2]
  exact ⟨rfl, rfl⟩

theorem exCycleGraph_strong : StronglyConnected exCycleGraph := by
  have key : ∀ a ∈ exCycleGraph.vertices, ∀ b ∈ exCycleGraph.vertices, Reach exCycleGraph a b := by
    have h12 : Reach exCycleGraph 1 2 := .single (by decide)
    have h23 : Reach exCycleGraph 2 3 := .single (by decide)
    have h31 : Reach exCycleGraph 3 1 := .single (by decide)
    have h24 : Reach exCycleGraph 2 4 := .single (by decide)
    have h43 : Reach exCycleGraph 4 3 := .single (by decide)
    have to1 : ∀ a ∈ exCycleGraph.vertices, Reach exCycleGraph a 1 := by
      rw [show exCycleGraph.vertices = [1, 2, 3, 4] by decide]
      simp only [List.forall_mem_cons]
      exact ⟨.refl, h23.trans h31, h31, h43.trans h31, by simp⟩
    have of1 : ∀ a ∈ exCycleGraph.vertices, Reach exCycleGraph 1 a := by
      rw [show exCycleGraph.vertices = [1, 2, 3, 4] by decide]
      simp only [List.forall_mem_cons]
      exact ⟨.refl, h12, h12.trans h23, h12.trans h24, by simp⟩
    exact fun a ha b hb => (to1 a ha).trans (of1 b hb)
  exact fun a b ha hb => key a (mem_vertices.2 ha) b (mem_vertices.2 hb)

/-- `C47_is_path_hamiltonian`, `C49_complete_partial` and `C50_girth_of_graph` for `exCycleGraph`, in which every vertex reaches every other. -/
example : HamiltonianPath exCycleGraph [1, 2, 4, 3] ∧
    (∃ cs, Returns (CycleAlg.takeAll exCycleGraph) cs ∧ ∃ c ∈ cs, c.vertices ~r [2, 3, 1]) ∧
    ∃ n, Returns (CycleAlg.girth exCycleGraph) (some n) ∧ n ≤ 3 := by
  have hc : IsCycle exCycleGraph [2, 3, 1] := ⟨by decide, by decide, by decide⟩
  obtain ⟨cs, h1, h2⟩ := C49_complete_partial _ exCycleGraph_built (.inr exCycleGraph_strong)
  obtain ⟨r, h3, h4, h5⟩ := C50_girth_of_graph _ exCycleGraph_built (.inr exCycleGraph_strong)
  refine ⟨(C47_is_path_hamiltonian _ exCycleGraph_built ⟨[1, 2, 4, 3]⟩ (by decide) (by decide)).1 (by decide), ⟨cs, h1, h2 _ hc⟩, ?_⟩
  cases r with
  | none => exact absurd hc (h4.1 rfl _)
  | some n => exact ⟨n, h3, (h5 n rfl).2 _ hc⟩

/-- `C53_options_partial` and `C53_selected_partial` for `--include-all 4`, which names no edge. -/
example : (GcCycle.check ⟨[1, 2, 4, 3]⟩ (cycleConstraints { includeAll := some [['4']] }) = true ↔
      ClosedMeets { includeAll := some [['4']] } [1, 2, 4, 3]) ∧
    ∃ cs, ∃ sel : List Cycle, Returns (CycleAlg.takeAll exCycleGraph) cs ∧ (∀ c ∈ cs, c ∈ sel ↔ ClosedMeets { includeAll := some [['4']] } c.vertices) ∧
      Returns (GcCycle.main exCycleGraph { all := true } { includeAll := some [['4']] }) (sel.map GcCycle.formatCycle) := by
  have hno : ∀ e, ¬ NamesEdge { includeAll := some [['4']] } e := by
    intro e he
    rcases he with ⟨l, es, h, _⟩ | ⟨l, es, h, _⟩ <;> cases h
  refine ⟨C53_options_partial _ rfl _ (fun e he => absurd he (hno e)), ?_⟩
  obtain ⟨cs, sel, h1, _, h2, _, _, _, _, _, h3⟩ :=
    C53_selected_partial exCycleGraph exCycleGraph_built { includeAll := some [['4']] } rfl (fun l e _ _ he => absurd he (hno e))
  exact ⟨cs, sel, h1, h2, h3⟩

example : (["3".toList] : List Text).length % 2 = 1 ∧
    GcCycle.main exCycleGraph { count := true } { excludeAllEdges := some ["3".toList] } 30 = .done ["count: 2".toList] := by decide

end GC
