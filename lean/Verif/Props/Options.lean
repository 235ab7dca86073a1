/-
C136: what gc-csp finds, compared with changes of the graph and with gc-short-path.
-/
import Verif.Proofs.Options
namespace GC
open DirectedGraph Args Text Main

/-- Excluding vertices is like deleting them first, whatever the other constraints are. -/
theorem C136_excluded_vertices (H H' : ScoredHeap) (g : DirectedGraph) (h : Built g) (vs : List VertexId) (cs : List Constraint) (s t : VertexId)
    (hs : s ∉ vs) (k : Int) (hk : k < 2 ^ 63 - 1) :
    FindsWalk H g s t (vs.map (fun v => .Not (.ContainsVertex v)) ++ cs) k ↔
      FindsWalk H' (GraphCommand.applyCommands (vs.map .RemoveVertex) g) s t cs k := by
  rw [csp_found_iff h hk, csp_found_iff (h.applyCommands _) hk]
  refine Best.congr fun l => ?_
  rw [walk_removeVertices h hs]
  simp only [Meets, List.mem_append, List.mem_map]
  constructor
  · rintro ⟨h1, h2⟩
    exact ⟨⟨h1, fun v hv hm => h2 _ (.inl ⟨v, hv, rfl⟩) (visits_iff.2 hm)⟩, fun c hc => h2 c (.inr hc)⟩
  · rintro ⟨⟨h1, h2⟩, h3⟩
    refine ⟨h1, ?_⟩
    rintro c (⟨v, hv, rfl⟩ | hc)
    · exact fun hm => h2 v hv (visits_iff.1 hm)
    · exact h3 c hc

/-- Nothing is found from a vertex that is excluded. -/
theorem C136_excluded_start (H : ScoredHeap) (g : DirectedGraph) (h : Built g) (cs : List Constraint) (s t : VertexId)
    (hs : .Not (.ContainsVertex s) ∈ cs) (k : Int) : ¬ FindsWalk H g s t cs k := by
  intro hf
  obtain ⟨l, ⟨h1, h2⟩, _⟩ := best_of_found h hf
  exact h2 _ hs (visits_iff.2 (List.mem_of_mem_head? h1.2.1))

/-- Excluding edges is like deleting them first, whatever the other constraints are. -/
theorem C136_excluded_edges (H H' : ScoredHeap) (g : DirectedGraph) (h : Built g) (es : List Edge) (cs : List Constraint) (s t : VertexId)
    (k : Int) (hk : k < 2 ^ 63 - 1) :
    FindsWalk H g s t (es.map (fun e => .Not (.ContainsEdge e)) ++ cs) k ↔
      FindsWalk H' (GraphCommand.applyCommands (es.map fun e => .RemoveEdge e.src e.dst) g) s t cs k := by
  rw [csp_found_iff h hk, csp_found_iff (h.applyCommands _) hk]
  refine Best.congr fun l => ?_
  rw [walk_removeEdges h]
  simp only [Meets, List.mem_append, List.mem_map]
  constructor
  · rintro ⟨h1, h2⟩
    exact ⟨⟨h1, fun e he hm => h2 _ (.inl ⟨e, he, rfl⟩) hm⟩, fun c hc => h2 c (.inr hc)⟩
  · rintro ⟨⟨h1, h2⟩, h3⟩
    refine ⟨h1, ?_⟩
    rintro c (⟨e, he, rfl⟩ | hc)
    · exact fun hm => h2 e he hm
    · exact h3 c hc

/-- The same for the option `exclude` of gc-csp, next to any other options. -/
theorem C136_exclude_option (H H' : ScoredHeap) (g : DirectedGraph) (h : Built g) (a : CspArgs) (texts : List Text) (vs : List VertexId)
    (hv : ArgIds texts vs) (s t : VertexId) (hs : s ∉ vs) (k : Int) (hk : k < 2 ^ 63 - 1) :
    FindsWalk H g s t (cspConstraints { a with exclude := some texts }) k ↔
      FindsWalk H' (GraphCommand.applyCommands (vs.map .RemoveVertex) g) s t (cspConstraints { a with exclude := none }) k := by
  rw [csp_found_iff h hk, csp_found_iff (h.applyCommands _) hk]
  refine Best.congr fun l => ?_
  rw [walk_removeVertices h hs]
  have e1 : ∀ a, Meets (cspConstraints a) l ↔ CspAccepts a ⟨⟨l⟩, (l.length : Int) - 1⟩ := fun a => satisfies_options a _
  rw [e1, e1]
  unfold CspAccepts CspMeets
  simp only [Option.some.injEq, reduceCtorEq, false_implies, implies_true, true_and]
  have e2 : (∀ l_1 vs_1, texts = l_1 → ArgIds l_1 vs_1 → ∀ v ∈ vs_1, ¬ Visits ⟨l⟩ v) ↔ ∀ v ∈ vs, v ∉ l := by
    simp only [visits_iff]
    constructor
    · exact fun hx => hx _ _ rfl hv
    · rintro hx _ vs' rfl hv'
      have : vs' = vs := Option.some.inj ((parseVertexIdList_iff.2 hv').symm.trans (parseVertexIdList_iff.2 hv))
      exact this ▸ hx
  rw [e2]
  tauto

/-- Without constraints gc-csp finds as many edges as gc-short-path. -/
theorem C136_no_constraints (H H' : ScoredHeap) (g : DirectedGraph) (h : Built g) (hsize : g.vertexCount < 2 ^ 63) (s t : VertexId) (k : Int)
    (hk : k < 2 ^ 63 - 1) : FindsWalk H g s t [] k ↔ Cost H' g s t (some k) := by
  rw [csp_found_iff h hk, cost_iff h hsize]
  exact Best.congr fun l => by simp [Meets]

/-- gc-csp with `exclude` finds as many edges as gc-short-path after the vertices have been deleted. -/
theorem C136_delete_instead (H H' : ScoredHeap) (g : DirectedGraph) (h : Built g) (texts : List Text) (vs : List VertexId)
    (hv : ArgIds texts vs) (hsize : (GraphCommand.applyCommands (vs.map .RemoveVertex) g).vertexCount < 2 ^ 63) (s t : VertexId) (hs : s ∉ vs) (k : Int)
    (hk : k < 2 ^ 63 - 1) :
    FindsWalk H g s t (cspConstraints { exclude := some texts }) k ↔ Cost H' (GraphCommand.applyCommands (vs.map .RemoveVertex) g) s t (some k) :=
  (C136_exclude_option H H g h {} texts vs hv s t hs k hk).trans (C136_no_constraints H H' _ (h.applyCommands _) hsize s t k hk)

/-- Forbidding cycles changes nothing: a shortest path has none. -/
theorem C136_no_cycle (H H' : ScoredHeap) (g : DirectedGraph) (h : Built g) (hsize : g.vertexCount < 2 ^ 63) (s t : VertexId) (k : Int)
    (hk : k < 2 ^ 63 - 1) : FindsWalk H g s t [.Not .ContainsCycle] k ↔ Cost H' g s t (some k) := by
  have hsimple : ∀ l, WalkFromTo g s t l → ∃ l', WalkFromTo g s t l' ∧ Meets [.Not .ContainsCycle] l' ∧ ∀ m, WalkFromTo g s t m → l'.length ≤ m.length := by
    intro l hl
    obtain ⟨r, _, h2, h3⟩ := C33_short_path_optimal H g h hsize s t
    cases r with
    | none => exact absurd hl.reach (h2.1 rfl)
    | some sp =>
      obtain ⟨h4, h5, _, h6⟩ := h3 sp rfl
      refine ⟨sp.path.vertices, h4, ?_, h6⟩
      intro c hc
      rw [List.mem_singleton] at hc
      subst hc
      rintro ⟨i, j, v, hij, hi, hj⟩
      unfold At at hi hj
      simp only at hi hj
      obtain ⟨a1, b1⟩ := List.getElem?_eq_some_iff.1 hi
      obtain ⟨a2, b2⟩ := List.getElem?_eq_some_iff.1 hj
      have := (List.Nodup.getElem_inj_iff h5).1 (b1.trans b2.symm)
      omega
  rw [csp_found_iff h hk, cost_iff h hsize]
  constructor
  · rintro ⟨l, ⟨h1, _⟩, rfl, h3⟩
    obtain ⟨l', h4, h5, h6⟩ := hsimple l h1
    exact ⟨l, h1, rfl, fun m hm => Nat.le_trans (h3 l' ⟨h4, h5⟩) (h6 m hm)⟩
  · rintro ⟨l, h1, rfl, h3⟩
    obtain ⟨l', h4, h5, h6⟩ := hsimple l h1
    have e : l.length = l'.length := Nat.le_antisymm (h3 l' h4) (h6 l h1)
    exact ⟨l', ⟨h4, h5⟩, by rw [e], fun m hm => h6 m hm.1⟩

/-- To go through a vertex is to go to it and from there to the end. -/
theorem C136_through_vertex (H H' : ScoredHeap) (g : DirectedGraph) (h : Built g) (hsize : g.vertexCount < 2 ^ 63) (s t a : VertexId) (k : Int)
    (hk : k < 2 ^ 63 - 1) :
    FindsWalk H g s t [.ContainsVertex a] k ↔ ∃ x y, Cost H' g s a (some x) ∧ Cost H' g a t (some y) ∧ k = x + y := by
  have hm : ∀ l, Meets [.ContainsVertex a] l ↔ a ∈ l := fun l => by simp [Meets, Satisfies, visits_iff]
  have hjoin : ∀ {l l' : List VertexId}, WalkFromTo g s a l → WalkFromTo g a t l' → ∃ m, WalkFromTo g s t m ∧ a ∈ m ∧ m.length + 1 = l.length + l'.length := by
    intro l l' hl hl'
    obtain ⟨p, rfl⟩ := List.getLast?_eq_some_iff.1 hl.2.2
    obtain ⟨q, rfl⟩ := List.head?_eq_some_iff.1 hl'.2.1
    exact ⟨_, hl.join hl', by simp, by simp; omega⟩
  rw [csp_found_iff h hk]
  simp only [cost_iff h hsize, hm]
  constructor
  · rintro ⟨l, ⟨h1, h2⟩, rfl, h3⟩
    obtain ⟨p, q, rfl⟩ := List.append_of_mem h2
    obtain ⟨w1, w2⟩ := h1.split
    obtain ⟨x, hx, hx'⟩ := Best.exists (P := WalkFromTo g s a) w1
    obtain ⟨y, hy, hy'⟩ := Best.exists (P := WalkFromTo g a t) w2
    refine ⟨x, y, hx, hy, ?_⟩
    obtain ⟨l1, a1, rfl, _⟩ := hx
    obtain ⟨l2, a2, rfl, _⟩ := hy
    obtain ⟨m, b1, b2, b3⟩ := hjoin a1 a2
    have := h3 m ⟨b1, b2⟩
    simp at this hx' hy' ⊢
    omega
  · rintro ⟨x, y, ⟨l1, a1, rfl, m1⟩, ⟨l2, a2, rfl, m2⟩, rfl⟩
    obtain ⟨m, b1, b2, b3⟩ := hjoin a1 a2
    refine ⟨m, ⟨b1, b2⟩, by omega, ?_⟩
    rintro l' ⟨c1, c2⟩
    obtain ⟨p, q, rfl⟩ := List.append_of_mem c2
    obtain ⟨w1, w2⟩ := c1.split
    have := m1 _ w1
    have := m2 _ w2
    simp at *
    omega

/-- To go along an edge is to go to its first end, and on from its second. -/
theorem C136_through_edge (H H' : ScoredHeap) (g : DirectedGraph) (h : Built g) (hsize : g.vertexCount < 2 ^ 63) (s t : VertexId) (e : Edge)
    (k : Int) (hk : k < 2 ^ 63 - 1) :
    FindsWalk H g s t [.ContainsEdge e] k ↔
      g.containsEdge e = true ∧ ∃ x y, Cost H' g s e.src (some x) ∧ Cost H' g e.dst t (some y) ∧ k = x + 1 + y := by
  have hm : ∀ l, Meets [.ContainsEdge e] l ↔ ∃ p q, l = p ++ e.src :: e.dst :: q := fun l => by simp [Meets, Satisfies, traverses_iff]
  have hsplit : ∀ {p q : List VertexId}, WalkFromTo g s t (p ++ e.src :: e.dst :: q) →
      WalkFromTo g s e.src (p ++ [e.src]) ∧ Adj g e.src e.dst ∧ WalkFromTo g e.dst t (e.dst :: q) := by
    intro p q hw
    obtain ⟨w1, w2⟩ := hw.split
    obtain ⟨_, w3⟩ := WalkFromTo.split (a := [e.src]) w2
    exact ⟨w1, (List.isChain_cons_cons.1 w2.1).1, w3⟩
  have hjoin : ∀ {l l' : List VertexId}, Adj g e.src e.dst → WalkFromTo g s e.src l → WalkFromTo g e.dst t l' →
      ∃ p q, WalkFromTo g s t (p ++ e.src :: e.dst :: q) ∧ l = p ++ [e.src] ∧ l' = e.dst :: q := by
    intro l l' ha hl hl'
    obtain ⟨p, rfl⟩ := List.getLast?_eq_some_iff.1 hl.2.2
    obtain ⟨q, rfl⟩ := List.head?_eq_some_iff.1 hl'.2.1
    refine ⟨p, q, hl.join ⟨List.isChain_cons_cons.2 ⟨ha, hl'.1⟩, rfl, ?_⟩, rfl, rfl⟩
    have := hl'.2.2
    rw [List.getLast?_cons_cons]
    exact this
  have hadj : g.containsEdge e = true ↔ Adj g e.src e.dst := Iff.rfl
  rw [csp_found_iff h hk, hadj]
  simp only [cost_iff h hsize, hm]
  constructor
  · rintro ⟨l, ⟨h1, p, q, rfl⟩, rfl, h3⟩
    obtain ⟨w1, ha, w2⟩ := hsplit h1
    obtain ⟨x, hx, hx'⟩ := Best.exists (P := WalkFromTo g s e.src) w1
    obtain ⟨y, hy, hy'⟩ := Best.exists (P := WalkFromTo g e.dst t) w2
    refine ⟨ha, x, y, hx, hy, ?_⟩
    obtain ⟨l1, a1, rfl, _⟩ := hx
    obtain ⟨l2, a2, rfl, _⟩ := hy
    obtain ⟨p', q', b1, rfl, rfl⟩ := hjoin ha a1 a2
    have := h3 _ ⟨b1, p', q', rfl⟩
    simp at this hx' hy' ⊢
    omega
  · rintro ⟨ha, x, y, ⟨l1, a1, rfl, m1⟩, ⟨l2, a2, rfl, m2⟩, rfl⟩
    obtain ⟨p, q, b1, rfl, rfl⟩ := hjoin ha a1 a2
    refine ⟨_, ⟨b1, p, q, rfl⟩, by simp; omega, ?_⟩
    rintro l' ⟨c1, p', q', rfl⟩
    obtain ⟨w1, _, w2⟩ := hsplit c1
    have := m1 _ w1
    have := m2 _ w2
    simp at *
    omega

/-- A greatest number of vertices only decides whether the shortest path is accepted. -/
theorem C136_max_length (H H' : ScoredHeap) (g : DirectedGraph) (h : Built g) (hsize : g.vertexCount < 2 ^ 63) (s t : VertexId) (n : Nat) (k : Int)
    (hk : k < 2 ^ 63 - 1) : FindsWalk H g s t [.MaxLength n] k ↔ Cost H' g s t (some k) ∧ k + 1 ≤ n := by
  have hm : ∀ l, Meets [.MaxLength n] l ↔ l.length ≤ n := fun l => by simp [Meets, Satisfies]
  rw [csp_found_iff h hk, cost_iff h hsize]
  simp only [hm]
  constructor
  · rintro ⟨l, ⟨h1, h2⟩, rfl, h3⟩
    refine ⟨⟨l, h1, rfl, fun l' hl' => ?_⟩, by omega⟩
    by_contra hc
    have := h3 l' ⟨hl', by omega⟩
    omega
  · rintro ⟨⟨l, h1, rfl, h3⟩, h2⟩
    exact ⟨l, ⟨h1, by omega⟩, rfl, fun l' hl' => h3 l' hl'.1⟩

/-- Constraints that say the same of every walk find the same number of edges: their order, their form and repetitions do not matter. -/
theorem C136_same_meaning (H H' : ScoredHeap) (g : DirectedGraph) (h : Built g) (s t : VertexId) (cs cs' : List Constraint)
    (hm : ∀ sp, (∀ c ∈ cs, Satisfies sp c) ↔ ∀ c ∈ cs', Satisfies sp c) (k : Int) (hk : k < 2 ^ 63 - 1) :
    FindsWalk H g s t cs k ↔ FindsWalk H' g s t cs' k := by
  rw [csp_found_iff h hk, csp_found_iff h hk]
  exact Best.congr fun l => and_congr_right fun _ => hm _

/-- With fewer constraints something is still found, and nothing longer. -/
theorem C136_fewer_constraints (H H' : ScoredHeap) (g : DirectedGraph) (h : Built g) (s t : VertexId) (cs cs' : List Constraint)
    (hsub : ∀ c ∈ cs', c ∈ cs) (k : Int) (hk : k < 2 ^ 63 - 1) (hf : FindsWalk H g s t cs k) : ∃ k', FindsWalk H' g s t cs' k' ∧ k' ≤ k := by
  obtain ⟨l, ⟨h1, h2⟩, rfl, _⟩ := best_of_found h hf
  obtain ⟨k', h3, h4⟩ := Best.exists (P := fun l => WalkFromTo g s t l ∧ Meets cs' l) ⟨h1, fun c hc => h2 c (hsub c hc)⟩
  exact ⟨k', found_of_best h (by omega) h3, h4⟩

/-- What one of two constraints allows is the better of what each allows. -/
theorem C136_either (H H' : ScoredHeap) (g : DirectedGraph) (h : Built g) (s t : VertexId) (a b : Constraint) (cs : List Constraint) (k : Int)
    (hk : k < 2 ^ 63 - 1) :
    FindsWalk H g s t (.Or a b :: cs) k ↔ (FindsWalk H' g s t (a :: cs) k ∨ FindsWalk H' g s t (b :: cs) k) ∧
      ∀ k', k' < 2 ^ 63 - 1 → (FindsWalk H' g s t (a :: cs) k' ∨ FindsWalk H' g s t (b :: cs) k') → k ≤ k' := by
  have e : ∀ l c, (WalkFromTo g s t l ∧ Meets (c :: cs) l) ↔ WalkFromTo g s t l ∧ Satisfies ⟨⟨l⟩, (l.length : Int) - 1⟩ c ∧ Meets cs l := by
    intro l c
    simp [Meets]
  have hor : ∀ l, (WalkFromTo g s t l ∧ Meets (.Or a b :: cs) l) ↔ (WalkFromTo g s t l ∧ Meets (a :: cs) l) ∨ (WalkFromTo g s t l ∧ Meets (b :: cs) l) := by
    intro l
    rw [e, e, e]
    show _ ∧ (_ ∨ _) ∧ _ ↔ _
    tauto
  rw [csp_found_iff h hk, csp_found_iff h hk, csp_found_iff h hk, Best.congr hor]
  constructor
  · rintro ⟨l, h1, rfl, h2⟩
    refine ⟨?_, ?_⟩
    · rcases h1 with h1 | h1
      · exact .inl ⟨l, h1, rfl, fun l' hl' => h2 l' (.inl hl')⟩
      · exact .inr ⟨l, h1, rfl, fun l' hl' => h2 l' (.inr hl')⟩
    · intro k' hk' hf
      rw [csp_found_iff h hk', csp_found_iff h hk'] at hf
      rcases hf with ⟨l', h3, rfl, _⟩ | ⟨l', h3, rfl, _⟩
      · have := h2 l' (.inl h3); omega
      · have := h2 l' (.inr h3); omega
  · rintro ⟨h1, h2⟩
    obtain ⟨l, h3, e3⟩ : ∃ l, ((WalkFromTo g s t l ∧ Meets (a :: cs) l) ∨ (WalkFromTo g s t l ∧ Meets (b :: cs) l)) ∧ k = (l.length : Int) - 1 := by
      rcases h1 with ⟨l, h1, e1, _⟩ | ⟨l, h1, e1, _⟩
      · exact ⟨l, .inl h1, e1⟩
      · exact ⟨l, .inr h1, e1⟩
    refine ⟨l, h3, e3, fun l' hl' => ?_⟩
    by_contra hc
    rcases hl' with hl' | hl'
    · obtain ⟨k', h4, h5⟩ := Best.exists (P := fun l => WalkFromTo g s t l ∧ Meets (a :: cs) l) hl'
      have := h2 k' (by omega) (.inl (found_of_best h (by omega) h4))
      omega
    · obtain ⟨k', h4, h5⟩ := Best.exists (P := fun l => WalkFromTo g s t l ∧ Meets (b :: cs) l) hl'
      have := h2 k' (by omega) (.inr (found_of_best h (by omega) h4))
      omega

/-! ### Cases -/

/-- The search ends on the graph 1 → 2 → 4, 1 → 3 → 4, 4 → 1, 5 → 1. -/
theorem exFound {s t : VertexId} {cs : List Constraint} {p : List VertexId} {k : Int} (n : Nat)
    (h : AStar.gcCsp exHeap exIterGraph s t cs n = .done (some ⟨⟨p⟩, k⟩)) : FindsWalk exHeap exIterGraph s t cs k :=
  ⟨_, Mono.returns (mono_csp _ _ _ _ _) h, rfl⟩

-- C136_excluded_vertices, C136_exclude_option, C136_delete_instead: without 2 the way from 1 to 4 is over 3.
example : FindsWalk exHeap (GraphCommand.applyCommands [.RemoveVertex 2] exIterGraph) 1 4 [.ContainsVertex 3] 2 :=
  (C136_excluded_vertices exHeap exHeap exIterGraph exIterGraph_built [2] [.ContainsVertex 3] 1 4 (by decide) 2 (by decide)).1
    (exFound (p := [1, 3, 4]) 40 (by decide +kernel))
example : FindsWalk exHeap (GraphCommand.applyCommands [.RemoveVertex 2] exIterGraph) 1 4 (cspConstraints { include_ := some ["3".toList] }) 2 :=
  (C136_exclude_option exHeap exHeap exIterGraph exIterGraph_built { include_ := some ["3".toList] } ["2".toList] [2]
    (parseVertexIdList_iff.1 (by decide)) 1 4 (by decide) 2 (by decide)).1 (exFound (p := [1, 3, 4]) 40 (by decide +kernel))
example : Cost exHeap (GraphCommand.applyCommands [.RemoveVertex 2] exIterGraph) 1 4 (some 2) :=
  (C136_delete_instead exHeap exHeap exIterGraph exIterGraph_built ["2".toList] [2] (parseVertexIdList_iff.1 (by decide)) (by decide) 1 4
    (by decide) 2 (by decide)).1 (exFound (p := [1, 3, 4]) 40 (by decide +kernel))

-- C136_excluded_start: although 1 can be reached from itself.
example : ¬ FindsWalk exHeap exIterGraph 1 1 [.Not (.ContainsVertex 1)] 0 := C136_excluded_start _ _ exIterGraph_built _ _ _ (by simp) _

-- C136_excluded_edges: without 1 → 2.
example : FindsWalk exHeap (GraphCommand.applyCommands [.RemoveEdge 1 2] exIterGraph) 5 4 [] 3 :=
  (C136_excluded_edges exHeap exHeap exIterGraph exIterGraph_built [⟨1, 2⟩] [] 5 4 3 (by decide)).1
    (exFound (p := [5, 1, 3, 4]) 60 (by decide +kernel))

-- C136_no_constraints, C136_no_cycle
example : Cost exHeap exIterGraph 5 3 (some 2) :=
  (C136_no_constraints exHeap exHeap exIterGraph exIterGraph_built (by decide) 5 3 2 (by decide)).1 (exFound (p := [5, 1, 3]) 60 (by decide +kernel))
example : FindsWalk exHeap exIterGraph 5 3 [.Not .ContainsCycle] 2 :=
  (C136_no_cycle exHeap exHeap exIterGraph exIterGraph_built (by decide) 5 3 2 (by decide)).2
    ((C136_no_constraints exHeap exHeap exIterGraph exIterGraph_built (by decide) 5 3 2 (by decide)).1 (exFound (p := [5, 1, 3]) 60 (by decide +kernel)))

-- C136_through_vertex: from 1 to 3 through 4 is a walk with a cycle.
example : ∃ x y, Cost exHeap exIterGraph 1 4 (some x) ∧ Cost exHeap exIterGraph 4 3 (some y) ∧ (4 : Int) = x + y :=
  (C136_through_vertex exHeap exHeap exIterGraph exIterGraph_built (by decide) 1 3 4 4 (by decide)).1
    (exFound (p := [1, 2, 4, 1, 3]) 200 (by decide +kernel))

-- C136_through_edge
example : exIterGraph.containsEdge ⟨4, 1⟩ = true ∧ ∃ x y, Cost exHeap exIterGraph 2 4 (some x) ∧ Cost exHeap exIterGraph 1 4 (some y) ∧ (4 : Int) = x + 1 + y :=
  (C136_through_edge exHeap exHeap exIterGraph exIterGraph_built (by decide) 2 4 ⟨4, 1⟩ 4 (by decide)).1
    (exFound (p := [2, 4, 1, 2, 4]) 200 (by decide +kernel))

-- C136_max_length: three vertices are enough from 1 to 4, two are not.
example : Cost exHeap exIterGraph 1 4 (some 2) :=
  ((C136_max_length exHeap exHeap exIterGraph exIterGraph_built (by decide) 1 4 3 2 (by decide)).1 (exFound (p := [1, 2, 4]) 60 (by decide +kernel))).1
example : ¬ FindsWalk exHeap exIterGraph 1 4 [.MaxLength 2] 2 := fun hf =>
  absurd ((C136_max_length exHeap exHeap exIterGraph exIterGraph_built (by decide) 1 4 2 2 (by decide)).1 hf).2 (by decide)

-- C136_same_meaning: constraints in another form and order.
example : FindsWalk exHeap exIterGraph 1 3 [.And (.Not (.Not (.ContainsVertex 4))) (.MaxLength 9)] 4 :=
  (C136_same_meaning exHeap exHeap exIterGraph exIterGraph_built 1 3 [.MaxLength 9, .ContainsVertex 4] _ (fun sp => by
    simp only [List.forall_mem_cons, List.not_mem_nil, false_implies, implies_true, and_true, Satisfies, not_not]
    exact and_comm) 4 (by decide)).1 (exFound (p := [1, 2, 4, 1, 3]) 200 (by decide +kernel))

-- C136_fewer_constraints
example : ∃ k', FindsWalk exHeap exIterGraph 1 3 [.MaxLength 9] k' ∧ k' ≤ 4 :=
  C136_fewer_constraints exHeap exHeap exIterGraph exIterGraph_built 1 3 [.MaxLength 9, .ContainsVertex 4] [.MaxLength 9] (by simp) 4 (by decide)
    (exFound (p := [1, 2, 4, 1, 3]) 200 (by decide +kernel))

-- C136_either: through 2 (one edge) or through 5 (nothing).
example : FindsWalk exHeap exIterGraph 1 2 [.ContainsVertex 2] 1 ∨ FindsWalk exHeap exIterGraph 1 2 [.ContainsVertex 5] 1 :=
  ((C136_either exHeap exHeap exIterGraph exIterGraph_built 1 2 (.ContainsVertex 2) (.ContainsVertex 5) [] 1 (by decide)).1
    (exFound (p := [1, 2]) 60 (by decide +kernel))).1

end GC
