/-
Property C34, positive part: the costs for which `shortest_path` is optimal.
-/
import Verif.Proofs.TargetCost
import Verif.Proofs.Walk
import Verif.Props.Search
namespace GC
open DirectedGraph

theorem potential_walk {g : DirectedGraph} {w : Edge → Int} {pot c : VertexId → Int} {s : VertexId}
    (hc : ∀ u v, Adj g u v → w ⟨u, v⟩ + pot v - pot u = c v) (l : List VertexId) :
    ∀ v, WalkFromTo g s v l → walkWeight w l + pot v = pot s + (l.tail.map c).sum := by
  induction l using List.reverseRecOn with
  | nil => rintro v ⟨_, h, _⟩; cases h
  | append_singleton l b ih =>
    rintro v ⟨h1, h2, h3⟩
    have hvb : b = v := by simpa using h3
    subst hvb
    rcases List.eq_nil_or_concat l with rfl | ⟨l', u, rfl⟩
    · have : b = s := by simpa using h2
      subst this
      simp [walkWeight]
    · rw [List.concat_eq_append] at h1 h2 ih ⊢
      rw [List.isChain_append] at h1
      have ha : Adj g u b := h1.2.2 u (by simp) b (by simp)
      have hwalk : WalkFromTo g s u (l' ++ [u]) := ⟨h1.1, by
        rw [List.head?_append] at h2
        cases h : (l' ++ [u]).head? with
        | none => simp at h
        | some a => rw [h] at h2; exact h2, by simp⟩
      have i := ih u hwalk
      have htail : (l' ++ [u] ++ [b]).tail = (l' ++ [u]).tail ++ [b] := by cases l' <;> rfl
      rw [htail, List.map_append, List.sum_append, walkWeight_snoc hwalk]
      simp only [List.map_cons, List.map_nil, List.sum_cons, List.sum_nil, Int.add_zero]
      have := hc u b ha
      omega

/-- C34 (partial): let the cost of a path be a constant plus the sum of the weights of its edges, and the heuristic a value of the last
vertex. If the heuristic is consistent (`w u v + pot v - pot u`, the weight reduced by the heuristic, is never negative) and `c v` bounds the
reduced weights of the edges into `v`, then the reduced weight of the walk that `shortest_path` returns is at most the sum of the bounds
along any walk. Missing: it may not be minimal (`C34_counterexample`, `C34_counterexample_heuristic`). -/
theorem C34_bound_partial (H : ScoredHeap) (g : DirectedGraph) (h : Built g) (start end_ : VertexId) (cost heuristic : ScoreFn)
    (w : Edge → Int) (pot c : VertexId → Int) (k : Int)
    (hcost : ∀ p : Path, SimplePathFrom g start p.vertices → cost g p = .done (k + walkWeight w p.vertices))
    (hheur : ∀ (p : Path) v, p.vertices.getLast? = some v → heuristic g p = .done (pot v))
    (hsize : ∀ l v, SimplePathFrom g start l → l.getLast? = some v → -2 ^ 63 ≤ k + walkWeight w l + pot v ∧ k + walkWeight w l + pot v < 2 ^ 63)
    (hcons : ∀ u v, Adj g u v → 0 ≤ w ⟨u, v⟩ + pot v - pot u ∧ w ⟨u, v⟩ + pot v - pot u ≤ c v) (hr : Reach g start end_) :
    ∃ sp, Returns (AStar.shortestPath H g cost heuristic start end_) (some sp) ∧
      WalkFromTo g start end_ sp.path.vertices ∧ sp.score = k + walkWeight w sp.path.vertices + pot end_ ∧
      ∀ l, WalkFromTo g start end_ l → walkWeight w sp.path.vertices + pot end_ - pot start ≤ (l.tail.map c).sum := by
  let f : Path → Int := fun p => k + walkWeight w p.vertices + pot (p.vertices.getLast?.getD 0)
  have hf : ScoresBy g start (AStar.sumScore cost heuristic) f := by
    intro p hp
    obtain ⟨v, hv⟩ := hp.last
    unfold AStar.sumScore addI64
    rw [hcost p hp, hheur p v hv, Run.bind_done, Run.bind_done, if_pos (hsize _ v hp hv)]
    simp only [f, hv, Option.getD_some]
  have hext : ∀ (p : Path) u v, SimplePathFrom g start p.vertices → p.last = some u → Adj g u v → v ∉ p.vertices →
      f p ≤ f (p.append v) ∧ f (p.append v) ≤ f p + c v := by
    intro p u v hp hu ha _
    have hu' : p.vertices.getLast? = some u := hu
    have e1 : (p.append v).vertices = p.vertices ++ [v] := rfl
    have := hcons u v ha
    simp only [f, e1, hu', List.getLast?_concat, Option.getD_some, walkWeight_snoc (w := w) (⟨hp.1, hp.2.1, hu'⟩ : WalkFromTo g start u _)]
    omega
  obtain ⟨it, xs, h1, h2, h3, h4, h5, h6⟩ := best_drains_target (H := H) h.wf hf hext
  obtain ⟨r, hr', hn, hs⟩ := C32_shortest_path_exists H g h start end_ _ _ _ hf
  cases r with
  | none => exact absurd hr (hn.1 rfl)
  | some sp =>
    obtain ⟨h7, h8, h9⟩ := hs sp rfl
    have h10 : sp.score = k + walkWeight w sp.path.vertices + pot end_ := by
      rw [h9]
      simp only [f, h7.2.2, Option.getD_some]
    refine ⟨sp, hr', h7, h10, fun l hl => ?_⟩
    have hr2 : Returns (AStar.shortestPath H g cost heuristic start end_) (xs.find? (AStar.endsAt end_)) := by
      unfold AStar.shortestPath
      rw [h1]
      exact Returns.bind (Returns.lift_done _) (h2.find _)
    have hmem := List.mem_of_find?_eq_some (hr'.unique hr2).symm
    have hlast : lastOf sp = end_ := by
      have := last_eq_lastOf (h3 sp hmem).1
      rw [h7.2.2] at this
      exact (Option.some.inj this).symm
    obtain ⟨_, y, hy, hyl, hle⟩ := target_le (k := f ⟨[start]⟩) rfl (fun u v ha => (hcons u v ha).1.trans (hcons u v ha).2) h3
      (List.mem_map.1 ((h5 start).2 .refl)) h6 l end_ hl
    have hysp : y = sp := List.inj_on_of_nodup_map h4 hy hmem (hyl.trans hlast.symm)
    rw [hysp, h10] at hle
    have e : f ⟨[start]⟩ = k + pot start := by simp [f, walkWeight]
    rw [e] at hle
    omega

/-- C34 (partial): let the cost of a path be a constant plus the sum of the weights of its edges, and the heuristic a value of the last
vertex. If the heuristic is consistent (`w u v + pot v - pot u` is never negative) and this difference depends only on `v`, then
`shortest_path` returns a walk of minimum cost. Missing: differences that depend also on `u`, where the claim is false
(`C34_counterexample`, `C34_counterexample_heuristic`). -/
theorem C34_target_cost_partial (H : ScoredHeap) (g : DirectedGraph) (h : Built g) (start end_ : VertexId) (cost heuristic : ScoreFn)
    (w : Edge → Int) (pot c : VertexId → Int) (k : Int)
    (hcost : ∀ p : Path, SimplePathFrom g start p.vertices → cost g p = .done (k + walkWeight w p.vertices))
    (hheur : ∀ (p : Path) v, p.vertices.getLast? = some v → heuristic g p = .done (pot v))
    (hsize : ∀ l v, SimplePathFrom g start l → l.getLast? = some v → -2 ^ 63 ≤ k + walkWeight w l + pot v ∧ k + walkWeight w l + pot v < 2 ^ 63)
    (hcons : ∀ u v, Adj g u v → w ⟨u, v⟩ + pot v - pot u = c v ∧ 0 ≤ c v) (hr : Reach g start end_) :
    ∃ sp, Returns (AStar.shortestPath H g cost heuristic start end_) (some sp) ∧
      WalkFromTo g start end_ sp.path.vertices ∧ sp.score = k + walkWeight w sp.path.vertices + pot end_ ∧
      ∀ l, WalkFromTo g start end_ l → walkWeight w sp.path.vertices ≤ walkWeight w l := by
  obtain ⟨sp, h1, h2, h3, h4⟩ := C34_bound_partial H g h start end_ cost heuristic w pot c k hcost hheur hsize
    (fun u v ha => by have := hcons u v ha; omega) hr
  refine ⟨sp, h1, h2, h3, fun l hl => ?_⟩
  have := h4 l hl
  have := potential_walk (fun u v ha => (hcons u v ha).1) l end_ hl
  omega

theorem walkWeight_le {g : DirectedGraph} {w : Edge → Int} {lo : Int} (hlo : ∀ u v, Adj g u v → lo ≤ w ⟨u, v⟩)
    (l : List VertexId) : l.IsChain (Adj g) → lo * l.tail.length ≤ walkWeight w l := by
  induction l with
  | nil => intro _; simp [walkWeight]
  | cons a l ih =>
    cases l with
    | nil => intro _; simp [walkWeight]
    | cons b l =>
      intro hc
      rw [List.isChain_cons_cons] at hc
      have h1 := hlo a b hc.1
      have h2 := ih hc.2
      simp only [List.tail_cons, List.length_cons, walkWeight] at h2 ⊢
      push_cast
      rw [Int.mul_add]
      omega

/-- C34 (partial): if the heuristic is zero and the weights of all edges are between `lo` and `hi`, the cost of the walk that
`shortest_path` returns is at most `hi / lo` times the minimum; it is also at most `hi` times the least number of edges.
Missing: as in `C34_bound_partial`. -/
theorem C34_ratio_partial (H : ScoredHeap) (g : DirectedGraph) (h : Built g) (start end_ : VertexId) (cost : ScoreFn) (w : Edge → Int)
    (lo hi : Int) (hcost : ∀ p : Path, SimplePathFrom g start p.vertices → cost g p = .done (walkWeight w p.vertices))
    (hsize : ∀ l, SimplePathFrom g start l → walkWeight w l < 2 ^ 63) (h0 : 0 ≤ lo)
    (hw : ∀ u v, Adj g u v → lo ≤ w ⟨u, v⟩ ∧ w ⟨u, v⟩ ≤ hi) (hr : Reach g start end_) :
    ∃ sp, Returns (AStar.shortestPath H g cost AStar.zeroHeuristic start end_) (some sp) ∧
      WalkFromTo g start end_ sp.path.vertices ∧ sp.score = walkWeight w sp.path.vertices ∧
      ∀ l, WalkFromTo g start end_ l → sp.score ≤ hi * (l.length - 1 : Nat) ∧ lo * sp.score ≤ hi * walkWeight w l := by
  have hnn : ∀ l, l.IsChain (Adj g) → 0 ≤ walkWeight w l := fun l hl => by
    have := walkWeight_le (lo := 0) (fun u v ha => h0.trans (hw u v ha).1) l hl
    omega
  obtain ⟨sp, h1, h2, h3, h4⟩ := C34_bound_partial H g h start end_ cost AStar.zeroHeuristic w (fun _ => 0) (fun _ => hi) 0
    (fun p hp => by rw [hcost p hp, Int.zero_add]) (fun _ _ _ => rfl)
    (fun l v hl _ => by
      have := hsize l hl
      have := hnn l hl.1
      omega)
    (fun u v ha => by have := hw u v ha; omega) hr
  have e : sp.score = walkWeight w sp.path.vertices := by omega
  refine ⟨sp, h1, h2, e, fun l hl => ?_⟩
  have h5 := h4 l hl
  rw [List.map_const', List.sum_replicate, nsmul_eq_mul, List.length_tail] at h5
  have h6 := walkWeight_le (fun u v ha => (hw u v ha).1) l hl.1
  rw [List.length_tail] at h6
  have h7 : sp.score ≤ hi * (l.length - 1 : Nat) := by rw [Int.mul_comm]; omega
  refine ⟨h7, ?_⟩
  by_cases hz : l.length - 1 = 0
  · rw [hz] at h7
    have h8 := hnn l hl.1
    have h9 := hnn _ h2.1
    have h10 : sp.score = 0 := by simp at h7; omega
    have hhi : 0 ≤ hi * walkWeight w l := by
      have : walkWeight w l = 0 := by
        rcases l with _ | ⟨a, _ | ⟨b, l⟩⟩
        · rfl
        · rfl
        · simp at hz
      rw [this]; simp
    rw [h10]
    omega
  · have hhi : 0 ≤ hi := by
      rcases l with _ | ⟨a, _ | ⟨b, l⟩⟩
      · simp at hz
      · simp at hz
      · have ha := (List.isChain_cons_cons.1 hl.1).1
        have := hw a b ha
        omega
    calc lo * sp.score ≤ lo * (hi * (l.length - 1 : Nat)) := Int.mul_le_mul_of_nonneg_left h7 h0
      _ = hi * (lo * (l.length - 1 : Nat)) := Int.mul_left_comm _ _ _
      _ ≤ hi * walkWeight w l := Int.mul_le_mul_of_nonneg_left h6 hhi

/-- The graph of `C34_counterexample`: the returned cost 10 is at most 10 / 1 times the minimum 2. -/
example (H : ScoredHeap) : ∃ sp, Returns (AStar.shortestPath H exWeightGraph (fun _ p => .done (walkWeight exEdgeCost p.vertices))
      AStar.zeroHeuristic 1 3) (some sp) ∧ 1 * sp.score ≤ 10 * walkWeight exEdgeCost [1, 2, 3] := by
  have hb : Built exWeightGraph := Built.new.applyCommands _
  have he : ∀ u v, Adj exWeightGraph u v → 1 ≤ exEdgeCost ⟨u, v⟩ ∧ exEdgeCost ⟨u, v⟩ ≤ 10 := by
    intro u v _
    unfold exEdgeCost
    split <;> decide
  obtain ⟨sp, h1, _, _, h4⟩ := C34_ratio_partial H exWeightGraph hb 1 3 (fun _ p => .done (walkWeight exEdgeCost p.vertices)) exEdgeCost 1 10 (fun _ _ => rfl)
    (fun l hl => by
      have h1 : ∀ l : List VertexId, walkWeight exEdgeCost l ≤ 10 * l.length := by
        intro l
        induction l with
        | nil => decide
        | cons a l ih =>
          cases l with
          | nil => simp [walkWeight]
          | cons b l =>
            have : exEdgeCost ⟨a, b⟩ ≤ 10 := by
              unfold exEdgeCost
              split <;> decide
            simp only [walkWeight, List.length_cons] at ih ⊢
            push_cast at ih ⊢
            omega
      have h2 := h1 l
      have h3 := hl.length_le hb.wf
      have h4 : exWeightGraph.vertices.length = 3 := by decide
      omega)
    (by decide) he (.tail .refl (by unfold Adj; decide : Adj exWeightGraph 1 3))
  exact ⟨sp, h1, (h4 [1, 2, 3] ⟨by simp only [List.isChain_cons_cons, List.isChain_singleton, Adj]; decide, rfl, rfl⟩).2⟩

theorem walkWeight_dst (a : VertexId → Int) (l : List VertexId) : walkWeight (fun e => a e.dst) l = (l.tail.map a).sum := by
  induction l with
  | nil => rfl
  | cons x l ih =>
    cases l with
    | nil => rfl
    | cons y l => simp only [walkWeight, ih, List.tail_cons, List.map_cons, List.sum_cons]

theorem sum_of_head {a : VertexId → Int} {s : VertexId} {l : List VertexId} (h : l.head? = some s) :
    (l.map a).sum = a s + (l.tail.map a).sum := by
  cases l with
  | nil => cases h
  | cons x l => cases h; simp

/-- C34 (partial): if the cost of a path is the sum of non-negative costs of its vertices and the heuristic is zero, `shortest_path` returns
a walk of minimum cost. Missing: as in `C34_target_cost_partial`. -/
theorem C34_vertex_cost_partial (H : ScoredHeap) (g : DirectedGraph) (h : Built g) (start end_ : VertexId) (cost : ScoreFn)
    (a : VertexId → Int) (ha : ∀ v, 0 ≤ a v)
    (hcost : ∀ p : Path, SimplePathFrom g start p.vertices → cost g p = .done (p.vertices.map a).sum)
    (hsize : ∀ l, SimplePathFrom g start l → (l.map a).sum < 2 ^ 63) (hr : Reach g start end_) :
    ∃ sp, Returns (AStar.shortestPath H g cost AStar.zeroHeuristic start end_) (some sp) ∧
      WalkFromTo g start end_ sp.path.vertices ∧ sp.score = (sp.path.vertices.map a).sum ∧
      ∀ l, WalkFromTo g start end_ l → sp.score ≤ (l.map a).sum := by
  have hnn : ∀ l : List VertexId, 0 ≤ (l.map a).sum := fun l => List.sum_nonneg fun x hx => by
    obtain ⟨v, _, rfl⟩ := List.mem_map.1 hx
    exact ha v
  obtain ⟨sp, h1, h2, h3, h4⟩ := C34_target_cost_partial H g h start end_ cost AStar.zeroHeuristic (fun e => a e.dst) (fun _ => 0) a (a start)
    (fun p hp => by rw [hcost p hp, walkWeight_dst, sum_of_head hp.2.1]) (fun _ _ _ => rfl)
    (fun l v hl _ => by
      have e1 := hsize l hl
      have e2 := hnn l
      rw [sum_of_head hl.2.1] at e1 e2
      rw [walkWeight_dst]
      omega)
    (fun u v _ => ⟨by simp, ha v⟩) hr
  have e : sp.score = (sp.path.vertices.map a).sum := by rw [h3, walkWeight_dst, sum_of_head h2.2.1, Int.add_zero]
  refine ⟨sp, h1, h2, e, fun l hl => ?_⟩
  have := h4 l hl
  rw [walkWeight_dst, walkWeight_dst] at this
  rw [e, sum_of_head h2.2.1, sum_of_head hl.2.1]
  omega

/-- The cost used by the tests of the library (core/src/search/a_star.rs 82-84): the sum of the vertices of the path. -/
def exVertexSum : ScoreFn := fun _ p => .done (p.vertices.map fun v => (v.id.toNat : Int)).sum

/-- The graph used by the tests of the library (core/src/search/a_star.rs 124-138). -/
def exTestGraph : DirectedGraph := GraphCommand.applyCommands
  [.AddEdge 1 2, .AddEdge 1 4, .AddEdge 2 3, .AddEdge 2 5, .AddEdge 1 5, .AddEdge 4 5, .AddEdge 4 6, .AddEdge 6 7, .AddEdge 7 2,
    .AddEdge 8 2] .new

theorem simple_sum_le {g : DirectedGraph} (hw : WF g) {s : VertexId} {a : VertexId → Int} {M : Int} (h0 : 0 ≤ M)
    (hM : ∀ v ∈ s :: g.vertices, a v ≤ M) {l : List VertexId} (hl : SimplePathFrom g s l) :
    (l.map a).sum ≤ (g.vertices.length + 1) * M := by
  have key : ∀ t : List VertexId, (∀ v ∈ t, a v ≤ M) → (t.map a).sum ≤ t.length * M := by
    intro t ht
    induction t with
    | nil => simp
    | cons x t ih =>
      have h1 := ht x (by simp)
      have h2 := ih fun v hv => ht v (List.mem_cons_of_mem _ hv)
      simp only [List.map_cons, List.sum_cons, List.length_cons]
      push_cast
      rw [Int.add_mul]
      omega
  refine (key l fun v hv => hM v (hl.subset hw hv)).trans (Int.mul_le_mul_of_nonneg_right ?_ h0)
  have := hl.length_le hw
  omega

/-- The test of the library for `shortest_path` (core/src/search/a_star.rs 88-100): the returned path has minimum cost, with every heap. -/
example (H : ScoredHeap) : ∃ sp, Returns (AStar.shortestPath H exTestGraph exVertexSum AStar.zeroHeuristic 1 7) (some sp) ∧
    ∀ l, WalkFromTo exTestGraph 1 7 l → sp.score ≤ (l.map fun v => (v.id.toNat : Int)).sum := by
  have hb : Built exTestGraph := Built.new.applyCommands _
  obtain ⟨sp, h1, _, _, h2⟩ := C34_vertex_cost_partial H exTestGraph hb 1 7 exVertexSum (fun v => (v.id.toNat : Int))
    (fun v => by positivity) (fun p _ => rfl)
    (fun l hl => lt_of_le_of_lt (simple_sum_le (M := 8) hb.wf (by decide) (by decide) hl) (by decide))
    (((Relation.ReflTransGen.refl.tail (by unfold Adj; decide : Adj exTestGraph 1 4)).tail
      (by unfold Adj; decide : Adj exTestGraph 4 6)).tail (by unfold Adj; decide : Adj exTestGraph 6 7))
  exact ⟨sp, h1, h2⟩

/-- Weights with a consistent heuristic that is not zero: the weight of 1→2 is 3, of 2→3 is 4, of 1→3 is 6. -/
def exPotWeight (e : Edge) : Int := if e = ⟨1, 2⟩ then 3 else if e = ⟨2, 3⟩ then 4 else 6

/-- The heuristic: 5 at vertex 1, 3 at vertex 2, 0 at vertex 3. What remains is 1 for vertex 2 and 1 for vertex 3. -/
def exPot (v : VertexId) : Int := if v = 1 then 5 else if v = 2 then 3 else 0

theorem exPot_consistent : ∀ u v, Adj exWeightGraph u v → exPotWeight ⟨u, v⟩ + exPot v - exPot u = 1 ∧ (0 : Int) ≤ 1 := by
  intro u v hu
  have h1 := (Built.wf (g := exWeightGraph) (Built.new.applyCommands _)).mem_edges.2 hu
  have h2 : ∀ e ∈ exWeightGraph.edges, exPotWeight e + exPot e.dst - exPot e.src = 1 := by decide
  exact ⟨h2 _ h1, by decide⟩

theorem exPot_size (l : List VertexId) (v : VertexId) (hl : SimplePathFrom exWeightGraph 1 l) :
    -2 ^ 63 ≤ 0 + walkWeight exPotWeight l + exPot v ∧ 0 + walkWeight exPotWeight l + exPot v < 2 ^ 63 := by
  have h1 : ∀ l : List VertexId, 0 ≤ walkWeight exPotWeight l ∧ walkWeight exPotWeight l ≤ 6 * l.length := by
    intro l
    induction l with
    | nil => decide
    | cons a l ih =>
      cases l with
      | nil => simp [walkWeight]
      | cons b l =>
        have : 0 ≤ exPotWeight ⟨a, b⟩ ∧ exPotWeight ⟨a, b⟩ ≤ 6 := by unfold exPotWeight; split_ifs <;> decide
        simp only [walkWeight, List.length_cons] at ih ⊢
        push_cast at ih ⊢
        omega
  have h2 := h1 l
  have h3 := hl.length_le (Built.wf (g := exWeightGraph) (Built.new.applyCommands _))
  have h4 : exWeightGraph.vertices.length = 3 := by decide
  have h5 : 0 ≤ exPot v ∧ exPot v ≤ 5 := by unfold exPot; split_ifs <;> decide
  omega

/-- `C34_target_cost_partial` and `C34_bound_partial` with this heuristic. -/
example (H : ScoredHeap) : ∃ sp, Returns (AStar.shortestPath H exWeightGraph (fun _ p => .done (0 + walkWeight exPotWeight p.vertices))
      (fun _ p => .done (exPot (p.vertices.getLast?.getD 0))) 1 3) (some sp) ∧
    ∀ l, WalkFromTo exWeightGraph 1 3 l → walkWeight exPotWeight sp.path.vertices ≤ walkWeight exPotWeight l := by
  have hr : Reach exWeightGraph 1 3 := .single (by unfold Adj; decide)
  have := C34_bound_partial H exWeightGraph (Built.new.applyCommands _) 1 3 (fun _ p => .done (0 + walkWeight exPotWeight p.vertices))
    (fun _ p => .done (exPot (p.vertices.getLast?.getD 0))) exPotWeight exPot (fun _ => 1) 0 (fun _ _ => rfl) (fun p v hv => by rw [hv]; rfl)
    (fun l v hl _ => exPot_size l v hl) (fun u v h => by have := exPot_consistent u v h; omega) hr
  obtain ⟨sp, h1, _, _, h2⟩ := C34_target_cost_partial H exWeightGraph (Built.new.applyCommands _) 1 3
    (fun _ p => .done (0 + walkWeight exPotWeight p.vertices)) (fun _ p => .done (exPot (p.vertices.getLast?.getD 0))) exPotWeight exPot
    (fun _ => 1) 0 (fun _ _ => rfl) (fun p v hv => by rw [hv]; rfl) (fun l v hl _ => exPot_size l v hl) exPot_consistent hr
  exact ⟨sp, h1, h2⟩

end GC
