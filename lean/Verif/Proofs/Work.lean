/- Bounds on the number of rounds of loops. -/
import Verif.Spec.Work
import Verif.Proofs.Cycle
import Verif.Proofs.Topo
import Verif.Proofs.Iter
import Verif.Model.Search
import Verif.Proofs.MaxFlow
import Verif.Proofs.Constrained
namespace GC
namespace Work
open Prog DirectedGraph

variable {α β σ : Type}

/-! ### Upper bounds -/

/-- An iterator without loops. -/
def Still (next : σ → Prog (Option (α × σ))) : Prop := ∀ s n m, next s n = next s m

theorem Still.eq {next : σ → Prog (Option (α × σ))} (h : Still next) {s : σ} {r : Option (α × σ)} (hr : Returns (next s) r) (n : Nat) :
    next s n = .done r := by
  obtain ⟨k, hk⟩ := hr
  rw [h s n k]
  exact hk k (Nat.le_refl _)

theorem collect_within {next : σ → Prog (Option (α × σ))} (h : Still next) {s : σ} {xs : List α} (hd : Drains next s xs) :
    ReturnsWithin (xs.length + 1) (Prog.collect next s) xs := by
  have key : ∀ m k acc, xs.length + 1 ≤ k → loopAux (collectStep next) m k (acc, s) = .done (acc ++ xs) := by
    induction hd with
    | nil hr =>
      intro m k acc hk
      obtain ⟨k, rfl⟩ : ∃ k', k = k' + 1 := ⟨k - 1, by omega⟩
      simp [loopAux, collectStep, Prog.bind, h.eq hr, Prog.ret]
    | cons hr _ ih =>
      intro m k acc hk
      obtain ⟨k, rfl⟩ : ∃ k', k = k' + 1 := ⟨k - 1, by omega⟩
      simp only [List.length_cons] at hk
      simp [loopAux, collectStep, Prog.bind, h.eq hr, Prog.ret, ih m k _ (by omega)]
  intro m hm
  exact key m m [] hm

theorem find_within {next : σ → Prog (Option (α × σ))} (h : Still next) (p : α → Bool) {s : σ} {xs : List α} (hd : Drains next s xs) :
    ReturnsWithin (xs.length + 1) (Prog.find p next s) (xs.find? p) := by
  have key : ∀ m k, xs.length + 1 ≤ k → loopAux (findStep p next) m k s = .done (xs.find? p) := by
    induction hd with
    | nil hr =>
      intro m k hk
      obtain ⟨k, rfl⟩ : ∃ k', k = k' + 1 := ⟨k - 1, by omega⟩
      simp [loopAux, findStep, Prog.bind, h.eq hr, Prog.ret]
    | @cons s x s' xs hr _ ih =>
      intro m k hk
      obtain ⟨k, rfl⟩ : ∃ k', k = k' + 1 := ⟨k - 1, by omega⟩
      simp only [List.length_cons] at hk
      by_cases hp : p x = true
      · simp [loopAux, findStep, Prog.bind, h.eq hr, Prog.ret, hp]
      · simp [loopAux, findStep, Prog.bind, h.eq hr, Prog.ret, hp, ih m k (by omega)]
  intro m hm
  exact key m m hm

theorem ReturnsWithin.mono {n m : Nat} {p : Prog α} {a : α} (h : ReturnsWithin n p a) (hm : n ≤ m) : ReturnsWithin m p a :=
  fun k hk => h k (by omega)

theorem ReturnsWithin.bind {n : Nat} {p : Prog α} {f : α → Prog β} {a : α} {b : β} (h : ReturnsWithin n p a) (h' : ReturnsWithin n (f a) b) :
    ReturnsWithin n (Prog.bind p f) b := by
  intro m hm
  unfold Prog.bind
  rw [h m hm]
  exact h' m hm

theorem still_dfs (g : DirectedGraph) : Still (DepthFirstIter.next g) := by
  intro s n m
  unfold DepthFirstIter.next
  cases s.stack.pop <;> rfl

theorem still_bfs (g : DirectedGraph) : Still (BreadthFirstIter.next g) := by
  intro s n m
  unfold BreadthFirstIter.next
  cases s.queue.pop <;> rfl

theorem still_dfs_path (g : DirectedGraph) : Still (DepthFirstPathIter.next g) := by
  intro s n m
  unfold DepthFirstPathIter.next
  cases s.stack.pop <;> rfl

theorem still_bfs_path (g : DirectedGraph) : Still (BreadthFirstPathIter.next g) := by
  intro s n m
  unfold BreadthFirstPathIter.next
  cases s.queue.pop <;> rfl

theorem still_best {H : ScoredHeap} (g : DirectedGraph) (scorefn : ScoreFn) : Still (BestFirstIter.next (H := H) g scorefn) := by
  intro s n m
  unfold BestFirstIter.next
  cases s.queue.pop <;> rfl

theorem vertexCount_eq (g : DirectedGraph) : g.vertexCount = g.vertices.length := by
  simp [vertexCount, vertices, HMap.keys]

/-- Different vertices that can be reached are at most as many as there are vertices, and one more if the start is not in the graph. -/
theorem reach_length {g : DirectedGraph} (hw : WF g) {s : VertexId} {l : List VertexId} (hn : l.Nodup) (h : ∀ v ∈ l, ReachBy g.outs s v) :
    l.length ≤ g.vertexCount + 1 ∧ (g.containsVertex s = true → l.length ≤ g.vertexCount) := by
  have h1 : ∀ v ∈ l, v ∈ s :: g.vertices := fun v hv => hw.reach_mem (h v hv)
  have hc := vertexCount_eq g
  constructor
  · have := (hn.subperm fun v hv => h1 v hv).length_le
    simpa [hc] using this
  · intro hs
    refine hc ▸ (hn.subperm fun v hv => ?_).length_le
    rcases List.mem_cons.1 (h1 v hv) with rfl | h
    · exact mem_vertices.2 hs
    · exact h

/-- A measure that every round of a loop lowers. -/
theorem loop_within {step : σ → Prog (σ ⊕ β)} (I : σ → Prop) (μ : σ → Nat)
    (h : ∀ s m, I s → (∃ b, step s m = .done (.inr b)) ∨ ∃ s', step s m = .done (.inl s') ∧ I s' ∧ μ s' < μ s) {s : σ} (hs : I s) (m k : Nat)
    (hk : μ s < k) : ∃ b, loopAux step m k s = .done b := by
  induction k generalizing s with
  | zero => omega
  | succ k ih =>
    unfold loopAux
    rcases h s m hs with ⟨b, h1⟩ | ⟨s', h1, h2, h3⟩
    · rw [h1]
      exact ⟨b, rfl⟩
    · rw [h1]
      exact ih h2 (by omega)

theorem within_of_returns {n : Nat} {p : Prog α} {a : α} (h : Returns p a) (hm : Mono p) (hd : ∀ m, n ≤ m → ∃ b, p m = .done b) :
    ReturnsWithin n p a := by
  intro m hle
  obtain ⟨b, hb⟩ := hd m hle
  rw [hb, h.unique ⟨m, fun k hk => by rw [hm m k hk (by rw [hb]; simp), hb]⟩]

theorem topo_within {g : DirectedGraph} (hw : WF g) {r : Option (List VertexId)} (hr : Returns (TopoSort.topologicalSort g) r) :
    ReturnsWithin (g.vertexCount + 1) (TopoSort.topologicalSort g) r := by
  have hstep : ∀ s, Mono (TopoSort.step g s) := by
    intro s
    unfold TopoSort.step
    split <;> exact Mono.ret _
  refine within_of_returns hr ?_ ?_
  · refine Mono.bind (Mono.loop hstep _) fun s => ?_
    split <;> exact Mono.ret _
  · intro m hm
    obtain ⟨s, hs⟩ := loop_within (step := TopoSort.step g) (TopoSort.Inv g) (fun s => g.vertices.length - s.res.length) (by
      intro s m h
      unfold TopoSort.step
      cases hq : s.startVertices with
      | nil => exact .inl ⟨_, rfl⟩
      | cons start rest =>
        obtain ⟨h1, h2⟩ := h.next hw hq
        have h3 := h1.res_length
        refine .inr ⟨_, rfl, h1, ?_⟩
        rw [h2] at h3
        have h4 : ((TopoSort.nextState g s start rest).res).length = s.res.length + 1 := by rw [h2]; simp
        unfold TopoSort.nextState at h4
        simp only [List.length_append, List.length_singleton] at h3
        omega) (TopoSort.inv_init hw) m m (by have := vertexCount_eq g; simp; omega)
    unfold TopoSort.topologicalSort Prog.bind Prog.loop
    rw [hs]
    rw [Run.bind_done]
    dsimp only
    by_cases h : s.removedEdges.length ≠ g.edgeCount
    · exact ⟨none, by rw [if_pos h]; rfl⟩
    · exact ⟨some s.res, by rw [if_neg h]; rfl⟩

/-! ### Lower bounds -/

/-- A potential that every round of a loop lowers by at most one. -/
theorem loop_needs {step : σ → Prog (σ ⊕ β)} (I : σ → Prop) (μ : σ → Nat)
    (h : ∀ s m, I s → 0 < μ s → step s m = .running ∨ ∃ s', step s m = .done (.inl s') ∧ I s' ∧ μ s ≤ μ s' + 1) {s : σ} (hs : I s) (m k : Nat)
    (hk : k ≤ μ s) : loopAux step m k s = .running := by
  induction k generalizing s with
  | zero => rfl
  | succ k ih =>
    unfold loopAux
    rcases h s m hs (by omega) with h1 | ⟨s', h1, h2, h3⟩
    · rw [h1]
    · rw [h1]
      exact ih h2 (by omega)

theorem Needs.bind {n : Nat} {p : Prog α} (h : Needs n p) (f : α → Prog β) : Needs n (Prog.bind p f) := by
  intro m hm
  unfold Prog.bind
  rw [h m hm]
  rfl

theorem Needs.loop {n : Nat} {step : σ → Prog (σ ⊕ β)} {s : σ} (h : Needs n (step s)) : Needs n (Prog.loop step s) := by
  intro m hm
  unfold Prog.loop
  cases m with
  | zero => rfl
  | succ m =>
    unfold loopAux
    rw [h _ hm]

theorem Needs.collect {n : Nat} {next : σ → Prog (Option (α × σ))} {s : σ} (h : Needs n (next s)) : Needs n (Prog.collect next s) :=
  Needs.loop (Needs.bind h _)

theorem Needs.filterNext {n : Nat} {next : σ → Prog (Option (α × σ))} {s : σ} (p : α → Bool) (h : Needs n (next s)) :
    Needs n (Prog.filterNext p next s) := Needs.loop (Needs.bind h _)

/-- All edges go to vertices with larger ids. -/
def Rising (g : DirectedGraph) : Prop := ∀ u v, Adj g u v → u.id < v.id

/-- A lower bound for the number of paths that begin with a vertex. -/
def Branching (g : DirectedGraph) (w : VertexId → Nat) : Prop := ∀ v, w v ≤ ((g.outs v).map w).sum + 1

/-- A path whose last vertex has the largest id. -/
def Up (l : List VertexId) : Prop := ∃ l' v, l = l' ++ [v] ∧ ∀ x ∈ l', x.id < v.id

/-- The weight of the last vertex. -/
def lastWeight (w : VertexId → Nat) (l : List VertexId) : Nat := (l.getLast?.map w).getD 0

theorem lastWeight_concat (w : VertexId → Nat) (l : List VertexId) (v : VertexId) : lastWeight w (l ++ [v]) = w v := by
  simp [lastWeight]

theorem Up.concat {l : List VertexId} {u v : VertexId} (h : ∀ x ∈ l, x.id < u.id) (huv : u.id < v.id) : Up (l ++ [u] ++ [v]) := by
  refine ⟨_, v, rfl, fun x hx => ?_⟩
  rcases List.mem_append.1 hx with hx | hx
  · exact UInt64.lt_trans (h x hx) huv
  · rw [List.mem_singleton] at hx
    exact hx ▸ huv

theorem cycle_needs {g : DirectedGraph} (hw : WF g) (hr : Rising g) {w : VertexId → Nat} (hb : Branching g w) (s : CycleIter)
    (hs : ∀ p ∈ s.stack.stack, Up p.vertices) : Needs (s.stack.stack.map fun p => lastWeight w p.vertices).sum (CycleIter.next g s) := by
  intro m hm
  unfold CycleIter.next Prog.loop
  refine loop_needs (I := fun s : CycleIter => ∀ p ∈ s.stack.stack, Up p.vertices)
    (μ := fun s => (s.stack.stack.map fun p => lastWeight w p.vertices).sum) ?_ hs m m hm
  clear hm hs s m
  intro s m hs hpos
  obtain ⟨⟨st⟩, ret⟩ := s
  dsimp only at hs hpos ⊢
  obtain ⟨st, p, rfl⟩ : ∃ st' p, st = st' ++ [p] := by
    rcases List.eq_nil_or_concat st with rfl | ⟨st', p, rfl⟩
    · simp at hpos
    · exact ⟨st', p, by simp⟩
  obtain ⟨l, v, hl, hlt⟩ := hs p (by simp)
  have hp : p = ⟨l ++ [v]⟩ := by cases p; exact congrArg Path.mk hl
  have hv : v ∉ l := fun h => UInt64.lt_irrefl _ (hlt v h)
  refine .inr ⟨⟨⟨st ++ (g.outs v).map p.append⟩, ret⟩, ?_, ?_, ?_⟩
  · unfold CycleIter.step
    have : (⟨st ++ [p]⟩ : Stack Path).pop = some (p, ⟨st⟩) := Stack.pop_eq_some.2 rfl
    rw [this]
    dsimp only
    rw [hp, extract_none hv]
    unfold Prog.lift CycleIter.pushNext
    simp only [Run.bind_done, Path.last, List.getLast?_concat, Run.unwrap]
    rw [foldl_push]
  · intro q hq
    rcases List.mem_append.1 hq with hq | hq
    · exact hs q (by simp [hq])
    · obtain ⟨u, hu, rfl⟩ := List.mem_map.1 hq
      rw [hp]
      exact Up.concat hlt (hr v u (hw.mem_outs.1 hu))
  · have hb := hb v
    have e : ((g.outs v).map p.append).map (fun p => lastWeight w p.vertices) = (g.outs v).map w := by
      rw [List.map_map]
      refine List.map_congr_left fun u _ => ?_
      simp [Path.append, lastWeight]
    simp only [List.map_append, List.sum_append, e, List.map_cons, List.map_nil, List.sum_cons, List.sum_nil]
    rw [hl, lastWeight_concat]
    omega

/-! ### Diamonds -/

/-- How many paths begin with a vertex of the diamonds, those ending in the last vertex not counted. -/
def weight (n : Nat) (v : VertexId) : Nat :=
  if v.id.toNat = 0 ∨ 3 * n < v.id.toNat then 0
  else if (v.id.toNat - 1) % 3 = 0 then 3 * 2 ^ (n - (v.id.toNat - 1) / 3) - 3 else 3 * 2 ^ (n - (v.id.toNat - 1) / 3 - 1) - 2

/-- The number of edges from the first vertex. -/
def level (v : VertexId) : Nat := 2 * ((v.id.toNat - 1) / 3) + if (v.id.toNat - 1) % 3 = 0 then 0 else 1

theorem toNat_vertex {k : Nat} (h : k < 2 ^ 64) : (vertex k).id.toNat = k := by
  simp only [vertex, UInt64.toNat_ofNat']
  exact Nat.mod_eq_of_lt h

theorem weight_zero {n : Nat} {v : VertexId} (h : 2 * n ≤ level v) : weight n v = 0 := by
  unfold weight
  unfold level at h
  rw [if_pos]
  by_contra c
  split at h <;> omega

theorem weight_top {n i : Nat} (hn : n < 2 ^ 60) (hi : i ≤ n) : weight n (vertex (3 * i + 1)) = 3 * 2 ^ (n - i) - 3 := by
  unfold weight
  rw [toNat_vertex (by omega)]
  have e1 : (3 * i + 1 - 1) % 3 = 0 := by omega
  have e2 : (3 * i + 1 - 1) / 3 = i := by omega
  rw [e1, e2]
  by_cases h : 3 * n < 3 * i + 1
  · have : i = n := by omega
    subst this
    simp
  · rw [if_neg (by omega), if_pos rfl]

theorem weight_mid {n i j : Nat} (hn : n < 2 ^ 60) (hi : i < n) (hj : j = 3 * i + 2 ∨ j = 3 * i + 3) :
    weight n (vertex j) = 3 * 2 ^ (n - i - 1) - 2 := by
  unfold weight
  rw [toNat_vertex (by omega)]
  have e1 : ¬ (j - 1) % 3 = 0 := by omega
  have e2 : (j - 1) / 3 = i := by omega
  rw [if_neg (by omega), if_neg e1, e2]

theorem level_top {i : Nat} (hi : 3 * i + 1 < 2 ^ 64) : level (vertex (3 * i + 1)) = 2 * i := by
  unfold level
  rw [toNat_vertex hi]
  have e1 : (3 * i + 1 - 1) % 3 = 0 := by omega
  have e2 : (3 * i + 1 - 1) / 3 = i := by omega
  rw [e1, e2]
  simp

theorem level_mid {i j : Nat} (hi : j < 2 ^ 64) (hj : j = 3 * i + 2 ∨ j = 3 * i + 3) : level (vertex j) = 2 * i + 1 := by
  unfold level
  rw [toNat_vertex hi]
  have e1 : ¬ (j - 1) % 3 = 0 := by omega
  have e2 : (j - 1) / 3 = i := by omega
  rw [if_neg e1, e2]

theorem sum_two {l : List VertexId} {a b : VertexId} (w : VertexId → Nat) (ha : a ∈ l) (hb : b ∈ l) (hab : a ≠ b) :
    w a + w b ≤ (l.map w).sum := by
  have h1 := ((List.perm_cons_erase ha).map w).sum_eq
  have h2 : b ∈ l.erase a := (List.mem_erase_of_ne (Ne.symm hab)).2 hb
  have h3 := ((List.perm_cons_erase h2).map w).sum_eq
  simp only [List.map_cons, List.sum_cons] at h1 h3
  omega

theorem sum_one {l : List VertexId} {a : VertexId} (w : VertexId → Nat) (ha : a ∈ l) : w a ≤ (l.map w).sum := by
  have h1 := ((List.perm_cons_erase ha).map w).sum_eq
  simp only [List.map_cons, List.sum_cons] at h1
  omega

variable {n : Nat} {g : DirectedGraph}

theorem Diamonds.level (h : Diamonds n g) (hn : n < 2 ^ 60) {u v : VertexId} (ha : Adj g u v) : Work.level v = Work.level u + 1 := by
  obtain ⟨i, hi, ⟨rfl, h1⟩ | ⟨h1, rfl⟩⟩ := (h.edges u v).1 ha
  · rw [level_top (by omega)]
    rcases h1 with rfl | rfl
    · rw [level_mid (by omega) (.inl rfl)]
    · rw [level_mid (by omega) (.inr rfl)]
  · rw [show 3 * i + 4 = 3 * (i + 1) + 1 by omega, level_top (by omega)]
    rcases h1 with rfl | rfl
    · rw [level_mid (by omega) (.inl rfl)]; omega
    · rw [level_mid (by omega) (.inr rfl)]; omega

theorem Diamonds.level_le (h : Diamonds n g) (hn : n < 2 ^ 60) {u v : VertexId} (ha : Adj g u v) : Work.level u < 2 * n := by
  obtain ⟨i, hi, ⟨rfl, h1⟩ | ⟨h1, rfl⟩⟩ := (h.edges u v).1 ha
  · rw [level_top (by omega)]; omega
  · rcases h1 with rfl | rfl
    · rw [level_mid (by omega) (.inl rfl)]; omega
    · rw [level_mid (by omega) (.inr rfl)]; omega

theorem vertex_lt {i j : Nat} (hj : j < 2 ^ 64) (h : i < j) : (vertex i).id < (vertex j).id := by
  rw [UInt64.lt_iff_toNat_lt, toNat_vertex hj, toNat_vertex (by omega)]
  exact h

theorem Diamonds.rising (h : Diamonds n g) (hn : n < 2 ^ 60) : Rising g := by
  intro u v ha
  obtain ⟨i, hi, ⟨rfl, rfl | rfl⟩ | ⟨rfl | rfl, rfl⟩⟩ := (h.edges u v).1 ha <;> exact vertex_lt (by omega) (by omega)

theorem Diamonds.branching (h : Diamonds n g) (hw : WF g) (hn : n < 2 ^ 60) : Branching g (weight n) := by
  intro v
  by_cases hv : v.id.toNat = 0 ∨ 3 * n < v.id.toNat
  · unfold weight
    rw [if_pos hv]
    omega
  obtain ⟨i, hi, hk⟩ : ∃ i, i < n ∧ (v = vertex (3 * i + 1) ∨ v = vertex (3 * i + 2) ∨ v = vertex (3 * i + 3)) := by
    refine ⟨(v.id.toNat - 1) / 3, by omega, ?_⟩
    have e : v = vertex v.id.toNat := by
      cases v
      simp [vertex]
    have : v.id.toNat = 3 * ((v.id.toNat - 1) / 3) + 1 ∨ v.id.toNat = 3 * ((v.id.toNat - 1) / 3) + 2 ∨
        v.id.toNat = 3 * ((v.id.toNat - 1) / 3) + 3 := by omega
    rcases this with h | h | h
    · exact .inl (e.trans (congrArg vertex h))
    · exact .inr (.inl (e.trans (congrArg vertex h)))
    · exact .inr (.inr (e.trans (congrArg vertex h)))
  obtain ⟨d, rfl⟩ : ∃ d, n = i + 1 + d := ⟨n - (i + 1), by omega⟩
  have hp : 0 < 2 ^ d := Nat.two_pow_pos d
  rcases hk with rfl | hk
  · have h1 := sum_two (weight (i + 1 + d)) (hw.mem_outs'.2 ((h.edges _ _).2 ⟨i, hi, .inl ⟨rfl, .inl rfl⟩⟩))
      (hw.mem_outs'.2 ((h.edges _ _).2 ⟨i, hi, .inl ⟨rfl, .inr rfl⟩⟩))
      (fun e => by
        have := congrArg (fun v : VertexId => v.id.toNat) e
        simp only [toNat_vertex (show 3 * i + 2 < 2 ^ 64 by omega), toNat_vertex (show 3 * i + 3 < 2 ^ 64 by omega)] at this
        omega)
    rw [weight_mid hn hi (.inl rfl), weight_mid hn hi (.inr rfl)] at h1
    rw [weight_top hn (by omega)]
    have e1 : i + 1 + d - i = d + 1 := by omega
    have e2 : i + 1 + d - i - 1 = d := by omega
    rw [e2] at h1
    rw [e1, Nat.pow_succ]
    omega
  · have h1 := sum_one (weight (i + 1 + d)) (hw.mem_outs'.2 ((h.edges v (vertex (3 * i + 4))).2 ⟨i, hi, .inr ⟨hk, rfl⟩⟩))
    have h2 : weight (i + 1 + d) v = 3 * 2 ^ (i + 1 + d - i - 1) - 2 := by
      rcases hk with rfl | rfl
      · exact weight_mid hn hi (.inl rfl)
      · exact weight_mid hn hi (.inr rfl)
    rw [show 3 * i + 4 = 3 * (i + 1) + 1 by omega, weight_top hn (by omega)] at h1
    have e1 : i + 1 + d - (i + 1) = d := by omega
    have e2 : i + 1 + d - i - 1 = d := by omega
    rw [e1] at h1
    rw [h2, e2]
    omega

theorem weight_first (hn : n < 2 ^ 60) (h0 : 0 < n) : 2 ^ n ≤ weight n (vertex 1) := by
  rw [weight_top hn (i := 0) (by omega), Nat.sub_zero]
  obtain ⟨m, rfl⟩ : ∃ m, n = m + 1 := ⟨n - 1, by omega⟩
  have := Nat.two_pow_pos m
  rw [Nat.pow_succ]
  omega

/-- A path of the diamonds, as long as it is deep. -/
def Deep (l : List VertexId) : Prop := ∃ l' v, l = l' ++ [v] ∧ (∀ x ∈ l', x.id < v.id) ∧ l.length = level v + 1

theorem Deep.concat (h : Diamonds n g) (hn : n < 2 ^ 60) {l : List VertexId} {u v : VertexId} (hl : ∀ x ∈ l, x.id < u.id)
    (hlen : (l ++ [u]).length = Work.level u + 1) (ha : Adj g u v) : Deep (l ++ [u] ++ [v]) := by
  refine ⟨_, v, rfl, fun x hx => ?_, ?_⟩
  · rcases List.mem_append.1 hx with hx | hx
    · exact UInt64.lt_trans (hl x hx) (h.rising hn _ _ ha)
    · rw [List.mem_singleton] at hx
      exact hx ▸ h.rising hn _ _ ha
  · rw [h.level hn ha, List.length_append, hlen]
    rfl

theorem pathChildren_up (hw : WF g) (hr : Rising g) {l : List VertexId} {v : VertexId} (hl : ∀ x ∈ l, x.id < v.id) :
    pathChildren g ⟨l ++ [v]⟩ = (g.outs v).map (Path.append ⟨l ++ [v]⟩) := by
  unfold pathChildren
  simp only [Path.last, List.getLast?_concat]
  congr 1
  rw [List.filter_eq_self]
  intro u hu
  have hlt := hr v u (hw.mem_outs'.1 hu)
  rw [decide_eq_true_iff]
  intro hm
  rcases List.mem_append.1 hm with hm | hm
  · exact UInt64.lt_irrefl _ (UInt64.lt_trans (hl u hm) hlt)
  · rw [List.mem_singleton] at hm
    exact UInt64.lt_irrefl _ (hm ▸ hlt)

theorem flow_needs (hw : WF g) (h : Diamonds n g) (hn : n < 2 ^ 60) (h0 : 0 < n) (m : MaxFlow.FlowMap) :
    Needs (2 ^ n) (MaxFlow.findAugmentingPath g m (vertex 1) (vertex (3 * n + 1))) := by
  intro k hk
  unfold MaxFlow.findAugmentingPath Prog.loop
  refine loop_needs (I := fun q => ∃ ls : List (List VertexId), q.queue = ls.map MaxFlow.fwd ∧ (∀ l ∈ ls, Deep l) ∧
      (ls.Pairwise fun a b => a.length ≤ b.length) ∧ ∀ a ∈ ls, ∀ b ∈ ls, b.length ≤ a.length + 1)
    (μ := fun q => (q.queue.map fun p => lastWeight (weight n) (p.path.map Prod.fst)).sum) ?_
    ⟨[[vertex 1]], rfl, ?_, by simp, by simp⟩ k k ?_
  · rintro ⟨q⟩ fuel ⟨ls, h1, h2, h3, h4⟩ hpos
    dsimp only at h1 hpos
    subst h1
    rcases ls with _ | ⟨l, ls⟩
    · simp at hpos
    obtain ⟨l, v, rfl, hl, hlen⟩ := h2 _ (List.mem_cons_self)
    have hfst : ∀ l : List VertexId, (MaxFlow.fwd l).path.map Prod.fst = l := fun l => by simp [MaxFlow.fwd, Function.comp_def]
    have hvt : v ≠ vertex (3 * n + 1) := by
      rintro rfl
      rw [level_top (by omega)] at hlen
      have : ((((l ++ [vertex (3 * n + 1)]) :: ls).map MaxFlow.fwd).map fun p => lastWeight (weight n) (p.path.map Prod.fst)).sum = 0 := by
        rw [List.sum_eq_zero]
        intro x hx
        rw [List.map_map] at hx
        obtain ⟨y, hy, rfl⟩ := List.mem_map.1 hx
        obtain ⟨y, u, rfl, _, hu⟩ := h2 y hy
        simp only [Function.comp, hfst, lastWeight_concat]
        refine weight_zero ?_
        rcases List.mem_cons.1 hy with e | hy
        · rw [e] at hu
          omega
        · have := (List.pairwise_cons.1 h3).1 _ hy
          omega
      omega
    have hpush := MaxFlow.pushNeighbours_fwd hw (l ++ [v]) v (by simp) (ls.map MaxFlow.fwd)
    rw [pathChildren_up hw (h.rising hn) hl] at hpush
    refine .inr ⟨⟨ls.map MaxFlow.fwd ++ ((g.outs v).map (Path.append ⟨l ++ [v]⟩)).map fun p => MaxFlow.fwd p.vertices⟩, ?_,
      ⟨ls ++ (g.outs v).map fun u => l ++ [v] ++ [u], ?_, ?_, ?_, ?_⟩, ?_⟩
    · unfold MaxFlow.nextStep
      rw [show Queue.pop (⟨((l ++ [v]) :: ls).map MaxFlow.fwd⟩ : Queue MaxFlow.AugmentingPath) =
        some (MaxFlow.fwd (l ++ [v]), ⟨ls.map MaxFlow.fwd⟩) from rfl]
      simp only [MaxFlow.last_fwd (l ++ [v]) v (by simp), Run.unwrap_some, Run.bind_done, MaxFlow.checkPath, if_neg hvt, hpush]
      rfl
    · simp [Path.append, Function.comp_def]
    · intro x hx
      rcases List.mem_append.1 hx with hx | hx
      · exact h2 x (by simp [hx])
      · obtain ⟨u, hu, rfl⟩ := List.mem_map.1 hx
        exact Deep.concat h hn hl hlen (hw.mem_outs'.1 hu)
    · rw [List.pairwise_append]
      refine ⟨(List.pairwise_cons.1 h3).2, ?_, ?_⟩
      · rw [List.pairwise_map]
        exact List.pairwise_of_forall (by simp)
      · intro a ha b hb
        obtain ⟨u, _, rfl⟩ := List.mem_map.1 hb
        have := h4 _ List.mem_cons_self a (by simp [ha])
        simpa using this
    · intro a ha b hb
      have low : ∀ x ∈ ls ++ (g.outs v).map fun u => l ++ [v] ++ [u], (l ++ [v]).length ≤ x.length ∧ x.length ≤ (l ++ [v]).length + 1 := by
        intro x hx
        rcases List.mem_append.1 hx with hx | hx
        · exact ⟨(List.pairwise_cons.1 h3).1 x hx, h4 _ List.mem_cons_self x (by simp [hx])⟩
        · obtain ⟨u, _, rfl⟩ := List.mem_map.1 hx
          simp
      have := low a ha
      have := low b hb
      omega
    · have hb := h.branching hw hn v
      have e : (((g.outs v).map (Path.append ⟨l ++ [v]⟩)).map fun p => MaxFlow.fwd p.vertices).map
          (fun p => lastWeight (weight n) (p.path.map Prod.fst)) = (g.outs v).map (weight n) := by
        rw [List.map_map, List.map_map]
        refine List.map_congr_left fun u _ => ?_
        simp only [Function.comp, hfst, Path.append, lastWeight_concat]
      simp only [List.map_append, List.sum_append, e, List.map_cons, List.sum_cons, hfst, lastWeight_concat]
      omega
  · intro l hl
    rw [List.mem_singleton] at hl
    subst hl
    exact ⟨[], vertex 1, rfl, by simp, by rw [show (1 : Nat) = 3 * 0 + 1 from rfl, level_top (by omega)]; rfl⟩
  · refine Nat.le_trans hk (Nat.le_trans (weight_first hn h0) ?_)
    simp [Queue.new, Queue.push, MaxFlow.AugmentingPath.new, lastWeight]

/-- The cost of a path of moderate length. -/
theorem oneWeighted_done {g : DirectedGraph} {p : Path} {k : Nat} (hp : p.vertices.length = k + 1) (hk : k < 2 ^ 62) :
    AStar.sumScore AStar.oneWeightedEdge AStar.zeroHeuristic g p = .done (k : Int) := by
  unfold AStar.sumScore AStar.oneWeightedEdge AStar.zeroHeuristic addI64
  have : p.size = k + 1 := hp
  rw [if_neg (by omega), if_pos (by omega), Run.bind_done, Run.bind_done, this, if_pos (by constructor <;> omega)]
  simp

theorem csp_needs (H : ScoredHeap) (hw : WF g) (h : Diamonds n g) (hn : n < 2 ^ 60) (h0 : 0 < n) :
    Needs (2 ^ n) (AStar.gcCsp H g (vertex 1) (vertex (3 * n + 1)) []) := by
  have hfrom := oneWeighted_done (g := g) (p := Path.empty.append (vertex 1)) (k := 0) rfl (by omega)
  intro k hk
  unfold AStar.gcCsp AStar.constrainedShortestPath ConstrainedBestFirstIter.from_ Prog.bind Prog.lift
  rw [hfrom, Run.bind_done, Run.bind_done]
  unfold Prog.find Prog.loop
  refine loop_needs (I := fun s : ConstrainedBestFirstIter H => ∀ sp ∈ s.queue.items, Deep sp.path.vertices ∧ ∃ v, sp.path.last = some v ∧ sp.score = level v)
    (μ := fun s => (s.queue.items.map fun sp => lastWeight (weight n) sp.path.vertices).sum) ?_ ?_ k k ?_
  · intro s fuel hs hpos
    have hne : s.queue.items ≠ [] := by
      intro e
      rw [e] at hpos
      simp at hpos
    obtain ⟨x, q, hp⟩ := MinPriorityQueue.exists_pop hne
    obtain ⟨h2, h3⟩ := MinPriorityQueue.pop_some hp
    obtain ⟨⟨l, v, hl, hlt, hlen⟩, v', hv', hsc⟩ := hs x (h2.mem_iff.2 (by simp))
    have hlast : x.path.last = some v := by unfold Path.last; rw [hl]; simp
    rw [hlast] at hv'
    cases hv'
    have hscore : ∀ u ∈ g.outs v, AStar.sumScore AStar.oneWeightedEdge AStar.zeroHeuristic g (x.path.append u) = .done ((level u : Nat) : Int) := by
      intro u hu
      have ha := hw.mem_outs'.1 hu
      have h5 := h.level_le hn ha
      have h6 := h.level hn ha
      refine oneWeighted_done ?_ (by omega)
      simp only [Path.append, List.length_append, List.length_singleton]
      omega
    obtain ⟨s', hs'⟩ := ConstrainedBestFirstIter.forEach_done (H := H) (g := g) (scorefn := AStar.sumScore AStar.oneWeightedEdge AStar.zeroHeuristic)
      (cs := []) x (g.outs v) ⟨q⟩ (fun u hu => ⟨_, hscore u hu⟩)
    have hperm := (ConstrainedBestFirstIter.forEach_inv _ _ _ _ hs').2
    have hchild : (g.outs v).filterMap (childOf g (AStar.sumScore AStar.oneWeightedEdge AStar.zeroHeuristic) [] x) =
        (g.outs v).map fun u => ⟨x.path.append u, level u⟩ := by
      rw [← List.filterMap_eq_map]
      refine List.filterMap_congr fun u hu => ?_
      refine childOf_eq_some.2 ⟨rfl, hscore u hu, by simp⟩
    rw [hchild] at hperm
    have hvt : v ≠ vertex (3 * n + 1) := by
      rintro rfl
      rw [level_top (by omega)] at hsc
      have : (s.queue.items.map fun sp => lastWeight (weight n) sp.path.vertices).sum = 0 := by
        rw [List.sum_eq_zero]
        intro y hy
        obtain ⟨sp, hsp, rfl⟩ := List.mem_map.1 hy
        obtain ⟨⟨l', u, hl', _, _⟩, u', hu', hsc'⟩ := hs sp hsp
        have : sp.path.last = some u := by unfold Path.last; rw [hl']; simp
        rw [this] at hu'
        cases hu'
        rw [hl', lastWeight_concat]
        have h7 := h3 sp hsp
        simp only [ScoredPath.le, decide_eq_true_eq] at h7
        exact weight_zero (by omega)
      omega
    refine .inr ⟨s', ?_, ?_, ?_⟩
    · unfold Prog.findStep Prog.bind ConstrainedBestFirstIter.next
      rw [hp]
      simp only [Prog.lift, hlast, Run.unwrap_some, Run.bind_done]
      rw [hs', Run.bind_done, Run.bind_done]
      have : AStar.isSolution (vertex (3 * n + 1)) [] x = false := by
        simp [AStar.isSolution, AStar.endsAt, hlast, hvt]
      simp only [this]
      rfl
    · intro sp hsp
      rcases List.mem_append.1 (hperm.mem_iff.1 hsp) with hsp | hsp
      · exact hs sp (h2.mem_iff.2 (by simp [hsp]))
      · obtain ⟨u, hu, rfl⟩ := List.mem_map.1 hsp
        refine ⟨?_, u, by simp [Path.last, Path.append], rfl⟩
        simp only [Path.append, hl]
        exact Deep.concat h hn hlt (hl ▸ hlen) (hw.mem_outs'.1 hu)
    · have hb := h.branching hw hn v
      have e1 := (h2.map fun sp : ScoredPath => lastWeight (weight n) sp.path.vertices).sum_eq
      have e2 := (hperm.map fun sp : ScoredPath => lastWeight (weight n) sp.path.vertices).sum_eq
      have e : ((g.outs v).map fun u => (⟨x.path.append u, level u⟩ : ScoredPath)).map (fun sp => lastWeight (weight n) sp.path.vertices) =
          (g.outs v).map (weight n) := by
        rw [List.map_map]
        refine List.map_congr_left fun u _ => ?_
        simp only [Function.comp, Path.append, lastWeight_concat]
      simp only [List.map_append, List.sum_append, e, List.map_cons, List.sum_cons] at e1 e2
      rw [hl, lastWeight_concat] at e1
      omega
  · intro sp hsp
    have := (MinPriorityQueue.items_push _ _).mem_iff.1 hsp
    rw [MinPriorityQueue.items_new, List.mem_singleton] at this
    subst this
    have e : level (vertex 1) = 0 := level_top (i := 0) (by omega)
    refine ⟨⟨[], vertex 1, rfl, by simp, by rw [e]; rfl⟩, vertex 1, rfl, by rw [e]⟩
  · refine Nat.le_trans hk (Nat.le_trans (weight_first hn h0) ?_)
    rw [((MinPriorityQueue.items_push _ _).map fun sp : ScoredPath => lastWeight (weight n) sp.path.vertices).sum_eq, MinPriorityQueue.items_new]
    simp [Path.append, Path.empty, lastWeight]

/-- The commands that make the diamonds. -/
def commands : Nat → List GraphCommand
  | 0 => [.AddVertex (vertex 1)]
  | n + 1 => commands n ++ [.AddEdge (vertex (3 * n + 1)) (vertex (3 * n + 2)), .AddEdge (vertex (3 * n + 1)) (vertex (3 * n + 3)),
      .AddEdge (vertex (3 * n + 2)) (vertex (3 * n + 4)), .AddEdge (vertex (3 * n + 3)) (vertex (3 * n + 4))]

theorem run_commands (n : Nat) : (∀ v, (SetGraph.empty.run (commands n)).V v ↔ ∃ k, 1 ≤ k ∧ k ≤ 3 * n + 1 ∧ v = vertex k) ∧
    ∀ u v, (SetGraph.empty.run (commands n)).E ⟨u, v⟩ ↔ ∃ i, i < n ∧
    ((u = vertex (3 * i + 1) ∧ (v = vertex (3 * i + 2) ∨ v = vertex (3 * i + 3))) ∨
      ((u = vertex (3 * i + 2) ∨ u = vertex (3 * i + 3)) ∧ v = vertex (3 * i + 4))) := by
  induction n with
  | zero =>
    constructor
    · intro v
      simp only [commands, SetGraph.run, List.foldl, SetGraph.step, SetGraph.empty, false_or]
      constructor
      · rintro rfl
        exact ⟨1, by omega, by omega, rfl⟩
      · rintro ⟨k, h1, h2, rfl⟩
        rw [show k = 1 by omega]
    · simp [commands, SetGraph.run, SetGraph.step, SetGraph.empty]
  | succ n ih =>
    obtain ⟨ih1, ih2⟩ := ih
    have e : SetGraph.empty.run (commands (n + 1)) = (SetGraph.empty.run (commands n)).run
        [.AddEdge (vertex (3 * n + 1)) (vertex (3 * n + 2)), .AddEdge (vertex (3 * n + 1)) (vertex (3 * n + 3)),
      .AddEdge (vertex (3 * n + 2)) (vertex (3 * n + 4)), .AddEdge (vertex (3 * n + 3)) (vertex (3 * n + 4))] := by
      simp only [commands, SetGraph.run, List.foldl_append]
    rw [e]
    constructor
    · intro v
      simp only [SetGraph.run, List.foldl, SetGraph.step] at ih1 ⊢
      rw [ih1]
      constructor
      · rintro ((((⟨k, h1, h2, rfl⟩ | rfl | rfl) | rfl | rfl) | rfl | rfl) | rfl | rfl)
        · exact ⟨k, h1, by omega, rfl⟩
        all_goals exact ⟨_, by omega, by omega, rfl⟩
      · rintro ⟨k, h1, h2, rfl⟩
        by_cases hk : k ≤ 3 * n + 1
        · exact .inl (.inl (.inl (.inl ⟨k, h1, hk, rfl⟩)))
        · obtain rfl | rfl | rfl : k = 3 * n + 2 ∨ k = 3 * n + 3 ∨ k = 3 * n + 4 := by omega
          · exact .inl (.inr (.inl rfl))
          · exact .inr (.inl rfl)
          · exact .inr (.inr rfl)
    · intro u v
      simp only [SetGraph.run, List.foldl, SetGraph.step, Edge.mk.injEq] at ih2 ⊢
      rw [ih2]
      constructor
      · rintro ((((⟨i, hi, h⟩ | ⟨rfl, rfl⟩) | ⟨rfl, rfl⟩) | ⟨rfl, rfl⟩) | ⟨rfl, rfl⟩)
        · exact ⟨i, by omega, h⟩
        · exact ⟨n, by omega, .inl ⟨rfl, .inl rfl⟩⟩
        · exact ⟨n, by omega, .inl ⟨rfl, .inr rfl⟩⟩
        · exact ⟨n, by omega, .inr ⟨.inl rfl, rfl⟩⟩
        · exact ⟨n, by omega, .inr ⟨.inr rfl, rfl⟩⟩
      · rintro ⟨i, hi, h⟩
        by_cases hin : i < n
        · exact .inl (.inl (.inl (.inl ⟨i, hin, h⟩)))
        · have : i = n := by omega
          subst this
          rcases h with ⟨rfl, rfl | rfl⟩ | ⟨rfl | rfl, rfl⟩
          · exact .inl (.inl (.inl (.inr ⟨rfl, rfl⟩)))
          · exact .inl (.inl (.inr ⟨rfl, rfl⟩))
          · exact .inl (.inr ⟨rfl, rfl⟩)
          · exact .inr ⟨rfl, rfl⟩

theorem diamonds_commands (n : Nat) : Diamonds n (GraphCommand.applyCommands (commands n) .new) := by
  have e : (GraphCommand.applyCommands (commands n) DirectedGraph.new).toSet = SetGraph.empty.run (commands n) := by
    rw [toSet_applyCommands WF.new, toSet_new]
  constructor
  · intro v
    have := (run_commands n).1 v
    rw [← e] at this
    exact this
  · intro u v
    have := (run_commands n).2 u v
    rw [← e] at this
    exact this

/-- The search for cycles begins with the first vertex. -/
theorem Diamonds.start (h : Diamonds n g) (hw : WF g) (hn : n < 2 ^ 60) : vertex 1 ∈ CycleIter.findStartingEdges g := by
  have h1 : vertex 1 ∈ g.vertices.filter fun v => (g.inboundEdges v).length == 0 := by
    rw [List.mem_filter]
    refine ⟨mem_vertices.2 ((h.vertices _).2 ⟨1, by omega, by omega, rfl⟩), ?_⟩
    rw [beq_iff_eq, List.length_eq_zero_iff, List.eq_nil_iff_forall_not_mem]
    intro e he
    obtain ⟨h2, h3⟩ := hw.mem_inbound.1 he
    have h4 := h.rising hn e.src e.dst h2
    obtain ⟨i, hi, h5⟩ := (h.edges e.src e.dst).1 h2
    have h6 := h.level hn (u := e.src) (v := e.dst) h2
    rw [h3, show (1 : Nat) = 3 * 0 + 1 from rfl, level_top (by omega)] at h6
    omega
  unfold CycleIter.findStartingEdges
  dsimp only
  rw [if_neg]
  · exact h1
  · intro e
    rw [List.isEmpty_iff] at e
    rw [e] at h1
    cases h1

theorem cycles_need (hw : WF g) (h : Diamonds n g) (hn : n < 2 ^ 60) (h0 : 0 < n) : Needs (2 ^ n) (CycleIter.next g (CycleIter.cycleIter g)) := by
  have h1 := cycle_needs hw (h.rising hn) (h.branching hw hn) (CycleIter.cycleIter g) (by
    rw [cycleIter_eq]
    intro p hp
    obtain ⟨v, _, rfl⟩ := List.mem_map.1 hp
    exact ⟨[], v, rfl, by simp⟩)
  intro m hm
  refine h1 m (Nat.le_trans hm (Nat.le_trans (weight_first hn h0) ?_))
  rw [cycleIter_eq]
  refine Nat.le_trans (sum_one (weight n) (h.start hw hn)) (Nat.le_of_eq ?_)
  rw [List.map_map]
  congr 1

theorem Diamonds.vertexCount (h : Diamonds n g) (hw : WF g) (hn : n < 2 ^ 60) : g.vertexCount = 3 * n + 1 := by
  have hp : g.vertices.Perm ((List.range' 1 (3 * n + 1)).map vertex) := by
    rw [List.perm_ext_iff_of_nodup hw.nodup_vertices]
    · intro v
      rw [mem_vertices, h.vertices, List.mem_map]
      constructor
      · rintro ⟨k, h1, h2, rfl⟩
        exact ⟨k, by rw [List.mem_range'_1]; omega, rfl⟩
      · rintro ⟨k, h1, rfl⟩
        rw [List.mem_range'_1] at h1
        exact ⟨k, by omega, by omega, rfl⟩
    · refine List.Nodup.map_on ?_ List.nodup_range'
      intro a ha b hb e
      rw [List.mem_range'_1] at ha hb
      have := congrArg (fun v : VertexId => v.id.toNat) e
      simpa only [toNat_vertex (show a < 2 ^ 64 by omega), toNat_vertex (show b < 2 ^ 64 by omega)] using this
  rw [vertexCount_eq, hp.length_eq]
  simp

theorem level_vertex {k : Nat} (hn : n < 2 ^ 60) (h : k ≤ 3 * n + 1) : level (vertex k) ≤ 2 * n := by
  unfold level
  rw [toNat_vertex (by omega)]
  split <;> omega

/-- A path of the diamonds, not longer than it is deep. -/
def Short (n : Nat) (l : List VertexId) : Prop := ∃ l' v, l = l' ++ [v] ∧ (∀ x ∈ l', x.id < v.id) ∧ l.length ≤ level v + 1 ∧ level v ≤ 2 * n

/-- What is left of the search for hamiltonian paths. -/
def left (n : Nat) (s : List VertexId × Option DepthFirstPathIter) : Nat :=
  (s.1.map (weight n)).sum + ((s.2.map fun t => (t.stack.stack.map fun p => lastWeight (weight n) p.vertices).sum).getD 0)

/-- Everything waiting is a short path. -/
def AllShort (n : Nat) (s : List VertexId × Option DepthFirstPathIter) : Prop :=
  (∀ v ∈ s.1, level v ≤ 2 * n) ∧ ∀ t, s.2 = some t → ∀ p ∈ t.stack.stack, Short n p.vertices

theorem flatMap_step (hw : WF g) (h : Diamonds n g) (hn : n < 2 ^ 60) (m k : Nat) (s : List VertexId × Option DepthFirstPathIter)
    (hs : AllShort n s) (hpos : 0 < left n s) :
    let r := loopAux (flatMapStep DepthFirstPathIter.from_ (DepthFirstPathIter.next g)) m k s
    r = .running ∨ ∃ x s', r = .done (some (x, s')) ∧ Short n x.vertices ∧ AllShort n s' ∧ left n s ≤ left n s' + 1 := by
  induction k generalizing s with
  | zero => exact .inl rfl
  | succ k ih =>
    unfold loopAux
    obtain ⟨is, _ | ⟨⟨⟨st⟩⟩⟩⟩ := s
    · rcases is with _ | ⟨i, is⟩
      · simp [left] at hpos
      · simp only [flatMapStep, Prog.ret]
        have e : left n (is, some (DepthFirstPathIter.from_ i)) = left n (i :: is, none) := by
          simp [left, DepthFirstPathIter.from_, Stack.push, Stack.new, Path.ofVertices, lastWeight]
          omega
        have := ih (is, some (DepthFirstPathIter.from_ i)) ⟨fun v hv => hs.1 v (by simp [hv]), by
          rintro t ⟨⟩ p hp
          have : p = ⟨[i]⟩ := by simpa [DepthFirstPathIter.from_, Stack.push, Stack.new, Path.ofVertices] using hp
          subst this
          exact ⟨[], i, rfl, by simp, by simp, hs.1 i (by simp)⟩⟩ (by omega)
        rw [e] at this
        exact this
    · rcases List.eq_nil_or_concat st with rfl | ⟨st, p, rfl⟩
      · have e1 : DepthFirstPathIter.next g ⟨⟨[]⟩⟩ m = .done none := rfl
        simp only [flatMapStep, Prog.bind, e1, Run.bind_done, Prog.ret]
        have e : left n (is, none) = left n (is, some ⟨⟨[]⟩⟩) := by simp [left]
        have := ih (is, none) ⟨hs.1, by rintro t ⟨⟩⟩ (by omega)
        rw [e] at this
        exact this
      · obtain ⟨l, v, hl, hlt, hlen, hlev⟩ := hs.2 _ rfl p (by simp)
        obtain ⟨vs⟩ := p
        simp only at hl
        subst hl
        have hc := pathChildren_up hw (h.rising hn) hlt
        have e1 : DepthFirstPathIter.next g ⟨⟨st.concat ⟨l ++ [v]⟩⟩⟩ m =
            .done (some (⟨l ++ [v]⟩, ⟨⟨st ++ (g.outs v).map (Path.append ⟨l ++ [v]⟩)⟩⟩)) := by
          unfold DepthFirstPathIter.next
          rw [show (⟨st.concat ⟨l ++ [v]⟩⟩ : Stack Path).pop = some (⟨l ++ [v]⟩, ⟨st⟩) from Stack.pop_eq_some.2 (by simp)]
          simp only [Prog.lift, Path.last, List.getLast?_concat, Run.unwrap_some, Run.bind_done, DepthFirstPathIter.foldl_visit]
          rw [← hc]
          simp [pathChildren, Path.last]
        simp only [flatMapStep, Prog.bind, e1, Run.bind_done, Prog.ret]
        refine .inr ⟨_, _, rfl, ⟨l, v, rfl, hlt, hlen, hlev⟩, ⟨hs.1, ?_⟩, ?_⟩
        · rintro t ⟨⟩ q hq
          rcases List.mem_append.1 hq with hq | hq
          · exact hs.2 _ rfl q (by simp [hq])
          · obtain ⟨u, hu, rfl⟩ := List.mem_map.1 hq
            have ha := hw.mem_outs'.1 hu
            have h1 := h.level hn ha
            have h2 := h.level_le hn ha
            refine ⟨_, u, rfl, fun x hx => ?_, ?_, by omega⟩
            · rcases List.mem_append.1 hx with hx | hx
              · exact UInt64.lt_trans (hlt x hx) (h.rising hn _ _ ha)
              · rw [List.mem_singleton] at hx
                exact hx ▸ h.rising hn _ _ ha
            simp only [Path.append, List.length_append, List.length_singleton] at hlen ⊢
            omega
        · have hb := h.branching hw hn v
          have e : ((g.outs v).map (Path.append ⟨l ++ [v]⟩)).map (fun p => lastWeight (weight n) p.vertices) = (g.outs v).map (weight n) := by
            rw [List.map_map]
            refine List.map_congr_left fun u _ => ?_
            simp only [Function.comp, Path.append, lastWeight_concat]
          simp only [left, Option.map_some, Option.getD_some, List.concat_eq_append, List.map_append, List.sum_append, e, List.map_cons,
            List.map_nil, List.sum_cons, List.sum_nil, lastWeight_concat]
          omega

theorem hamiltonian_needs (hw : WF g) (h : Diamonds n g) (hn : n < 2 ^ 60) (h0 : 0 < n) :
    Needs (2 ^ n) (Hamiltonian.next g (Hamiltonian.iter g)) := by
  have hfirst : vertex 1 ∈ g.vertices := mem_vertices.2 ((h.vertices _).2 ⟨1, by omega, by omega, rfl⟩)
  intro k hk
  unfold Hamiltonian.next Prog.filterNext Prog.loop
  refine loop_needs (I := AllShort n) (μ := left n) ?_ ⟨?_, by rintro t ⟨⟩⟩ k k ?_
  · intro s m hs hpos
    rcases flatMap_step hw h hn m m s hs hpos with h1 | ⟨x, s', h1, ⟨l, v, hl, _, hlen, hlev⟩, h3, h4⟩
    · left
      unfold Prog.filterStep Prog.bind Prog.flatMapNext Prog.loop
      rw [h1]
      rfl
    · refine .inr ⟨s', ?_, h3, h4⟩
      unfold Prog.filterStep Prog.bind Prog.flatMapNext Prog.loop
      rw [h1, Run.bind_done]
      have : (x.size == g.vertexCount) = false := by
        have h5 := h.vertexCount hw hn
        have h6 : x.size = x.vertices.length := rfl
        rw [beq_eq_false_iff_ne]
        omega
      simp only [this]
      rfl
  · intro v hv
    obtain ⟨k, h1, h2, rfl⟩ := (h.vertices v).1 (mem_vertices.1 hv)
    exact level_vertex hn h2
  · refine Nat.le_trans hk (Nat.le_trans (weight_first hn h0) ?_)
    exact Nat.le_trans (sum_one (weight n) hfirst) (Nat.le_add_right _ _)

end Work
end GC
