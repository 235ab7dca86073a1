/-
A family of networks on which max_flow reports 1 although the maximum grows without bound.
-/
import Verif.Proofs.Work
import Verif.Proofs.MaxFlow
namespace GC
namespace MaxFlow
open DirectedGraph Path Work

/-- One round of the algorithm: the flow grows along an augmenting path with the least number of edges. -/
theorem step_shortest {g : DirectedGraph} (hw : WF g) {cap : Edge → UInt64} {s t : VertexId} (hst : s ≠ t) {m : FlowMap} {f : Edge → Nat} {n : Nat}
    (hm : FlowRep g cap m f) (h : FlowInv g cap s t f n) :
    (Returns (step g s t (m, n)) (.inr (n, m)) ∧ ∀ l, ¬ Augments g cap f s t l) ∨
    (∃ m' l c, SimplePathFrom g s l ∧ l.getLast? = some t ∧ 0 < c ∧ (∀ e ∈ edgesOf l, f e + c ≤ (cap e).toNat) ∧
      (∀ l', Augments g cap f s t l' → l.length ≤ l'.length) ∧
      FlowRep g cap m' (bumpAll c (edgesOf l) f) ∧ FlowInv g cap s t (bumpAll c (edgesOf l) f) (n + c) ∧
      (n + c < 2 ^ 64 → Returns (step g s t (m, n)) (.inl (m', n + c)))) := by
  obtain ⟨r, h1, h2, h3⟩ := find_spec hw hm h.le hst
  rcases r with _ | ⟨p, c⟩
  · exact .inl ⟨Returns.bind h1 (.ret _), h2 rfl⟩
  · right
    obtain ⟨l, rfl, k1, k2, k3, k4, _, k7⟩ := h3 p c rfl
    obtain ⟨m', k5, k6⟩ := updateEdges_fwd c (edgesOf l) (edgesOf_nodup k1.2.2) (fun e he => edgesOf_adj k1.1 he) hm k4
    refine ⟨m', l, c, k1, k2, k3, k4, k7, k6, h.augment hw hst k1 k2 k3 k4, fun hlt => ?_⟩
    have e : updateFlow m (fwd l) c = .done m' := by
      unfold updateFlow
      rw [edges_fwd, k5]
    refine Returns.bind h1 ?_
    simp only [e, Run.bind_done, addU64, hlt, if_true]
    exact .lift_done _

end MaxFlow

namespace Zigzag
open DirectedGraph Path Work MaxFlow

/-- The edges, by the numbers of the vertices: a line 1, 2, ..., 2k+2; a long way 2k+3, ..., 4k+2 from 1 to the even vertices of the line;
and a long way 4k+3, ..., 6k+2 from its odd vertices to 2k+2. -/
def E (k a b : Nat) : Prop :=
  (1 ≤ a ∧ a ≤ 2 * k + 1 ∧ b = a + 1) ∨ (a = 1 ∧ b = 2 * k + 3) ∨ (2 * k + 3 ≤ a ∧ a < 4 * k + 2 ∧ b = a + 1) ∨
  (a = 4 * k + 2 ∧ ∃ i, 1 ≤ i ∧ i ≤ k ∧ b = 2 * i) ∨ ((∃ i, 1 ≤ i ∧ i ≤ k ∧ a = 2 * i + 1) ∧ b = 4 * k + 3) ∨
  (4 * k + 3 ≤ a ∧ a < 6 * k + 2 ∧ b = a + 1) ∨ (a = 6 * k + 2 ∧ b = 2 * k + 2)

/-- The same edges in a list. -/
def pairs (k : Nat) : List (Nat × Nat) :=
  (List.range' 1 (2 * k + 1)).map (fun a => (a, a + 1)) ++ [(1, 2 * k + 3)] ++ (List.range' (2 * k + 3) (2 * k - 1)).map (fun a => (a, a + 1)) ++
  (List.range' 1 k).map (fun i => (4 * k + 2, 2 * i)) ++ (List.range' 1 k).map (fun i => (2 * i + 1, 4 * k + 3)) ++
  (List.range' (4 * k + 3) (2 * k - 1)).map (fun a => (a, a + 1)) ++ [(6 * k + 2, 2 * k + 2)]

theorem mem_pairs {k a b : Nat} (hk : 0 < k) : (a, b) ∈ pairs k ↔ E k a b := by
  unfold pairs E
  simp only [List.mem_append, List.mem_map, List.mem_range'_1, List.mem_singleton, Prod.mk.injEq]
  constructor
  · rintro ((((((⟨i, h, rfl, rfl⟩ | h) | ⟨i, h, rfl, rfl⟩) | ⟨i, h, rfl, rfl⟩) | ⟨i, h, rfl, rfl⟩) | ⟨i, h, rfl, rfl⟩) | h)
    · exact .inl ⟨by omega, by omega, rfl⟩
    · exact .inr (.inl h)
    · exact .inr (.inr (.inl ⟨by omega, by omega, rfl⟩))
    · exact .inr (.inr (.inr (.inl ⟨rfl, i, by omega, by omega, rfl⟩)))
    · exact .inr (.inr (.inr (.inr (.inl ⟨⟨i, by omega, by omega, rfl⟩, rfl⟩))))
    · exact .inr (.inr (.inr (.inr (.inr (.inl ⟨by omega, by omega, rfl⟩)))))
    · exact .inr (.inr (.inr (.inr (.inr (.inr h)))))
  · rintro (⟨h1, h2, rfl⟩ | h | ⟨h1, h2, rfl⟩ | ⟨rfl, i, h1, h2, rfl⟩ | ⟨⟨i, h1, h2, rfl⟩, rfl⟩ | ⟨h1, h2, rfl⟩ | h)
    · exact .inl (.inl (.inl (.inl (.inl (.inl ⟨a, by omega, rfl, rfl⟩)))))
    · exact .inl (.inl (.inl (.inl (.inl (.inr h)))))
    · exact .inl (.inl (.inl (.inl (.inr ⟨a, by omega, rfl, rfl⟩))))
    · exact .inl (.inl (.inl (.inr ⟨i, by omega, rfl, rfl⟩)))
    · exact .inl (.inl (.inr ⟨i, by omega, rfl, rfl⟩))
    · exact .inl (.inr ⟨a, by omega, rfl, rfl⟩)
    · exact .inr h

/-- The commands that build the network. -/
def commands (k : Nat) : List GraphCommand := (pairs k).map fun p => .AddEdge (vertex p.1) (vertex p.2)

/-- The network. -/
def network (k : Nat) : DirectedGraph := GraphCommand.applyCommands (commands k) .new

/-- The edges that leave the even vertices of the line have capacity 1, all others `k`. -/
def capacity (k : Nat) (e : Edge) : UInt64 := if e.src.id.toNat % 2 = 0 ∧ e.src.id.toNat ≤ 2 * k then 1 else UInt64.ofNat k

theorem run_addEdges (ps : List (Nat × Nat)) (S : SetGraph) :
    (∀ v, (S.run (ps.map fun p => .AddEdge (vertex p.1) (vertex p.2))).V v ↔ S.V v ∨ ∃ p ∈ ps, v = vertex p.1 ∨ v = vertex p.2) ∧
    ∀ e, (S.run (ps.map fun p => .AddEdge (vertex p.1) (vertex p.2))).E e ↔ S.E e ∨ ∃ p ∈ ps, e = ⟨vertex p.1, vertex p.2⟩ := by
  induction ps generalizing S with
  | nil => simp [SetGraph.run]
  | cons p ps ih =>
    simp only [SetGraph.run, List.map_cons, List.foldl_cons] at ih ⊢
    constructor
    · intro v
      rw [(ih _).1]
      simp only [SetGraph.step, List.mem_cons, exists_eq_or_imp, or_assoc]
    · intro e
      rw [(ih _).2]
      simp only [SetGraph.step, List.mem_cons, exists_eq_or_imp, or_assoc]

variable {k : Nat}

theorem adj_iff (hk : 0 < k) {u v : VertexId} : Adj (network k) u v ↔ ∃ a b, E k a b ∧ u = vertex a ∧ v = vertex b := by
  have e : (network k).toSet = SetGraph.empty.run (commands k) := by
    unfold network
    rw [toSet_applyCommands WF.new, toSet_new]
  have h := (run_addEdges (pairs k) SetGraph.empty).2 ⟨u, v⟩
  have h' : (SetGraph.empty.run (commands k)).E ⟨u, v⟩ ↔ ∃ a b, E k a b ∧ u = vertex a ∧ v = vertex b := by
    refine h.trans ?_
    simp only [SetGraph.empty, false_or, Edge.mk.injEq, Prod.exists, mem_pairs hk]
  rw [← e] at h'
  exact h'

theorem E_le (hk : 0 < k) {a b : Nat} (h : E k a b) : 1 ≤ a ∧ a ≤ 6 * k + 2 ∧ 1 ≤ b ∧ b ≤ 6 * k + 2 := by
  unfold E at h
  rcases h with ⟨h1, h2, rfl⟩ | h | ⟨h1, h2, rfl⟩ | ⟨rfl, i, h1, h2, rfl⟩ | ⟨⟨i, h1, h2, rfl⟩, rfl⟩ | ⟨h1, h2, rfl⟩ | h <;>
    refine ⟨?_, ?_, ?_, ?_⟩ <;> omega

theorem vertex_iff (hk : 0 < k) {v : VertexId} : (network k).containsVertex v = true ↔ ∃ a, 1 ≤ a ∧ a ≤ 6 * k + 2 ∧ v = vertex a := by
  have e : (network k).toSet = SetGraph.empty.run (commands k) := by
    unfold network
    rw [toSet_applyCommands WF.new, toSet_new]
  have h := (run_addEdges (pairs k) SetGraph.empty).1 v
  have h' : (SetGraph.empty.run (commands k)).V v ↔ ∃ a, 1 ≤ a ∧ a ≤ 6 * k + 2 ∧ v = vertex a := by
    refine h.trans ?_
    simp only [SetGraph.empty, false_or, Prod.exists, mem_pairs hk]
    constructor
    · rintro ⟨a, b, h1, rfl | rfl⟩
      · exact ⟨a, (E_le hk h1).1, (E_le hk h1).2.1, rfl⟩
      · exact ⟨b, (E_le hk h1).2.2.1, (E_le hk h1).2.2.2, rfl⟩
    · rintro ⟨a, h1, h2, rfl⟩
      unfold E
      by_cases c1 : a ≤ 2 * k + 1
      · exact ⟨a, a + 1, .inl ⟨h1, c1, rfl⟩, .inl rfl⟩
      by_cases c2 : a = 2 * k + 2
      · exact ⟨2 * k + 1, a, .inl ⟨by omega, by omega, c2⟩, .inr rfl⟩
      by_cases c3 : a < 4 * k + 2
      · exact ⟨a, a + 1, .inr (.inr (.inl ⟨by omega, c3, rfl⟩)), .inl rfl⟩
      by_cases c4 : a = 4 * k + 2
      · exact ⟨a, 2, .inr (.inr (.inr (.inl ⟨c4, 1, by omega, by omega, rfl⟩))), .inl rfl⟩
      by_cases c5 : a < 6 * k + 2
      · exact ⟨a, a + 1, .inr (.inr (.inr (.inr (.inr (.inl ⟨by omega, c5, rfl⟩))))), .inl rfl⟩
      · exact ⟨a, 2 * k + 2, .inr (.inr (.inr (.inr (.inr (.inr ⟨by omega, rfl⟩))))), .inl rfl⟩
  rw [← e] at h'
  exact h'

theorem network_wf : WF (network k) := by
  unfold network
  exact (Built.new.applyCommands _).wf

theorem vertexCount (hk : 0 < k) (hk' : k < 2 ^ 60) : (network k).vertexCount = 6 * k + 2 := by
  have hp : (network k).vertices.Perm ((List.range' 1 (6 * k + 2)).map vertex) := by
    rw [List.perm_ext_iff_of_nodup network_wf.nodup_vertices]
    · intro v
      rw [mem_vertices, vertex_iff hk, List.mem_map]
      constructor
      · rintro ⟨k, h1, h2, rfl⟩
        exact ⟨k, by rw [List.mem_range'_1]; omega, rfl⟩
      · rintro ⟨k, h1, rfl⟩
        rw [List.mem_range'_1] at h1
        exact ⟨k, by omega, by omega, rfl⟩
    · refine List.Nodup.map_on ?_ List.nodup_range'
      intro a ha b hb e
      rw [List.mem_range'_1] at ha hb
      have := congrArg (fun v : VertexId => v.id.toNat) e
      simpa only [toNat_vertex (show a < 2 ^ 64 by omega), toNat_vertex (show b < 2 ^ 64 by omega)] using this
  rw [vertexCount_eq, hp.length_eq]
  simp

/-! ### The shortest path -/

/-- How far a vertex is from the first one, at least. -/
def far (k a : Nat) : Nat := if a ≤ 2 * k + 2 then a - 1 else if a ≤ 4 * k + 2 then a - (2 * k + 2) else a - (4 * k + 2)

theorem far_le {a b : Nat} (h : E k a b) : far k b ≤ far k a + 1 := by
  unfold E at h
  unfold far
  rcases h with ⟨h1, h2, rfl⟩ | h | ⟨h1, h2, rfl⟩ | ⟨rfl, i, h1, h2, rfl⟩ | ⟨⟨i, h1, h2, rfl⟩, rfl⟩ | ⟨h1, h2, rfl⟩ | h <;>
    split <;> split <;> (try split) <;> (try split) <;> omega

/-- An edge that gets one step farther. -/
def Tight (k a b : Nat) : Prop := E k a b ∧ far k b = far k a + 1

theorem tight_side {a b : Nat} (h : Tight k a b) (ha : 2 * k + 3 ≤ a ∧ a ≤ 4 * k + 2) : 2 * k + 3 ≤ b ∧ b ≤ 4 * k + 2 := by
  obtain ⟨h, h'⟩ := h
  unfold E at h
  unfold far at h'
  rcases h with ⟨h1, h2, rfl⟩ | h | ⟨h1, h2, rfl⟩ | ⟨rfl, i, h1, h2, rfl⟩ | ⟨⟨i, h1, h2, rfl⟩, rfl⟩ | ⟨h1, h2, rfl⟩ | h <;>
    first
    | omega
    | (split at h' <;> split at h' <;> (try split at h') <;> (try split at h') <;> omega)

theorem tight_line (hk : 0 < k) {a b : Nat} (h : Tight k a b) (ha : 1 ≤ a ∧ a ≤ 2 * k + 2) : (a ≤ 2 * k + 1 ∧ b = a + 1) ∨ (2 * k + 3 ≤ b ∧ b ≤ 4 * k + 2) := by
  obtain ⟨h, h'⟩ := h
  unfold E at h
  unfold far at h'
  rcases h with ⟨h1, h2, rfl⟩ | h | ⟨h1, h2, rfl⟩ | ⟨rfl, i, h1, h2, rfl⟩ | ⟨⟨i, h1, h2, rfl⟩, rfl⟩ | ⟨h1, h2, rfl⟩ | h <;>
    first
    | omega
    | (split at h' <;> split at h' <;> (try split at h') <;> (try split at h') <;> omega)

theorem chain_far {a b : Nat} {l : List Nat} (h : (a :: l).IsChain (E k)) (hl : (a :: l).getLast? = some b) :
    far k b ≤ far k a + l.length ∧ (far k a + l.length ≤ far k b → (a :: l).IsChain (Tight k)) := by
  induction l generalizing a with
  | nil =>
    simp only [List.getLast?_singleton, Option.some.injEq] at hl
    subst hl
    simp
  | cons c l ih =>
    rw [List.isChain_cons_cons] at h
    rw [List.getLast?_cons_cons] at hl
    obtain ⟨h1, h2⟩ := ih h.2 hl
    have h3 := far_le h.1
    rw [List.length_cons]
    refine ⟨by omega, fun h4 => ?_⟩
    rw [List.isChain_cons_cons]
    exact ⟨⟨h.1, by omega⟩, h2 (by omega)⟩

theorem chain_side {a b : Nat} {l : List Nat} (h : (a :: l).IsChain (Tight k)) (hl : (a :: l).getLast? = some b)
    (ha : 2 * k + 3 ≤ a ∧ a ≤ 4 * k + 2) : 2 * k + 3 ≤ b := by
  induction l generalizing a with
  | nil =>
    simp only [List.getLast?_singleton, Option.some.injEq] at hl
    omega
  | cons c l ih =>
    rw [List.isChain_cons_cons] at h
    rw [List.getLast?_cons_cons] at hl
    exact ih h.2 hl (tight_side h.1 ha)

theorem chain_line (hk : 0 < k) {a : Nat} {l : List Nat} (h : (a :: l).IsChain (Tight k)) (hl : (a :: l).getLast? = some (2 * k + 2))
    (ha : 1 ≤ a ∧ a ≤ 2 * k + 2) : a :: l = List.range' a (2 * k + 3 - a) := by
  induction l generalizing a with
  | nil =>
    simp only [List.getLast?_singleton, Option.some.injEq] at hl
    rw [show 2 * k + 3 - a = 1 by omega]
    simp
  | cons c l ih =>
    rw [List.isChain_cons_cons] at h
    rw [List.getLast?_cons_cons] at hl
    rcases tight_line hk h.1 ha with ⟨h1, rfl⟩ | h1
    · rw [ih h.2 hl (by omega), show 2 * k + 3 - a = (2 * k + 3 - (a + 1)) + 1 by omega, List.range'_succ]
    · have := chain_side h.2 hl h1
      omega

/-- The only path of at most 2k+2 vertices from one end of the line to the other is the line. -/
theorem short_line (hk : 0 < k) (hk' : k < 2 ^ 60) {l : List VertexId} (h : l.IsChain (Adj (network k))) (h1 : l.head? = some (vertex 1))
    (h2 : l.getLast? = some (vertex (2 * k + 2))) (h3 : l.length ≤ 2 * k + 2) : l = (List.range' 1 (2 * k + 2)).map vertex := by
  have hc : (l.map fun v => v.id.toNat).IsChain (E k) := by
    rw [List.isChain_map]
    refine h.imp fun u v huv => ?_
    obtain ⟨a, b, h4, rfl, rfl⟩ := (adj_iff hk).1 huv
    have := E_le hk h4
    rwa [toNat_vertex (by omega), toNat_vertex (by omega)]
  rcases l with _ | ⟨u, l⟩
  · cases h1
  simp only [List.head?_cons, Option.some.injEq] at h1
  subst h1
  have h4 : ((vertex 1 :: l).map fun v => v.id.toNat).getLast? = some (2 * k + 2) := by
    rw [List.getLast?_map, h2, Option.map_some, toNat_vertex (by omega)]
  rw [List.map_cons, toNat_vertex (by omega)] at hc h4
  obtain ⟨_, h5⟩ := chain_far hc h4
  have h6 := h5 (by
    simp only [List.length_cons] at h3
    unfold far
    rw [if_pos (by omega), if_pos (by omega), List.length_map]
    omega)
  have h7 := chain_line hk h6 h4 (by omega)
  have h8 : (vertex 1 :: l).map (fun v => v.id.toNat) = List.range' 1 (2 * k + 2) := by
    rw [List.map_cons, toNat_vertex (by omega), h7]
    rfl
  rw [← h8, List.map_map]
  have : vertex ∘ (fun v : VertexId => v.id.toNat) = id := by
    funext v
    simp [vertex]
  rw [this, List.map_id]

/-! ### Paths made of ranges -/

theorem chain_range {R : Nat → Nat → Prop} {a n : Nat} (h : ∀ i, a ≤ i → i + 1 < a + n → R i (i + 1)) : (List.range' a n).IsChain R := by
  induction n generalizing a with
  | zero => simp
  | succ n ih =>
    rw [List.range'_succ]
    rcases n with _ | n
    · simp
    · have h1 := ih (a := a + 1) fun i hi hi' => h i (by omega) (by omega)
      rw [List.range'_succ] at h1 ⊢
      rw [List.isChain_cons_cons]
      exact ⟨h a (by omega) (by omega), h1⟩

theorem edgesOf_range {a n i : Nat} (h1 : a ≤ i) (h2 : i + 1 < a + n) : (⟨vertex i, vertex (i + 1)⟩ : Edge) ∈ edgesOf ((List.range' a n).map vertex) := by
  induction n generalizing a with
  | zero => omega
  | succ n ih =>
    rcases n with _ | n
    · omega
    · have h3 := ih (a := a + 1)
      rw [List.range'_succ] at h3 ⊢
      rw [List.range'_succ, List.map_cons, List.map_cons, edgesOf, List.mem_cons]
      by_cases hi : i = a
      · exact .inl (by rw [hi])
      · exact .inr (h3 (by omega) (by omega))

theorem simple_of (hk : 0 < k) (hk' : k < 2 ^ 60) {ns : List Nat} (h : ns.IsChain (E k)) (hd : ns.Nodup) (h1 : ns.head? = some 1)
    (hb : ∀ a ∈ ns, a ≤ 6 * k + 2) : SimplePathFrom (network k) (vertex 1) (ns.map vertex) := by
  refine ⟨?_, ?_, ?_⟩
  · rw [List.isChain_map]
    exact h.imp fun a b hab => (adj_iff hk).2 ⟨a, b, hab, rfl, rfl⟩
  · rw [List.head?_map, h1]
    rfl
  · refine List.Nodup.map_on ?_ hd
    intro a ha b hb' e
    have h2 := hb a ha
    have h3 := hb b hb'
    have := congrArg (fun v : VertexId => v.id.toNat) e
    simpa only [toNat_vertex (show a < 2 ^ 64 by omega), toNat_vertex (show b < 2 ^ 64 by omega)] using this

theorem capacity_pos (hk : 0 < k) (hk' : k < 2 ^ 60) (e : Edge) : 0 < (capacity k e).toNat := by
  unfold capacity
  split
  · decide
  · rw [UInt64.toNat_ofNat', Nat.mod_eq_of_lt (by omega)]
    exact hk

theorem line_augments (hk : 0 < k) (hk' : k < 2 ^ 60) :
    Augments (network k) (capacity k) (fun _ => 0) (vertex 1) (vertex (2 * k + 2)) ((List.range' 1 (2 * k + 2)).map vertex) := by
  refine ⟨simple_of hk hk' (chain_range fun i h1 h2 => .inl ⟨h1, by omega, rfl⟩) List.nodup_range' (by simp [List.head?_range']) ?_, ?_, ?_⟩
  · intro a ha
    rw [List.mem_range'_1] at ha
    omega
  · rw [List.getLast?_map, List.getLast?_range']
    simp
  · exact fun e _ => capacity_pos hk hk' e

/-! ### After one round nothing gets through -/

theorem mem_of_closed {S : VertexId → Prop} {l : List VertexId} {s t : VertexId} (h : ∀ e ∈ edgesOf l, S e.src → S e.dst)
    (h1 : l.head? = some s) (h2 : l.getLast? = some t) (hs : S s) : S t := by
  induction l generalizing s with
  | nil => cases h1
  | cons a l ih =>
    simp only [List.head?_cons, Option.some.injEq] at h1
    subst h1
    rcases l with _ | ⟨b, l⟩
    · simp only [List.getLast?_singleton, Option.some.injEq] at h2
      exact h2 ▸ hs
    · rw [List.getLast?_cons_cons] at h2
      exact ih (fun e he => h e (by rw [edgesOf]; exact List.mem_cons_of_mem _ he)) rfl h2 (h ⟨a, b⟩ (by simp [edgesOf]) hs)

theorem saturated (hk : 0 < k) (hk' : k < 2 ^ 60) {f : Edge → Nat}
    (hf : ∀ i, 1 ≤ i → i ≤ k → f ⟨vertex (2 * i), vertex (2 * i + 1)⟩ = 1) (l : List VertexId) :
    ¬ Augments (network k) (capacity k) f (vertex 1) (vertex (2 * k + 2)) l := by
  rintro ⟨⟨h1, h2, _⟩, h3, h4⟩
  have key := mem_of_closed (S := fun v => v.id.toNat = 1 ∨ (v.id.toNat % 2 = 0 ∧ v.id.toNat ≤ 2 * k) ∨
    (2 * k + 3 ≤ v.id.toNat ∧ v.id.toNat ≤ 4 * k + 2)) (l := l) ?_ h2 h3 (.inl (toNat_vertex (by omega)))
  · simp only [toNat_vertex (show 2 * k + 2 < 2 ^ 64 by omega)] at key
    omega
  · intro e he hS
    have h5 := h4 e he
    obtain ⟨a, b, h6, h7, h8⟩ := (adj_iff hk).1 (edgesOf_adj h1 he)
    obtain ⟨u, v⟩ := e
    simp only at h7 h8 hS ⊢
    subst h7 h8
    have h9 := E_le hk h6
    rw [toNat_vertex (by omega)] at hS ⊢
    unfold E at h6
    rcases hS with rfl | hS | hS
    · rcases h6 with ⟨c1, c2, rfl⟩ | c | ⟨c1, c2, rfl⟩ | ⟨c0, i, c1, c2, rfl⟩ | ⟨⟨i, c1, c2, c0⟩, rfl⟩ | ⟨c1, c2, rfl⟩ | c <;> omega
    · rcases h6 with ⟨c1, c2, rfl⟩ | c | ⟨c1, c2, rfl⟩ | ⟨c0, i, c1, c2, rfl⟩ | ⟨⟨i, c1, c2, c0⟩, rfl⟩ | ⟨c1, c2, rfl⟩ | c <;> try omega
      exfalso
      have := hf (a / 2) (by omega) (by omega)
      rw [show 2 * (a / 2) = a by omega] at this
      rw [this, capacity, if_pos] at h5
      · exact absurd h5 (by decide)
      · simp only [toNat_vertex (show a < 2 ^ 64 by omega)]
        exact hS
    · rcases h6 with ⟨c1, c2, rfl⟩ | c | ⟨c1, c2, rfl⟩ | ⟨c0, i, c1, c2, rfl⟩ | ⟨⟨i, c1, c2, c0⟩, rfl⟩ | ⟨c1, c2, rfl⟩ | c <;> omega

/-- max_flow stops after one round, with the value 1. -/
theorem reports_one (hk : 0 < k) (hk' : k < 2 ^ 60) : ∃ m, Returns (maxFlow (network k) (capacity k) (vertex 1) (vertex (2 * k + 2))) (1, m) := by
  have hst : vertex 1 ≠ vertex (2 * k + 2) := by
    intro e
    have := congrArg (fun v : VertexId => v.id.toNat) e
    simp only [toNat_vertex (show 1 < 2 ^ 64 by omega), toNat_vertex (show 2 * k + 2 < 2 ^ 64 by omega)] at this
    omega
  have hw := network_wf (k := k)
  rcases step_shortest hw hst (initialFlow_rep hw (capacity k)) (FlowInv.init _ _ _ _) with ⟨_, h⟩ | ⟨m', l, c, h1, h2, h3, h4, h5, h6, h7, h8⟩
  · exact absurd (line_augments hk hk') (h _)
  · have h9 := h5 _ (line_augments hk hk')
    simp only [List.length_map, List.length_range'] at h9
    have hl := short_line hk hk' h1.1 h1.2.1 h2 h9
    have hmem : ∀ i, 1 ≤ i → i ≤ k → (⟨vertex (2 * i), vertex (2 * i + 1)⟩ : Edge) ∈ edgesOf l := by
      intro i hi hi'
      rw [hl]
      exact edgesOf_range (by omega) (by omega)
    have hcap : ∀ i, 1 ≤ i → i ≤ k → (capacity k ⟨vertex (2 * i), vertex (2 * i + 1)⟩).toNat = 1 := by
      intro i hi hi'
      unfold capacity
      rw [if_pos]
      · rfl
      · simp only [toNat_vertex (show 2 * i < 2 ^ 64 by omega)]
        omega
    have hc : c = 1 := by
      have := h4 _ (hmem 1 (by omega) (by omega))
      rw [hcap 1 (by omega) (by omega)] at this
      omega
    subst hc
    have hsat : ∀ i, 1 ≤ i → i ≤ k → bumpAll 1 (edgesOf l) (fun _ => 0) ⟨vertex (2 * i), vertex (2 * i + 1)⟩ = 1 := by
      intro i hi hi'
      rw [bumpAll_mem _ _ (edgesOf_nodup h1.2.2) _ _ (hmem i hi hi')]
    rcases step_shortest hw hst h6 h7 with ⟨k1, _⟩ | ⟨m'', l', c', k1, k2, k3, k4, _⟩
    · exact ⟨m', (LoopTo.next (h8 (by decide)) (LoopTo.stop k1)).returns⟩
    · exact absurd ⟨k1, k2, fun e he => by have := k4 e he; omega⟩ (saturated hk hk' hsat l')

/-! ### A flow of value k -/

/-- The `i`-th path of the greater flow: the long way to `2 * i`, one step along the line, and the long way to the end. -/
def route (k i : Nat) : List Nat := 1 :: (List.range' (2 * k + 3) (2 * k) ++ (2 * i :: (2 * i + 1) :: (List.range' (4 * k + 3) (2 * k) ++ [2 * k + 2])))

theorem mem_route {k i a : Nat} : a ∈ route k i ↔ a = 1 ∨ (2 * k + 3 ≤ a ∧ a ≤ 4 * k + 2) ∨ a = 2 * i ∨ a = 2 * i + 1 ∨
    (4 * k + 3 ≤ a ∧ a ≤ 6 * k + 2) ∨ a = 2 * k + 2 := by
  unfold route
  simp only [List.mem_cons, List.mem_append, List.mem_range'_1, List.not_mem_nil, or_false]
  omega

theorem route_chain {i : Nat} (hk : 0 < k) (hi : 1 ≤ i) (hi' : i ≤ k) : (route k i).IsChain (E k) := by
  unfold route
  have c1 : (List.range' (2 * k + 3) (2 * k)).IsChain (E k) := chain_range fun j h1 h2 => .inr (.inr (.inl ⟨h1, by omega, rfl⟩))
  have c2 : (List.range' (4 * k + 3) (2 * k)).IsChain (E k) :=
    chain_range fun j h1 h2 => .inr (.inr (.inr (.inr (.inr (.inl ⟨h1, by omega, rfl⟩)))))
  obtain ⟨m, hm⟩ : ∃ m, 2 * k = m + 1 := ⟨2 * k - 1, by omega⟩
  have l1 : (List.range' (2 * k + 3) (2 * k)).getLast? = some (4 * k + 2) := by
    rw [List.getLast?_range', if_neg (by omega)]
    congr 1
    omega
  have l2 : (List.range' (4 * k + 3) (2 * k)).getLast? = some (6 * k + 2) := by
    rw [List.getLast?_range', if_neg (by omega)]
    congr 1
    omega
  have d1 : (List.range' (2 * k + 3) (2 * k)).head? = some (2 * k + 3) := by rw [hm, List.range'_succ]; rfl
  have d2 : (List.range' (4 * k + 3) (2 * k)).head? = some (4 * k + 3) := by rw [hm, List.range'_succ]; rfl
  rw [List.isChain_cons]
  refine ⟨?_, ?_⟩
  · intro y hy
    rw [List.head?_append, d1] at hy
    simp at hy
    subst hy
    exact .inr (.inl ⟨rfl, rfl⟩)
  · rw [List.isChain_append]
    refine ⟨c1, ?_, ?_⟩
    · rw [List.isChain_cons_cons, List.isChain_cons]
      refine ⟨.inl ⟨by omega, by omega, rfl⟩, ?_, ?_⟩
      · intro y hy
        rw [List.head?_append, d2] at hy
        simp at hy
        subst hy
        exact .inr (.inr (.inr (.inr (.inl ⟨⟨i, hi, hi', rfl⟩, rfl⟩))))
      · rw [List.isChain_append]
        refine ⟨c2, by simp, ?_⟩
        intro x hx y hy
        rw [l2] at hx
        simp at hx hy
        subst hx hy
        exact .inr (.inr (.inr (.inr (.inr (.inr ⟨rfl, rfl⟩)))))
    · intro x hx y hy
      rw [l1] at hx
      simp at hx hy
      subst hx hy
      exact .inr (.inr (.inr (.inl ⟨rfl, i, hi, hi', rfl⟩)))

theorem route_nodup {i : Nat} (hi : 1 ≤ i) (hi' : i ≤ k) : (route k i).Nodup := by
  unfold route
  simp only [List.nodup_cons, List.nodup_append, List.mem_append, List.mem_cons, List.mem_range'_1, List.not_mem_nil, or_false,
    true_and, not_false_eq_true, List.nodup_nil, and_true, not_or, not_and]
  refine ⟨by omega, List.nodup_range', ⟨⟨by omega, by omega, by omega⟩, ⟨by omega, by omega⟩, List.nodup_range', ?_⟩, ?_⟩
  · intro a ha b hb
    omega
  · intro a ha b hb
    omega

theorem route_last {i : Nat} : (route k i).getLast? = some (2 * k + 2) := by
  unfold route
  rw [List.getLast?_cons]
  simp [List.getLast?_append, List.getLast?_cons]

theorem greater (hk : 0 < k) (hk' : k < 2 ^ 60) : ∃ f, FlowInv (network k) (capacity k) (vertex 1) (vertex (2 * k + 2)) f k := by
  have hst : vertex 1 ≠ vertex (2 * k + 2) := by
    intro e
    have := congrArg (fun v : VertexId => v.id.toNat) e
    simp only [toNat_vertex (show 1 < 2 ^ 64 by omega), toNat_vertex (show 2 * k + 2 < 2 ^ 64 by omega)] at this
    omega
  have key : ∀ i, i ≤ k → ∃ f, FlowInv (network k) (capacity k) (vertex 1) (vertex (2 * k + 2)) f i ∧ (∀ e, f e ≤ i) ∧
      ∀ e : Edge, e.src.id.toNat % 2 = 0 → 2 * i < e.src.id.toNat → e.src.id.toNat ≤ 2 * k → f e = 0 := by
    intro i
    induction i with
    | zero => exact fun _ => ⟨_, FlowInv.init _ _ _ _, fun _ => Nat.le_refl _, fun _ _ _ _ => rfl⟩
    | succ i ih =>
      intro hi
      obtain ⟨f, h1, h2, h3⟩ := ih (by omega)
      have hs : SimplePathFrom (network k) (vertex 1) ((route k (i + 1)).map vertex) :=
        simple_of hk hk' (route_chain hk (by omega) hi) (route_nodup (by omega) hi) rfl (fun a ha => by
          have := mem_route.1 ha
          omega)
      have hsrc : ∀ e ∈ edgesOf ((route k (i + 1)).map vertex), e.src.id.toNat % 2 = 0 → e.src.id.toNat ≤ 2 * k →
          e.src.id.toNat = 2 * (i + 1) := by
        intro e he h4 h5
        have h6 := List.mem_of_mem_dropLast (edgesOf_mem he).1
        obtain ⟨a, h7, h8⟩ := List.mem_map.1 h6
        have h9 := mem_route.1 h7
        rw [← h8, toNat_vertex (by omega)] at h4 h5 ⊢
        omega
      have hr : ∀ e ∈ edgesOf ((route k (i + 1)).map vertex), f e + 1 ≤ (capacity k e).toNat := by
        intro e he
        unfold capacity
        split
        · rename_i hc
          have := hsrc e he hc.1 hc.2
          rw [h3 e hc.1 (by omega) hc.2]
          decide
        · rw [UInt64.toNat_ofNat', Nat.mod_eq_of_lt (by omega)]
          have := h2 e
          omega
      refine ⟨_, h1.augment network_wf hst hs ?_ (by omega) hr, ?_, ?_⟩
      · rw [List.getLast?_map, route_last]
        rfl
      · intro e
        have := h2 e
        by_cases he : e ∈ edgesOf ((route k (i + 1)).map vertex)
        · rw [bumpAll_mem _ _ (edgesOf_nodup hs.2.2) _ _ he]
          omega
        · rw [bumpAll_notMem _ _ _ _ he]
          omega
      · intro e h4 h5 h6
        by_cases he : e ∈ edgesOf ((route k (i + 1)).map vertex)
        · have := hsrc e he h4 h6
          omega
        · rw [bumpAll_notMem _ _ _ _ he]
          exact h3 e h4 (by omega) h6
  obtain ⟨f, h1, _⟩ := key k (Nat.le_refl _)
  exact ⟨f, h1⟩

end Zigzag
end GC
