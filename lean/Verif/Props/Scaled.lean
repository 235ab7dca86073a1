/-
C139: max_flow and the capacities.
-/
import Verif.Proofs.NoCapacity
import Verif.Props.MaxFlow
namespace GC
open DirectedGraph Path MaxFlow

/-- If all capacities are multiplied by a positive number, the value and all flows are: max_flow chooses the same paths, in whatever unit the capacities
are given. -/
theorem C139_scaled (g : DirectedGraph) (h : Built g) (cap cap' : Edge → UInt64) (c : Nat) (hc : 0 < c)
    (hcap : ∀ e, g.containsEdge e = true → (cap' e).toNat = c * (cap e).toNat) (s t : VertexId) (n : Nat) (m : FlowMap)
    (hr : Returns (maxFlow g cap s t) (n, m)) (hn : c * n < 2 ^ 64) :
    ∃ m', Returns (maxFlow g cap' s t) (c * n, m') ∧ ∀ e, HMap.get? m' e = (HMap.get? m e).map fun q => (c * q.1, c * q.2) := by
  by_cases hst : s = t
  · subst hst
    exact absurd (C56_counterexample_same g cap s) hr.not_panics
  · rcases maxFlow_scaled h.wf hc hcap hst with ⟨n', m1, m', h1, h2, h3, _⟩ | ⟨_, h2⟩
    · cases hr.unique h1
      exact ⟨m', h2, h3⟩
    · rcases h2 with h2 | ⟨n', m', h2, h3⟩
      · exact absurd h2 hr.not_panics
      · cases hr.unique h2
        omega

/-- With the multiplied capacities max_flow panics exactly if it does with the others or if the multiplied value does not fit into 64 bits. -/
theorem C139_scaled_panics (g : DirectedGraph) (h : Built g) (cap cap' : Edge → UInt64) (c : Nat) (hc : 0 < c)
    (hcap : ∀ e, g.containsEdge e = true → (cap' e).toNat = c * (cap e).toNat) (s t : VertexId) :
    Panics (maxFlow g cap' s t) ↔ Panics (maxFlow g cap s t) ∨ ∃ n m, Returns (maxFlow g cap s t) (n, m) ∧ 2 ^ 64 ≤ c * n := by
  by_cases hst : s = t
  · subst hst
    exact ⟨fun _ => .inl (C56_counterexample_same g cap s), fun _ => C56_counterexample_same g cap' s⟩
  · rcases maxFlow_scaled h.wf hc hcap hst with ⟨n', m1, m', h1, h2, h3, h4⟩ | h2
    · constructor
      · exact fun hp => absurd hp h2.not_panics
      · rintro (hp | ⟨n, m, hr, hn⟩)
        · exact absurd hp h1.not_panics
        · cases hr.unique h1
          omega
    · exact ⟨fun _ => h2.2, fun _ => h2.1⟩

/-- A common divisor of the capacities divides the value and all flows. -/
theorem C139_divides (g : DirectedGraph) (h : Built g) (cap : Edge → UInt64) (c : Nat) (hc : 0 < c)
    (hcap : ∀ e, g.containsEdge e = true → c ∣ (cap e).toNat) (s t : VertexId) (n : Nat) (m : FlowMap)
    (hr : Returns (maxFlow g cap s t) (n, m)) : c ∣ n ∧ ∀ e q, HMap.get? m e = some q → c ∣ q.1 := by
  by_cases hst : s = t
  · subst hst
    exact absurd (C56_counterexample_same g cap s) hr.not_panics
  · have hcap' : ∀ e, g.containsEdge e = true → (cap e).toNat = c * (UInt64.ofNat ((cap e).toNat / c)).toNat := by
      intro e he
      have h1 : (cap e).toNat / c < 2 ^ 64 := Nat.lt_of_le_of_lt (Nat.div_le_self _ _) (cap e).toNat_lt
      rw [UInt64.toNat_ofNat_of_lt' h1, Nat.mul_div_cancel' (hcap e he)]
    rcases maxFlow_scaled (cap := fun e => UInt64.ofNat ((cap e).toNat / c)) (cap' := cap) h.wf hc hcap' hst with
      ⟨n', m1, m', h1, h2, h3, h4⟩ | ⟨h2, _⟩
    · cases hr.unique h2
      refine ⟨⟨n', rfl⟩, fun e q hq => ?_⟩
      rw [h3 e] at hq
      obtain ⟨q', _, rfl⟩ := Option.map_eq_some_iff.1 hq
      exact ⟨q'.1, rfl⟩
    · exact absurd h2 hr.not_panics

/-- Edges of capacity 0 can be removed: the value and the flows on the other edges stay. -/
theorem C139_remove_edges (g : DirectedGraph) (h : Built g) (cap : Edge → UInt64) (es : List Edge) (hz : ∀ e ∈ es, cap e = 0) (s t : VertexId) :
    (∃ n m m', Returns (maxFlow g cap s t) (n, m) ∧
      Returns (maxFlow (GraphCommand.applyCommands (es.map fun e => .RemoveEdge e.src e.dst) g) cap s t) (n, m') ∧
      ∀ e, HMap.get? m' e = if e ∈ es then none else HMap.get? m e) ∨
    (Panics (maxFlow g cap s t) ∧ Panics (maxFlow (GraphCommand.applyCommands (es.map fun e => .RemoveEdge e.src e.dst) g) cap s t)) := by
  by_cases hst : s = t
  · subst hst
    exact .inr ⟨C56_counterexample_same _ cap s, C56_counterexample_same _ cap s⟩
  induction es generalizing g with
  | nil =>
    rcases C56_terminates g h cap s t with ⟨r, hr⟩ | hp
    · exact .inl ⟨r.1, r.2, r.2, hr, hr, fun e => by simp⟩
    · exact .inr ⟨hp, hp⟩
  | cons x es ih =>
    have hb : Built (g.removeEdge x).2 := h.applyCommands [.RemoveEdge x.src x.dst]
    have hx : (cap x).toNat = 0 := by rw [hz x (by simp)]; rfl
    have h2 := ih (g.removeEdge x).2 hb fun e he => hz e (List.mem_cons_of_mem _ he)
    have e1 : GraphCommand.applyCommands ((x :: es).map fun e => .RemoveEdge e.src e.dst) g =
      GraphCommand.applyCommands (es.map fun e => .RemoveEdge e.src e.dst) (g.removeEdge x).2 := rfl
    rw [e1]
    rcases maxFlow_without h.wf hb.wf (without_removeEdge h.wf x) hx hst with ⟨n, m, m', k1, k2, k3⟩ | ⟨k1, k2⟩
    · rcases h2 with ⟨n', m1, m1', q1, q2, q3⟩ | ⟨q1, _⟩
      · cases k2.unique q1
        refine .inl ⟨n, m, m1', k1, q2, fun e => ?_⟩
        rw [q3, k3]
        by_cases h1 : e ∈ es
        · simp [h1]
        · by_cases h2 : e = x <;> simp [h1, h2]
      · exact absurd q1 k2.not_panics
    · rcases h2 with ⟨n', m1, m1', q1, _⟩ | ⟨_, q2⟩
      · exact absurd k2 q1.not_panics
      · exact .inr ⟨k1, q2⟩

/-- Further edges of capacity 0 change nothing, also if they bring new vertices. -/
theorem C139_add_edges (g : DirectedGraph) (h : Built g) (cap : Edge → UInt64) (es : List Edge) (hz : ∀ e ∈ es, cap e = 0) (s t : VertexId) :
    (∃ n m m', Returns (maxFlow g cap s t) (n, m) ∧
      Returns (maxFlow (GraphCommand.applyCommands (es.map fun e => .AddEdge e.src e.dst) g) cap s t) (n, m') ∧
      (∀ e ∉ es, HMap.get? m' e = HMap.get? m e) ∧ ∀ e ∈ es, HMap.get? m' e = some (0, 0)) ∨
    (Panics (maxFlow g cap s t) ∧ Panics (maxFlow (GraphCommand.applyCommands (es.map fun e => .AddEdge e.src e.dst) g) cap s t)) := by
  by_cases hst : s = t
  · subst hst
    exact .inr ⟨C56_counterexample_same _ cap s, C56_counterexample_same _ cap s⟩
  have key : ∀ es : List Edge, ∀ g, Built g → (∀ e ∈ es, cap e = 0) →
      (∃ n m m', Returns (maxFlow g cap s t) (n, m) ∧
        Returns (maxFlow (GraphCommand.applyCommands (es.map fun e => .AddEdge e.src e.dst) g) cap s t) (n, m') ∧
        ∀ e ∉ es, HMap.get? m' e = HMap.get? m e) ∨
      (Panics (maxFlow g cap s t) ∧ Panics (maxFlow (GraphCommand.applyCommands (es.map fun e => .AddEdge e.src e.dst) g) cap s t)) := by
    intro es
    induction es with
    | nil =>
      intro g h _
      rcases C56_terminates g h cap s t with ⟨r, hr⟩ | hp
      · exact .inl ⟨r.1, r.2, r.2, hr, hr, fun e _ => rfl⟩
      · exact .inr ⟨hp, hp⟩
    | cons x es ih =>
      intro g h hz
      have hb : Built (g.addEdge x).2 := h.applyCommands [.AddEdge x.src x.dst]
      have hx : (cap x).toNat = 0 := by rw [hz x (by simp)]; rfl
      have h2 := ih (g.addEdge x).2 hb fun e he => hz e (List.mem_cons_of_mem _ he)
      have e1 : GraphCommand.applyCommands ((x :: es).map fun e => .AddEdge e.src e.dst) g =
        GraphCommand.applyCommands (es.map fun e => .AddEdge e.src e.dst) (g.addEdge x).2 := rfl
      rw [e1]
      cases hc : g.containsEdge x with
      | true =>
        have e2 : (g.addEdge x).2 = g := by unfold addEdge; simp [hc]
        rw [e2] at h2 ⊢
        rcases h2 with ⟨n, m, m', k1, k2, k3⟩ | k
        · exact .inl ⟨n, m, m', k1, k2, fun e he => k3 e fun hm => he (List.mem_cons_of_mem _ hm)⟩
        · exact .inr k
      | false =>
        rcases maxFlow_without hb.wf h.wf (without_addEdge h.wf x hc) hx hst with ⟨n, m, m', k1, k2, k3⟩ | ⟨k1, k2⟩
        · rcases h2 with ⟨n', m1, m1', q1, q2, q3⟩ | ⟨q1, _⟩
          · cases k1.unique q1
            refine .inl ⟨n, m', m1', k2, q2, fun e he => ?_⟩
            rw [q3 e fun hm => he (List.mem_cons_of_mem _ hm), k3, if_neg fun hx => he (by simp [hx])]
          · exact absurd q1 k1.not_panics
        · rcases h2 with ⟨n', m1, m1', q1, _⟩ | ⟨_, q2⟩
          · exact absurd k1 q1.not_panics
          · exact .inr ⟨k2, q2⟩
  rcases key es g h hz with ⟨n, m, m', k1, k2, k3⟩ | k
  · refine .inl ⟨n, m, m', k1, k2, k3, fun e he => ?_⟩
    obtain ⟨f, q1, q2, _⟩ := C54_feasible _ (h.applyCommands _) cap s t hst n m' k2
    have hin : (GraphCommand.applyCommands (es.map fun e => .AddEdge e.src e.dst) g).containsEdge e = true := by
      have hadd : ∀ (es : List Edge) (g : DirectedGraph), Built g → e ∈ es ∨ g.containsEdge e = true →
          (GraphCommand.applyCommands (es.map fun e => .AddEdge e.src e.dst) g).containsEdge e = true := by
        intro es
        induction es with
        | nil => exact fun g _ h => h.resolve_left (by simp)
        | cons x es ih =>
          intro g h he
          have hb : Built (g.addEdge x).2 := h.applyCommands [.AddEdge x.src x.dst]
          refine ih (g.addEdge x).2 hb ?_
          rw [hb.wf.containsEdge_iff, mem_inc_addEdge h.wf, ← h.wf.containsEdge_iff]
          rcases he with he | he
          · rcases List.mem_cons.1 he with rfl | he
            · exact .inr (.inr ⟨rfl, .inl rfl⟩)
            · exact .inl he
          · exact .inr (.inl he)
      exact hadd es g h (.inl he)
    have := q2.1 e hin
    rw [q1, if_pos hin, hz e he]
    rw [hz e he] at this
    have h0 : f e = 0 := Nat.le_zero.1 this
    rw [h0]
    rfl
  · exact .inr k

/-! ### Examples -/

theorem exNetwork_flow : ∃ m, Returns (maxFlow exNetwork exCapacity 1 4) (8, m) :=
  ⟨[(⟨1, 2⟩, (3, 7)), (⟨1, 3⟩, (5, 5)), (⟨2, 4⟩, (3, 3)), (⟨2, 3⟩, (0, 10)), (⟨3, 4⟩, (5, 5))],
    (mono_maxFlow _ _ _ _).returns (n := 30) (by decide)⟩

-- C139_scaled: with tenfold capacities the value is 80.
example : ∃ m, Returns (maxFlow exNetwork (fun e => 10 * exCapacity e) 1 4) (80, m) := by
  obtain ⟨m, hm⟩ := exNetwork_flow
  have hcap : ∀ e ∈ exNetwork.edges, ((10 : UInt64) * exCapacity e).toNat = 10 * (exCapacity e).toNat := by decide
  have hb : Built exNetwork := Built.new.applyCommands _
  obtain ⟨m', h1, _⟩ := C139_scaled exNetwork hb exCapacity (fun e => 10 * exCapacity e) 10 (by decide)
    (fun e he => hcap e (hb.wf.mem_edges.2 he)) 1 4 8 m hm (by decide)
  exact ⟨m', h1⟩

-- C139_scaled_panics: with all capacities 1 the value is 2; with all capacities 2^63 it does not fit.
example : Panics (maxFlow exNetwork (fun _ => 0x8000000000000000) 1 4) :=
  (C139_scaled_panics exNetwork (Built.new.applyCommands _) (fun _ => 1) _ (2 ^ 63) (by decide) (fun _ _ => rfl) 1 4).2
    (.inr ⟨2, [(⟨1, 2⟩, (1, 1)), (⟨1, 3⟩, (1, 1)), (⟨2, 4⟩, (1, 1)), (⟨2, 3⟩, (0, 1)), (⟨3, 4⟩, (1, 1))],
      (mono_maxFlow _ _ _ _).returns (n := 30) (by decide), by decide⟩)

-- C139_divides
example : ∃ n m, Returns (maxFlow exNetwork (fun e => 10 * exCapacity e) 1 4) (n, m) ∧ 10 ∣ n := by
  have hb : Built exNetwork := Built.new.applyCommands _
  have hcap : ∀ e ∈ exNetwork.edges, 10 ∣ ((10 : UInt64) * exCapacity e).toNat := by decide
  obtain ⟨r, hr⟩ := C56_returns_partial exNetwork hb (fun e => 10 * exCapacity e) 1 4 (by decide) (fun v => decide (v = 1)) (by unfold IsCut; decide) (by decide)
  exact ⟨r.1, r.2, hr, (C139_divides exNetwork hb _ 10 (by decide) (fun e he => hcap e (hb.wf.mem_edges.2 he)) 1 4 r.1 r.2 hr).1⟩

-- C139_remove_edges, C139_add_edges: without 2 → 3, of capacity 0, and with new edges of capacity 0 the value is 8, too.
def exZero (e : Edge) : UInt64 := if e = ⟨1, 2⟩ then 7 else if e = ⟨2, 4⟩ then 3 else if e = ⟨1, 3⟩ ∨ e = ⟨3, 4⟩ then 5 else 0
theorem exZero_flow : ∃ m, Returns (maxFlow exNetwork exZero 1 4) (8, m) :=
  ⟨[(⟨1, 2⟩, (3, 7)), (⟨1, 3⟩, (5, 5)), (⟨2, 4⟩, (3, 3)), (⟨2, 3⟩, (0, 0)), (⟨3, 4⟩, (5, 5))],
    (mono_maxFlow _ _ _ _).returns (n := 30) (by decide)⟩
example : ∃ m, Returns (maxFlow (GraphCommand.applyCommands [.RemoveEdge 2 3] exNetwork) exZero 1 4) (8, m) := by
  obtain ⟨m, hm⟩ := exZero_flow
  rcases C139_remove_edges exNetwork (Built.new.applyCommands _) exZero [⟨2, 3⟩] (by decide) 1 4 with ⟨n, m1, m', h1, h2, _⟩ | ⟨h1, _⟩
  · cases hm.unique h1
    exact ⟨m', h2⟩
  · exact absurd h1 hm.not_panics
example : ∃ m, Returns (maxFlow (GraphCommand.applyCommands [.AddEdge 1 4, .AddEdge 3 9, .AddEdge 9 4] exNetwork) exZero 1 4) (8, m) ∧
    HMap.get? m ⟨9, 4⟩ = some (0, 0) := by
  obtain ⟨m, hm⟩ := exZero_flow
  rcases C139_add_edges exNetwork (Built.new.applyCommands _) exZero [⟨1, 4⟩, ⟨3, 9⟩, ⟨9, 4⟩] (by decide) 1 4 with ⟨n, m1, m', h1, h2, _, h3⟩ | ⟨h1, _⟩
  · cases hm.unique h1
    exact ⟨m', h2, h3 _ (by decide)⟩
  · exact absurd h1 hm.not_panics

end GC
