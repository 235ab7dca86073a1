/-
Proofs about gc-random.
-/
import Verif.Spec.Random
import Verif.Proofs.Prog
import Verif.Proofs.Graph
import Verif.Proofs.GraphCommands
import Verif.Props.Graph
namespace GC
namespace Random
open DirectedGraph

/-- One draw with its vertex: what `addRandomEdge` adds. -/
theorem addRandomEdge_cases {layer vid : Nat} (hl : layer < 2 ^ 64) (hv : vid < 2 ^ 64) (other : UInt64) (g : DirectedGraph) :
    (∃ e : Edge, addRandomEdge (UInt64.ofNat layer) vid other g = (g.addEdge e).2 ∧
      ∀ e', (((e'.src.id.toNat = vid ∧ e'.dst.id = other) ∨ (e'.src.id = other ∧ e'.dst.id.toNat = vid)) ∧
        e'.src.id.toNat + layer < e'.dst.id.toNat) ↔ e' = e) ∨
    (addRandomEdge (UInt64.ofNat layer) vid other g = g ∧
      ∀ e' : Edge, ¬ (((e'.src.id.toNat = vid ∧ e'.dst.id = other) ∨ (e'.src.id = other ∧ e'.dst.id.toNat = vid)) ∧
        e'.src.id.toNat + layer < e'.dst.id.toNat)) := by
  have hvid : (UInt64.ofNat vid).toNat = vid := by rw [UInt64.toNat_ofNat']; omega
  have hlay : (UInt64.ofNat layer).toNat = layer := by rw [UInt64.toNat_ofNat']; omega
  unfold addRandomEdge
  dsimp only
  have hid : ∀ x : UInt64, x.toNat = vid → x = UInt64.ofNat vid := by
    intro x hx
    apply UInt64.toNat.inj
    rw [hx, hvid]
  by_cases hle : UInt64.ofNat vid ≤ other
  · rw [if_pos hle, if_pos hle]
    have hle' : vid ≤ other.toNat := by rw [UInt64.le_iff_toNat_le, hvid] at hle; exact hle
    have hsub : (other - UInt64.ofNat vid).toNat = other.toNat - vid := by
      rw [UInt64.toNat_sub_of_le _ _ hle, hvid]
    by_cases hc : other - UInt64.ofNat vid > UInt64.ofNat layer
    · left
      rw [if_pos hc]
      refine ⟨_, rfl, ?_⟩
      rw [gt_iff_lt, UInt64.lt_iff_toNat_lt, hsub, hlay] at hc
      rintro ⟨⟨a⟩, ⟨b⟩⟩
      simp only [Edge.mk.injEq, VertexId.mk.injEq]
      constructor
      · rintro ⟨⟨h1, h2⟩ | ⟨h1, h2⟩, h3⟩
        · exact ⟨hid _ h1, h2⟩
        · subst h1; omega
      · rintro ⟨rfl, rfl⟩
        rw [hvid]
        exact ⟨.inl ⟨rfl, rfl⟩, by omega⟩
    · right
      rw [if_neg hc]
      refine ⟨rfl, ?_⟩
      rw [gt_iff_lt, UInt64.lt_iff_toNat_lt, hsub, hlay] at hc
      rintro ⟨⟨a⟩, ⟨b⟩⟩
      rintro ⟨⟨h1, h2⟩ | ⟨h1, h2⟩, h3⟩
      · simp only at h1 h2 h3; subst h2; omega
      · simp only at h1 h2 h3; subst h1; omega
  · rw [if_neg hle, if_neg hle]
    have hlt : other.toNat < vid := by rw [UInt64.le_iff_toNat_le, hvid] at hle; omega
    have hle2 : other ≤ UInt64.ofNat vid := by rw [UInt64.le_iff_toNat_le, hvid]; omega
    have hsub : (UInt64.ofNat vid - other).toNat = vid - other.toNat := by
      rw [UInt64.toNat_sub_of_le _ _ hle2, hvid]
    by_cases hc : UInt64.ofNat vid - other > UInt64.ofNat layer
    · left
      rw [if_pos hc]
      refine ⟨_, rfl, ?_⟩
      rw [gt_iff_lt, UInt64.lt_iff_toNat_lt, hsub, hlay] at hc
      rintro ⟨⟨a⟩, ⟨b⟩⟩
      simp only [Edge.mk.injEq, VertexId.mk.injEq]
      constructor
      · rintro ⟨⟨h1, h2⟩ | ⟨h1, h2⟩, h3⟩
        · subst h2; omega
        · exact ⟨h1, hid _ h2⟩
      · rintro ⟨rfl, rfl⟩
        rw [hvid]
        exact ⟨.inr ⟨rfl, rfl⟩, by omega⟩
    · right
      rw [if_neg hc]
      refine ⟨rfl, ?_⟩
      rw [gt_iff_lt, UInt64.lt_iff_toNat_lt, hsub, hlay] at hc
      rintro ⟨⟨a⟩, ⟨b⟩⟩
      rintro ⟨⟨h1, h2⟩ | ⟨h1, h2⟩, h3⟩
      · simp only at h1 h2 h3; subst h2; omega
      · simp only at h1 h2 h3; subst h1; omega

/-- The graph holds exactly the edges of the first draws. -/
structure RandomInv (rng : Nat → UInt64) (vc : Nat) (s : RandomState) : Prop where
  built : Built s.graph
  edge : ∀ e, s.graph.containsEdge e = true ↔ ∃ k < s.draws, Drawn rng vc k e
  vertex : ∀ v, s.graph.containsVertex v = true ↔ ∃ k < s.draws, ∃ e, Drawn rng vc k e ∧ (v = e.src ∨ v = e.dst)

theorem containsEdge_addEdge' {g : DirectedGraph} (h : Built g) (e x : Edge) :
    (g.addEdge e).2.containsEdge x = true ↔ g.containsEdge x = true ∨ x = e := by
  have := toSet_applyTo h.wf (.AddEdge e.src e.dst)
  have := congrArg (fun G => SetGraph.E G x) this
  simp only [SetGraph.step, DirectedGraph.toSet, GraphCommand.applyTo] at this
  rw [eq_iff_iff] at this
  exact this

theorem Built.addEdge {g : DirectedGraph} (h : Built g) (e : Edge) : Built (g.addEdge e).2 :=
  h.applyCommands [.AddEdge e.src e.dst]

theorem edges_length_addEdge {g : DirectedGraph} (h : Built g) (e : Edge) : (g.addEdge e).2.edges.length ≤ g.edges.length + 1 := by
  have h2 := Built.addEdge h e
  have : (g.addEdge e).2.edges ⊆ e :: g.edges := by
    intro x hx
    have := (containsEdge_addEdge' h e x).1 (h2.wf.mem_edges.1 hx)
    rw [List.mem_cons, h.wf.mem_edges]
    tauto
  simpa using (List.subperm_of_subset h2.wf.nodup_edges this).length_le

theorem drawOne_inv {rng : Nat → UInt64} {vc : Nat} (hvc : vc < 2 ^ 64) {s : RandomState} (h : RandomInv rng vc s) {vid : Nat}
    (h1 : 1 < vc) (hv : vid = 1 + s.draws % (vc - 1)) :
    RandomInv rng vc (drawOne rng (UInt64.ofNat (vc / 10)) s vid) ∧
    (drawOne rng (UInt64.ofNat (vc / 10)) s vid).graph.edges.length ≤ s.graph.edges.length + 1 := by
  have hlt : vid < 2 ^ 64 := by
    have := Nat.mod_lt s.draws (show 0 < vc - 1 by omega)
    omega
  have hdr : ∀ e : Edge, Drawn rng vc s.draws e ↔
      (((e.src.id.toNat = vid ∧ e.dst.id = rng s.draws) ∨ (e.src.id = rng s.draws ∧ e.dst.id.toNat = vid)) ∧
        e.src.id.toNat + vc / 10 < e.dst.id.toNat) := by
    intro e
    unfold Drawn
    rw [hv]
    simp [h1]
  rcases addRandomEdge_cases (layer := vc / 10) (by omega) hlt (rng s.draws) s.graph with ⟨e, he, hu⟩ | ⟨he, hu⟩
  · have hu' : ∀ e', Drawn rng vc s.draws e' ↔ e' = e := fun e' => (hdr e').trans (hu e')
    unfold drawOne
    rw [he]
    refine ⟨⟨Built.addEdge h.built e, ?_, ?_⟩, edges_length_addEdge h.built e⟩
    · intro x
      dsimp only
      rw [containsEdge_addEdge' h.built, h.edge]
      constructor
      · rintro (⟨k, hk, hd⟩ | rfl)
        · exact ⟨k, by omega, hd⟩
        · exact ⟨s.draws, by omega, (hu' _).2 rfl⟩
      · rintro ⟨k, hk, hd⟩
        by_cases hks : k < s.draws
        · exact .inl ⟨k, hks, hd⟩
        · have : k = s.draws := by omega
          subst this
          exact .inr ((hu' _).1 hd)
    · intro v
      dsimp only
      rw [containsVertex_addEdge h.built.wf, h.vertex]
      constructor
      · rintro (⟨k, hk, x, hd⟩ | hx)
        · exact ⟨k, by omega, x, hd⟩
        · exact ⟨s.draws, by omega, e, (hu' _).2 rfl, hx⟩
      · rintro ⟨k, hk, x, hd, hx⟩
        by_cases hks : k < s.draws
        · exact .inl ⟨k, hks, x, hd, hx⟩
        · have : k = s.draws := by omega
          subst this
          rw [(hu' _).1 hd] at hx
          exact .inr hx
  · have hu' : ∀ e', ¬ Drawn rng vc s.draws e' := fun e' hd => hu e' ((hdr e').1 hd)
    unfold drawOne
    rw [he]
    refine ⟨⟨h.built, ?_, ?_⟩, by simp⟩
    · intro x
      dsimp only
      rw [h.edge]
      constructor
      · rintro ⟨k, hk, hd⟩
        exact ⟨k, by omega, hd⟩
      · rintro ⟨k, hk, hd⟩
        by_cases hks : k < s.draws
        · exact ⟨k, hks, hd⟩
        · have : k = s.draws := by omega
          subst this
          exact absurd hd (hu' _)
    · intro v
      dsimp only
      rw [h.vertex]
      constructor
      · rintro ⟨k, hk, x, hd⟩
        exact ⟨k, by omega, x, hd⟩
      · rintro ⟨k, hk, x, hd, hx⟩
        by_cases hks : k < s.draws
        · exact ⟨k, hks, x, hd, hx⟩
        · have : k = s.draws := by omega
          subst this
          exact absurd hd (hu' _)

theorem drawRound_inv {rng : Nat → UInt64} {vc : Nat} (hvc : vc < 2 ^ 64) {s : RandomState} (h : RandomInv rng vc s)
    (hd : s.draws % (vc - 1) = 0) :
    RandomInv rng vc (drawRound rng vc s) ∧ (drawRound rng vc s).draws = s.draws + (vc - 1) ∧
    (drawRound rng vc s).graph.edges.length ≤ s.graph.edges.length + (vc - 1) := by
  by_cases h1 : 1 < vc
  · have key : ∀ n i (t : RandomState), i + n = vc - 1 → RandomInv rng vc t → t.draws = s.draws + i →
        t.graph.edges.length ≤ s.graph.edges.length + i →
        RandomInv rng vc ((List.range' (1 + i) n).foldl (drawOne rng (UInt64.ofNat (vc / 10))) t) ∧
        ((List.range' (1 + i) n).foldl (drawOne rng (UInt64.ofNat (vc / 10))) t).draws = s.draws + (vc - 1) ∧
        ((List.range' (1 + i) n).foldl (drawOne rng (UInt64.ofNat (vc / 10))) t).graph.edges.length ≤
          s.graph.edges.length + (vc - 1) := by
      intro n
      induction n with
      | zero =>
        intro i t hi ht h2 h3
        simp only [List.range'_zero, List.foldl_nil]
        exact ⟨ht, by omega, by omega⟩
      | succ n ih =>
        intro i t hi ht h2 h3
        rw [List.range'_succ, List.foldl_cons]
        have hv : 1 + i = 1 + t.draws % (vc - 1) := by
          rw [h2, Nat.add_mod, hd, Nat.zero_add, Nat.mod_mod, Nat.mod_eq_of_lt (by omega)]
        obtain ⟨a, b⟩ := drawOne_inv hvc ht h1 hv
        exact ih (i + 1) _ (by omega) a (by simp only [drawOne]; omega) (by omega)
    exact key (vc - 1) 0 s (by omega) h (by omega) (by omega)
  · have : vc - 1 = 0 := by omega
    unfold drawRound
    rw [this]
    exact ⟨h, rfl, by simp⟩

/-- Loop invariant of the generation. -/
structure LoopInv (rng : Nat → UInt64) (vc ec : Nat) (s : RandomState) : Prop where
  inv : RandomInv rng vc s
  turn : s.draws % (vc - 1) = 0
  bound : s.draws = 0 ∨ s.graph.edges.length + 1 ≤ ec + (vc - 1)

theorem RandomInv.loopFree {rng : Nat → UInt64} {vc : Nat} {s : RandomState} (h : RandomInv rng vc s) : LoopFree s.graph := by
  intro v hv
  obtain ⟨k, _, hd⟩ := (h.edge _).1 hv
  have := hd.2.2
  simp only at this
  omega

theorem RandomInv.edgeCount {rng : Nat → UInt64} {vc : Nat} {s : RandomState} (h : RandomInv rng vc s) :
    s.graph.edgeCount = s.graph.edges.length := C04_edge_count_partial s.graph h.built h.loopFree

theorem inv_new (rng : Nat → UInt64) (vc : Nat) : RandomInv rng vc ⟨.new, 0⟩ := by
  refine ⟨Built.new, ?_, ?_⟩
  · intro e
    simp [containsEdge, containsVertex, HMap.containsKey, DirectedGraph.new]
  · intro v
    simp [containsVertex, HMap.containsKey, DirectedGraph.new]

theorem loopInv_new (rng : Nat → UInt64) (vc ec : Nat) : LoopInv rng vc ec ⟨.new, 0⟩ :=
  ⟨inv_new rng vc, Nat.zero_mod _, .inl rfl⟩

theorem LoopInv.next {rng : Nat → UInt64} {vc ec : Nat} (hvc : vc < 2 ^ 64) {s : RandomState} (h : LoopInv rng vc ec s)
    (hlt : s.graph.edgeCount < ec) :
    LoopInv rng vc ec (drawRound rng vc s) ∧ (drawRound rng vc s).draws = s.draws + (vc - 1) := by
  obtain ⟨a, b, c⟩ := drawRound_inv hvc h.inv h.turn
  refine ⟨⟨a, ?_, ?_⟩, b⟩
  · rw [b, Nat.add_mod_right, h.turn]
  · right
    rw [h.inv.edgeCount] at hlt
    omega

/-- What holds of the generated graph. -/
def RandomPost (rng : Nat → UInt64) (vc ec : Nat) (g : DirectedGraph) : Prop :=
  ∃ s : RandomState, s.graph = g ∧ LoopInv rng vc ec s ∧ ec ≤ s.graph.edges.length

theorem random_partial {rng : Nat → UInt64} {vc ec : Nat} (hvc : vc < 2 ^ 64) {r : Option DirectedGraph}
    (h : Returns (createsRandomDag rng vc ec) r) : ∃ g, r = some g ∧ RandomPost rng vc ec g := by
  obtain ⟨n, hn⟩ := h
  have := hn n (Nat.le_refl n)
  unfold createsRandomDag at this
  simp only [Prog.bind] at this
  rw [Run.bind_eq_done] at this
  obtain ⟨g, h1, h2⟩ := this
  simp only [Prog.ret, Run.done.injEq] at h2
  refine ⟨g, h2.symm, ?_⟩
  refine loop_partial (LoopInv rng vc ec) (RandomPost rng vc ec) (n := n) ?_ ?_ (loopInv_new rng vc ec) h1
  · intro s s' hs he
    unfold randomStep at he
    split at he
    · rename_i hlt
      simp only [Prog.ret, Run.done.injEq, Sum.inl.injEq] at he
      exact he ▸ (hs.next hvc hlt).1
    · simp [Prog.ret] at he
  · intro s b hs he
    unfold randomStep at he
    split at he
    · simp [Prog.ret] at he
    · rename_i hlt
      simp only [Prog.ret, Run.done.injEq, Sum.inr.injEq] at he
      refine ⟨s, he, hs, ?_⟩
      rw [← hs.inv.edgeCount]
      omega

/-- Loop invariant of the generation: the rounds so far were needed. -/
structure RoundInv (rng : Nat → UInt64) (vc ec : Nat) (s : RandomState) : Prop where
  inv : RandomInv rng vc s
  turns : ∃ i, s.draws = i * (vc - 1) ∧ ∀ j < i, ¬ GivesIn rng vc (j * (vc - 1)) ec

theorem RandomInv.givesIn {rng : Nat → UInt64} {vc : Nat} {s : RandomState} (h : RandomInv rng vc s) (m : Nat) :
    GivesIn rng vc s.draws m ↔ m ≤ s.graph.edges.length := by
  constructor
  · rintro ⟨l, h1, h2, h3⟩
    rw [← h2]
    refine (List.subperm_of_subset h1 fun e he => ?_).length_le
    exact h.built.wf.mem_edges.2 ((h.edge e).2 (h3 e he))
  · intro hm
    refine ⟨s.graph.edges.take m, h.built.wf.nodup_edges.sublist (List.take_sublist _ _), by simp [hm], ?_⟩
    intro e he
    exact (h.edge e).1 (h.built.wf.mem_edges.1 (List.mem_of_mem_take he))

theorem random_exact {rng : Nat → UInt64} {vc ec : Nat} (hvc : vc < 2 ^ 64) {r : Option DirectedGraph}
    (h : Returns (createsRandomDag rng vc ec) r) :
    ∃ g i, r = some g ∧ Built g ∧ GraphOfDraws rng vc (i * (vc - 1)) g ∧ GivesIn rng vc (i * (vc - 1)) ec ∧
      ∀ j < i, ¬ GivesIn rng vc (j * (vc - 1)) ec := by
  obtain ⟨n, hn⟩ := h
  have := hn n (Nat.le_refl n)
  unfold createsRandomDag at this
  simp only [Prog.bind] at this
  rw [Run.bind_eq_done] at this
  obtain ⟨g, h1, h2⟩ := this
  simp only [Prog.ret, Run.done.injEq] at h2
  have key : ∃ s : RandomState, s.graph = g ∧ RoundInv rng vc ec s ∧ ec ≤ s.graph.edges.length := by
    refine loop_partial (RoundInv rng vc ec) (fun g => ∃ s : RandomState, s.graph = g ∧ RoundInv rng vc ec s ∧ ec ≤ s.graph.edges.length)
      (n := n) ?_ ?_ ⟨inv_new rng vc, 0, by simp, by simp⟩ h1
    · intro s s' hs he
      unfold randomStep at he
      split at he
      · rename_i hlt
        simp only [Prog.ret, Run.done.injEq, Sum.inl.injEq] at he
        subst he
        obtain ⟨i, hi, hj⟩ := hs.turns
        obtain ⟨a, b, _⟩ := drawRound_inv hvc hs.inv (by rw [hi]; exact Nat.mul_mod_left _ _)
        refine ⟨a, i + 1, by rw [b, hi, Nat.succ_mul], ?_⟩
        intro j hji
        by_cases hlt' : j < i
        · exact hj j hlt'
        · have : j = i := by omega
          subst this
          rw [← hi, hs.inv.givesIn]
          rw [hs.inv.edgeCount] at hlt
          omega
      · simp [Prog.ret] at he
    · intro s b hs he
      unfold randomStep at he
      split at he
      · simp [Prog.ret] at he
      · rename_i hlt
        simp only [Prog.ret, Run.done.injEq, Sum.inr.injEq] at he
        refine ⟨s, he, hs, ?_⟩
        rw [← hs.inv.edgeCount]
        omega
  obtain ⟨s, rfl, hs, hle⟩ := key
  obtain ⟨i, hi, hj⟩ := hs.turns
  refine ⟨s.graph, i, h2.symm, hs.inv.built, ?_, ?_, hj⟩
  · rw [← hi]
    exact ⟨hs.inv.edge, hs.inv.vertex⟩
  · rw [← hi, hs.inv.givesIn]
    exact hle

theorem exists_bound {P : Nat → Edge → Prop} (l : List Edge) (h : ∀ e ∈ l, ∃ k, P k e) : ∃ N, ∀ e ∈ l, ∃ k < N, P k e := by
  induction l with
  | nil => exact ⟨0, by simp⟩
  | cons a l ih =>
    obtain ⟨N, hN⟩ := ih fun e he => h e (List.mem_cons_of_mem a he)
    obtain ⟨k, hk⟩ := h a (by simp)
    refine ⟨max N (k + 1), ?_⟩
    intro e he
    rcases List.mem_cons.1 he with rfl | he
    · exact ⟨k, by omega, hk⟩
    · obtain ⟨j, hj, hp⟩ := hN e he
      exact ⟨j, by omega, hp⟩

theorem random_total {rng : Nat → UInt64} {vc ec : Nat} (hvc : vc < 2 ^ 64) (h : Gives rng vc ec) :
    ∃ g, Returns (createsRandomDag rng vc ec) (some g) ∧ RandomPost rng vc ec g := by
  obtain ⟨l, h1, h2, h3⟩ := h
  obtain ⟨N, hN⟩ := exists_bound l h3
  obtain ⟨g, hg, hp⟩ := returns_loop_of_measure (step := randomStep rng vc ec) (LoopInv rng vc ec) (RandomPost rng vc ec)
    (fun s => N - s.draws) (fun s hs => by
      by_cases hlt : s.graph.edgeCount < ec
      · left
        obtain ⟨a, b⟩ := hs.next hvc hlt
        refine ⟨_, by unfold randomStep; rw [if_pos hlt]; exact Returns.ret _, a, ?_⟩
        have hne : ∃ e, e ∈ l := by
          cases l with
          | nil => simp at h2; omega
          | cons a _ => exact ⟨a, by simp⟩
        obtain ⟨e, he⟩ := hne
        obtain ⟨k, hk⟩ := h3 e he
        have hvc1 := hk.1
        have hd : s.draws < N := by
          by_contra hge
          have hsub : l ⊆ s.graph.edges := by
            intro x hx
            obtain ⟨j, hj, hd⟩ := hN x hx
            exact hs.inv.built.wf.mem_edges.2 ((hs.inv.edge x).2 ⟨j, by omega, hd⟩)
          have := (List.subperm_of_subset h1 hsub).length_le
          rw [hs.inv.edgeCount] at hlt
          omega
        rw [b]
        omega
      · right
        refine ⟨s.graph, by unfold randomStep; rw [if_neg hlt]; exact Returns.ret _, s, rfl, hs, ?_⟩
        rw [← hs.inv.edgeCount]
        omega) ⟨.new, 0⟩ (loopInv_new rng vc ec)
  exact ⟨g, Returns.bind hg (Returns.ret _), hp⟩

theorem random_diverges {rng : Nat → UInt64} {vc ec : Nat} (hvc : vc < 2 ^ 64) (h : ¬ Gives rng vc ec) :
    Diverges (createsRandomDag rng vc ec) := by
  have hd : Diverges (Prog.loop (randomStep rng vc ec) ⟨.new, 0⟩) := by
    refine loop_diverges (LoopInv rng vc ec) ?_ (loopInv_new rng vc ec)
    intro s n hs
    by_cases hlt : s.graph.edgeCount < ec
    · right
      exact ⟨drawRound rng vc s, by unfold randomStep; rw [if_pos hlt]; rfl, (hs.next hvc hlt).1⟩
    · exfalso
      rw [hs.inv.edgeCount] at hlt
      apply h
      refine ⟨s.graph.edges.take ec, hs.inv.built.wf.nodup_edges.sublist (List.take_sublist _ _), by rw [List.length_take]; omega, ?_⟩
      intro e he
      obtain ⟨k, _, hk⟩ := (hs.inv.edge e).1 (hs.inv.built.wf.mem_edges.1 (List.mem_of_mem_take he))
      exact ⟨k, hk⟩
  intro n
  unfold createsRandomDag Prog.bind
  rw [hd n]
  rfl

end Random
end GC
