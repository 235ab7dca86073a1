/-
Property C60: gc-random.
-/
import Verif.Proofs.Random
import Verif.Props.Store
import Verif.Props.Format
namespace GC
namespace Random
open DirectedGraph Store Text

/-- C60: whatever the random numbers are, a generated graph is a graph of the API without directed cycle. Its edges are exactly edges
given by draws, they go from smaller to larger ids, and the vertices are the endpoints of the edges. -/
theorem C60_dag (rng : Nat → UInt64) (vc ec : Nat) (hvc : vc < 2 ^ 64) (r : Option DirectedGraph)
    (h : Returns (createsRandomDag rng vc ec) r) :
    ∃ g, r = some g ∧ Built g ∧ Acyclic g ∧
      (∀ e, g.containsEdge e = true → e.src < e.dst ∧ ∃ k, Drawn rng vc k e) ∧
      (∀ v, g.containsVertex v = true ↔ ∃ e, g.containsEdge e = true ∧ (v = e.src ∨ v = e.dst)) := by
  obtain ⟨g, rfl, s, rfl, hl, hec⟩ := random_partial hvc h
  have hlt : ∀ e, s.graph.containsEdge e = true → e.src < e.dst := by
    intro e he
    obtain ⟨k, _, hk⟩ := (hl.inv.edge e).1 he
    show e.src.id < e.dst.id
    rw [UInt64.lt_iff_toNat_lt]
    have := hk.2.2
    omega
  refine ⟨_, rfl, hl.inv.built, ?_, ?_, ?_⟩
  · have key : ∀ u v, Relation.TransGen (Adj s.graph) u v → u.id.toNat < v.id.toNat := by
      intro u v huv
      induction huv with
      | single h1 =>
        have : u.id < _ := hlt _ h1
        rwa [UInt64.lt_iff_toNat_lt] at this
      | @tail b c _ hc ih =>
        have : b.id < c.id := hlt _ hc
        rw [UInt64.lt_iff_toNat_lt] at this
        omega
    intro v hv
    have := key v v hv
    omega
  · intro e he
    obtain ⟨k, _, hk⟩ := (hl.inv.edge e).1 he
    exact ⟨hlt e he, k, hk⟩
  · intro v
    rw [hl.inv.vertex]
    constructor
    · rintro ⟨k, hk, e, hd, hv⟩
      exact ⟨e, (hl.inv.edge e).2 ⟨k, hk, hd⟩, hv⟩
    · rintro ⟨e, he, hv⟩
      obtain ⟨k, hk, hd⟩ := (hl.inv.edge e).1 he
      exact ⟨k, hk, e, hd, hv⟩

/-- C60: a generated graph has at least the requested number of edges, and fewer than `vertex count - 1` edges more. If no edge is
requested, it is empty. -/
theorem C60_edge_count (rng : Nat → UInt64) (vc ec : Nat) (hvc : vc < 2 ^ 64) (g : DirectedGraph)
    (h : Returns (createsRandomDag rng vc ec) (some g)) :
    ec ≤ g.edges.length ∧ (0 < ec → g.edges.length < ec + (vc - 1)) ∧ (ec = 0 → g = .new) := by
  refine ⟨?_, ?_, ?_⟩
  · obtain ⟨_, e, s, rfl, hl, hec⟩ := random_partial hvc h
    cases e
    exact hec
  · intro hpos
    obtain ⟨_, e, s, rfl, hl, hec⟩ := random_partial hvc h
    simp only [Option.some.injEq] at e
    subst e
    rcases hl.bound with hb | hb
    · exfalso
      have hne : ∃ e, e ∈ s.graph.edges := by
        cases he : s.graph.edges with
        | nil => rw [he] at hec; simp at hec; omega
        | cons a _ => exact ⟨a, by simp⟩
      obtain ⟨e, he⟩ := hne
      obtain ⟨k, hk, _⟩ := (hl.inv.edge e).1 (hl.inv.built.wf.mem_edges.1 he)
      omega
    · omega
  · rintro rfl
    have h2 : Returns (createsRandomDag rng vc 0) (some .new) := ⟨1, fun m hm => by
      obtain ⟨m, rfl⟩ : ∃ j, m = j + 1 := ⟨m - 1, by omega⟩
      rfl⟩
    exact Option.some.inj (h.unique h2)

/-- C60: exactly which graph is generated. Numbers are drawn in rounds of one number for each vertex id below the requested number; the
result is the graph of the draws of the first rounds that give as many different edges as requested. -/
theorem C60_exact (rng : Nat → UInt64) (vc ec : Nat) (hvc : vc < 2 ^ 64) (r : Option DirectedGraph)
    (h : Returns (createsRandomDag rng vc ec) r) :
    ∃ g rounds, r = some g ∧ Built g ∧ GraphOfDraws rng vc (rounds * (vc - 1)) g ∧ GivesIn rng vc (rounds * (vc - 1)) ec ∧
      ∀ fewer < rounds, ¬ GivesIn rng vc (fewer * (vc - 1)) ec :=
  random_exact hvc h

/-- C60 (partial): a generated graph has at most `vertex count - 1 + number of edges` vertices. Missing: it does not have the requested
number of vertices, see `C60_counterexample_vertices`. -/
theorem C60_vertex_count_partial (rng : Nat → UInt64) (vc ec : Nat) (hvc : vc < 2 ^ 64) (g : DirectedGraph)
    (h : Returns (createsRandomDag rng vc ec) (some g)) : g.vertices.length ≤ (vc - 1) + g.edges.length := by
  obtain ⟨g', e', hb, _, hE, hV⟩ := C60_dag rng vc ec hvc _ h
  cases e'
  have hsub : g.vertices ⊆ (List.range' 1 (vc - 1)).map (fun n => (⟨UInt64.ofNat n⟩ : VertexId)) ++
      g.edges.map (fun e => if 1 ≤ e.src.id.toNat ∧ e.src.id.toNat < vc then e.dst else e.src) := by
    intro v hv
    obtain ⟨e, he, hve⟩ := (hV v).1 (mem_vertices.1 hv)
    obtain ⟨_, k, hk⟩ := hE e he
    have hmod := Nat.mod_lt k (show 0 < vc - 1 by have := hk.1; omega)
    have in_range : 1 ≤ v.id.toNat → v.id.toNat < vc → v ∈ (List.range' 1 (vc - 1)).map (fun n => (⟨UInt64.ofNat n⟩ : VertexId)) := by
      intro h1 h2
      rw [List.mem_map]
      refine ⟨v.id.toNat, by rw [List.mem_range'_1]; omega, ?_⟩
      simp
    rw [List.mem_append]
    by_cases hr : 1 ≤ v.id.toNat ∧ v.id.toNat < vc
    · exact .inl (in_range hr.1 hr.2)
    · right
      rw [List.mem_map]
      refine ⟨e, hb.wf.mem_edges.2 he, ?_⟩
      rcases hve with rfl | rfl
      · rw [if_neg hr]
      · rw [if_pos]
        rcases hk.2.1 with ⟨h1, _⟩ | ⟨_, h1⟩
        · omega
        · omega
  have := (List.subperm_of_subset hb.wf.nodup_vertices hsub).length_le
  simpa using this

/-- C60 (partial): generation never panics; it terminates exactly if the random numbers give as many different edges as requested.
Missing: it does not terminate for all random numbers, see `C60_counterexample_termination`. -/
theorem C60_terminates_partial (rng : Nat → UInt64) (vc ec : Nat) (hvc : vc < 2 ^ 64) :
    (Gives rng vc ec → ∃ g, Returns (createsRandomDag rng vc ec) (some g)) ∧
    (¬ Gives rng vc ec → Diverges (createsRandomDag rng vc ec)) :=
  ⟨fun h => let ⟨g, hg, _⟩ := random_total hvc h; ⟨g, hg⟩, random_diverges hvc⟩

/-- C60 (partial): with at least two vertices requested, generation can always still succeed: whatever numbers were drawn first, there
are numbers that may follow with which it terminates. (Requested edge counts near 2^64 excepted.) -/
theorem C60_never_stuck_partial (rng : Nat → UInt64) (vc ec n : Nat) (hvc : vc < 2 ^ 64) (h2 : 2 ≤ vc) (hec : ec + vc / 10 + 2 ≤ 2 ^ 64) :
    ∃ rng' : Nat → UInt64, (∀ k < n, rng' k = rng k) ∧ ∃ g, Returns (createsRandomDag rng' vc ec) (some g) := by
  refine ⟨fun k => if k < n then rng k else UInt64.ofNat (vc / 10 + 2 + (k / (vc - 1) - n)), fun k hk => by simp [hk], ?_⟩
  apply (C60_terminates_partial _ vc ec hvc).1
  refine ⟨(List.range ec).map fun i => ⟨⟨1⟩, ⟨UInt64.ofNat (vc / 10 + 2 + i)⟩⟩, ?_, by simp, ?_⟩
  · refine List.Nodup.map_on ?_ List.nodup_range
    intro i hi j hj hij
    simp only [List.mem_range] at hi hj
    simp only [Edge.mk.injEq, VertexId.mk.injEq, true_and] at hij
    have := congrArg UInt64.toNat hij
    rw [UInt64.toNat_ofNat', UInt64.toNat_ofNat'] at this
    omega
  · intro e he
    rw [List.mem_map] at he
    obtain ⟨i, hi, rfl⟩ := he
    rw [List.mem_range] at hi
    refine ⟨(vc - 1) * (n + i), by omega, .inl ⟨?_, ?_⟩, ?_⟩
    · simp
    · have hn : ¬ (vc - 1) * (n + i) < n := by
        have : 1 * (n + i) ≤ (vc - 1) * (n + i) := Nat.mul_le_mul_right _ (by omega)
        omega
      simp only [hn, if_false]
      rw [Nat.mul_div_cancel_left _ (by omega)]
      congr 2
      omega
    · simp only [UInt64.toNat_ofNat']
      have : (1 : UInt64).toNat = 1 := rfl
      rw [this]
      omega

/-- C60, the requested number of vertices is not kept: three vertices and one edge requested, the graph has four vertices and two
edges. -/
theorem C60_counterexample_vertices :
    ∃ (rng : Nat → UInt64) (g : DirectedGraph), Returns (createsRandomDag rng 3 1) (some g) ∧ g.vertices.length = 4 ∧ g.edges.length = 2 := by
  refine ⟨fun k => if k = 0 then 7 else 8, (drawRound (fun k => if k = 0 then 7 else 8) 3 ⟨.new, 0⟩).graph, ⟨2, ?_⟩, by decide, by decide⟩
  intro m hm
  obtain ⟨m, rfl⟩ : ∃ j, m = j + 2 := ⟨m - 2, by omega⟩
  rfl

/-- C60, termination fails: with one vertex (or none) requested and some edge, generation runs for ever, whatever the random numbers. -/
theorem C60_counterexample_termination (rng : Nat → UInt64) (vc ec : Nat) (hvc : vc ≤ 1) (hec : 0 < ec) :
    Diverges (createsRandomDag rng vc ec) := by
  apply (C60_terminates_partial rng vc ec (by omega)).2
  rintro ⟨l, _, h2, h3⟩
  cases l with
  | nil => simp at h2; omega
  | cons e l =>
    obtain ⟨k, hk⟩ := h3 e (by simp)
    have := hk.1
    omega

/-- C60, the command: on an initialised graph, once the generation succeeded and the user agreed, the stored graph is the generated one,
and nothing else changed in the directory except that a file `lock` is gone. -/
theorem C60_command (nd : Char → Bool) (rng : Nat → UInt64) (order : DirectedGraph → DirectedGraph) (ho : IsOrder order) (root : FPath)
    (force : Bool) (answer vertexCount : Text) (edgeCount : Option Text) (fs : FS) (vc ec : Nat) (g : DirectedGraph) (hw : fs.WF)
    (hg : fs (rootPath root) = some .dir) (hl : fs (lockPath root) ≠ some .dir)
    (ha : force = true ∨ Args.confirmationYesNo answer = true)
    (hv : parseUsize vertexCount = some vc) (h3 : vc * 3 < 2 ^ 64)
    (he : (∃ t, edgeCount = some t ∧ parseUsize t = some ec) ∨ ((∀ t, edgeCount = some t → parseUsize t = none) ∧ ec = vc * 3))
    (hr : Returns (createsRandomDag rng vc ec) (some g)) :
    ∃ fs' g', Returns (gcRandom rng order root force answer vertexCount edgeCount fs) (fs', .success) ∧
      loadGraph nd root fs' = .done (.ok g') ∧ SameGraph g' g ∧
      ∀ q, q ≠ lockPath root → ¬ rootPath root <+: q → fs' q = fs q := by
  have hsz : sizes vertexCount edgeCount = .done (vc, ec) := by
    unfold sizes
    rw [hv]
    simp only [Run.unwrap, Run.bind_done, h3, if_true, Run.done.injEq, Prod.mk.injEq, true_and]
    rcases he with ⟨t, rfl, ht⟩ | ⟨ht, rfl⟩
    · simp [ht]
    · cases edgeCount with
      | none => rfl
      | some t => simp [ht t rfl]
  obtain ⟨g2, e2, hb, _⟩ := C60_dag rng vc ec (by omega) _ hr
  cases e2
  have hb' : Built (order g) := hb.reorder (ho g)
  obtain ⟨g', hread, _, hsame⟩ := C09_gcmd_round_trip nd (order g) hb'
  obtain ⟨fs1, hc1, hc2, hc3, hc4⟩ := C64_clean root true [] fs hw hg hl (.inl rfl)
  have hclean : expectOk (clean root fs) = (fs1, .success) := hc1
  have hdir : DirPossible fs1 (rootPath root) := by
    rintro q hq ⟨c, hc⟩
    by_cases hqe : q = rootPath root
    · subst hqe
      rw [hc2 _ (List.prefix_refl _)] at hc
      cases hc
    · by_cases hql : q = lockPath root
      · subst hql; rw [hc3] at hc; cases hc
      · have hnp : ¬ rootPath root <+: q := fun h => hqe (hq.eq_of_length_le h.length_le)
        rw [hc4 q hql hnp, hw.dir_of_prefix hq hqe (by rw [hg]; simp)] at hc
        cases hc
  have hcmd1 : fs1 (commandPath root) = none := hc2 _ (root_prefix_command root)
  obtain ⟨fs2, hi1, _, hi3, hi4, hi5⟩ := C64_init root fs1 hdir (by rw [hcmd1]; simp)
  have hinit : expectOk (init root fs1) = (fs2, .success) := hi1
  have hcont : Content root fs2 [] := hi3 hcmd1
  have hsave : expectOk (saveGraphAsCommands root (order g) fs2) =
      ((fs2.set (commandPath root) (some (.file []))).set (commandPath root) (some (.file (Format.Gcmd.save (order g)))), .success) := by
    unfold saveGraphAsCommands createTruncate
    unfold Content at hcont
    rw [hcont]
    simp [appendText, FS.set_self, expectOk]
  refine ⟨(fs2.set (commandPath root) (some (.file []))).set (commandPath root) (some (.file (Format.Gcmd.save (order g)))), g', ?_, ?_,
    ?_, ?_⟩
  · unfold gcRandom
    rw [hsz]
    refine Returns.bind hr ?_
    have : finish order root force answer fs (some g) =
        ((fs2.set (commandPath root) (some (.file []))).set (commandPath root) (some (.file (Format.Gcmd.save (order g)))), .success) := by
      unfold finish
      dsimp only
      rw [if_neg (by rcases ha with h | h <;> simp [h])]
      unfold replaceGraph
      rw [hclean]
      simp only [andThen]
      rw [hinit]
      exact hsave
    rw [this]
    exact Returns.ret _
  · exact (loadGraph_content (FS.set_self _ _ _)).2 hread
  · rw [sameGraph_iff] at hsame ⊢
    rw [hsame]
    exact toSet_perm hb.wf (ho g)
  · intro q hq1 hq2
    have hqc : q ≠ commandPath root := by rintro rfl; exact hq2 (root_prefix_command root)
    rw [FS.set_other _ _ hqc, FS.set_other _ _ hqc, ← hc4 q hq1 hq2]
    by_cases hn : fs1 q = none
    · by_contra hne
      rcases hi5 q (fun h => hne (h.trans hn.symm)) with h | h
      · exact h hn
      · have hpre : q <+: rootPath root := by
          rcases List.prefix_concat_iff.1 h with h | h
          · exact absurd h hqc
          · exact h
        have hqe : q ≠ rootPath root := fun h => hq2 (h ▸ List.prefix_refl _)
        have := hw.dir_of_prefix hpre hqe (by rw [hg]; simp)
        rw [← hc4 q hq1 hq2, hn] at this
        cases this
    · exact hi4 q hn

/-- C60, the command: without the user's agreement nothing changes (also if generation runs for ever). -/
theorem C60_command_refused (rng : Nat → UInt64) (order : DirectedGraph → DirectedGraph) (root : FPath) (answer vertexCount : Text)
    (edgeCount : Option Text) (fs : FS) (ha : Args.confirmationYesNo answer = false) (r : FS × Exit)
    (h : Returns (gcRandom rng order root false answer vertexCount edgeCount fs) r) : r.1 = fs := by
  unfold gcRandom at h
  split at h
  · rename_i vc ec hs
    obtain ⟨n, hn⟩ := h
    have := hn n (Nat.le_refl n)
    simp only [Prog.bind, Run.bind_eq_done] at this
    obtain ⟨g, _, h2⟩ := this
    simp only [Prog.ret, Run.done.injEq] at h2
    subst h2
    cases g <;> simp [finish, ha]
  · have := h.unique (Returns.ret _)
    rw [this]

/-- Example random numbers: 100, 101, 102, ... -/
def exRng : Nat → UInt64 := fun k => UInt64.ofNat (100 + k)

example : Gives exRng 4 2 := by
  refine ⟨[⟨1, 100⟩, ⟨2, 101⟩], by decide, rfl, ?_⟩
  intro e he
  simp only [List.mem_cons, List.not_mem_nil, or_false] at he
  rcases he with rfl | rfl
  · exact ⟨0, by decide, .inl ⟨by decide, by decide⟩, by decide⟩
  · exact ⟨1, by decide, .inl ⟨by decide, by decide⟩, by decide⟩

theorem exRng_returns : Returns (createsRandomDag exRng 4 2) (some (drawRound exRng 4 ⟨.new, 0⟩).graph) := by
  refine ⟨2, ?_⟩
  intro m hm
  obtain ⟨m, rfl⟩ : ∃ j, m = j + 2 := ⟨m - 2, by omega⟩
  rfl

/-- `C60_dag`, `C60_edge_count`, `C60_exact`, `C60_vertex_count_partial`, `C60_terminates_partial` and `C60_never_stuck_partial` for these draws. -/
example : ∃ g, Returns (createsRandomDag exRng 4 2) (some g) ∧ Acyclic g ∧ 2 ≤ g.edges.length ∧ g.edges.length < 2 + (4 - 1) ∧
    g.vertices.length ≤ (4 - 1) + g.edges.length ∧ (∃ rounds, GraphOfDraws exRng 4 (rounds * (4 - 1)) g) ∧
    ∃ rng' : Nat → UInt64, (∀ k < 7, rng' k = exRng k) ∧ ∃ g', Returns (createsRandomDag rng' 4 20) (some g') := by
  obtain ⟨g, hg, _, h1, _⟩ := C60_dag exRng 4 2 (by decide) _ exRng_returns
  cases hg
  have h2 := C60_edge_count exRng 4 2 (by decide) _ exRng_returns
  obtain ⟨g, rounds, hg, _, h3, _⟩ := C60_exact exRng 4 2 (by decide) _ exRng_returns
  cases hg
  exact ⟨_, exRng_returns, h1, h2.1, h2.2.1 (by decide), C60_vertex_count_partial exRng 4 2 (by decide) _ exRng_returns, ⟨rounds, h3⟩,
    C60_never_stuck_partial exRng 4 20 7 (by decide) (by decide) (by decide)⟩

/-- `C60_command`: `gc-random 4 -e 2`, confirmed with `y`, replaces the stored graph; `C60_command_refused`: answered with `no` it changes
nothing. -/
example (nd : Char → Bool) :
    (∃ fs' g', Returns (gcRandom exRng id [['d']] false ['y', '\n'] ['4'] (some ['2']) (sampleFS ['x'])) (fs', .success) ∧
      loadGraph nd [['d']] fs' = .done (.ok g') ∧ SameGraph g' (drawRound exRng 4 ⟨.new, 0⟩).graph) ∧
    ∀ r, Returns (gcRandom exRng id [['d']] false ['n', 'o'] ['4'] (some ['2']) (sampleFS ['x'])) r → r.1 = sampleFS ['x'] := by
  obtain ⟨fs', g', h1, h2, h3, _⟩ := C60_command nd exRng id (fun _ => .refl _) [['d']] false ['y', '\n'] ['4'] (some ['2']) (sampleFS ['x'])
    4 2 _ (sampleFS_wf _) rfl (by decide) (.inr (by decide)) (by decide) (by decide) (.inl ⟨_, rfl, by decide⟩) exRng_returns
  exact ⟨⟨fs', g', h1, h2, h3⟩, C60_command_refused exRng id [['d']] ['n', 'o'] ['4'] (some ['2']) _ (by decide)⟩

example : (drawRound exRng 4 ⟨.new, 0⟩).graph.edges = [⟨1, 100⟩, ⟨2, 101⟩, ⟨3, 102⟩] := by decide

example : parseUsize ['4'] = some 4 ∧ (sampleFS []) (rootPath [['d']]) = some .dir ∧ (sampleFS []) (lockPath [['d']]) ≠ some .dir ∧
    Args.confirmationYesNo ['y', '\n'] = true ∧ Args.confirmationYesNo ['n', 'o'] = false ∧
    2 + 4 / 10 + 2 ≤ 2 ^ 64 := by
  refine ⟨by decide, rfl, by decide, by decide, by decide, by decide⟩

end Random
end GC
