/-
Lemmas about iterator adaptors and Hamiltonian paths.
-/
import Verif.Proofs.Cycle
namespace GC
open Prog
variable {σ α β ι : Type}

theorem Drains.filter {next : σ → Prog (Option (α × σ))} {s : σ} {xs : List α} (p : α → Bool) (h : Drains next s xs) :
    Drains (filterNext p next) s (xs.filter p) := by
  suffices key : ((xs.filter p = [] ∧ LoopTo (filterStep p next) s none) ∨
      ∃ x s' ys, xs.filter p = x :: ys ∧ LoopTo (filterStep p next) s (some (x, s')) ∧ Drains (filterNext p next) s' ys) by
    rcases key with ⟨h1, h2⟩ | ⟨x, s', ys, h1, h2, h3⟩
    · rw [h1]; exact .nil h2.returns
    · rw [h1]; exact .cons h2.returns h3
  induction h with
  | nil h => exact .inl ⟨rfl, .stop (Returns.bind h (Returns.ret _))⟩
  | @cons s x s' xs h _ ih =>
    by_cases hp : p x = true
    · right
      refine ⟨x, s', xs.filter p, by rw [List.filter_cons_of_pos hp], .stop (Returns.bind h ?_), ?_⟩
      · simp only [hp, if_true]
        exact Returns.ret _
      · rcases ih with ⟨h1, h2⟩ | ⟨x, s', ys, h1, h2, h3⟩
        · rw [h1]; exact .nil h2.returns
        · rw [h1]; exact .cons h2.returns h3
    · have hstep : Returns (filterStep p next s) (.inl s') := Returns.bind h (by
        simp only [hp]
        exact Returns.ret _)
      rw [List.filter_cons_of_neg hp]
      rcases ih with ⟨h1, h2⟩ | ⟨x, s', ys, h1, h2, h3⟩
      · exact .inl ⟨h1, .next hstep h2⟩
      · exact .inr ⟨x, s', ys, h1, .next hstep h2, h3⟩

/-- How a `flat_map` iterator continues. -/
def FlatDrains (f : ι → σ) (next : σ → Prog (Option (α × σ))) (s : List ι × Option σ) (xs : List α) : Prop :=
  (xs = [] ∧ LoopTo (flatMapStep f next) s none) ∨
    ∃ x s' ys, xs = x :: ys ∧ LoopTo (flatMapStep f next) s (some (x, s')) ∧ Drains (flatMapNext f next) s' ys

theorem FlatDrains.drains {f : ι → σ} {next : σ → Prog (Option (α × σ))} {s : List ι × Option σ} {xs : List α}
    (h : FlatDrains f next s xs) : Drains (flatMapNext f next) s xs := by
  rcases h with ⟨h1, h2⟩ | ⟨x, s', ys, h1, h2, h3⟩
  · rw [h1]; exact .nil h2.returns
  · rw [h1]; exact .cons h2.returns h3

theorem FlatDrains.next {f : ι → σ} {next : σ → Prog (Option (α × σ))} {s t : List ι × Option σ} {xs : List α}
    (h : Returns (flatMapStep f next s) (.inl t)) (h' : FlatDrains f next t xs) : FlatDrains f next s xs := by
  rcases h' with ⟨h1, h2⟩ | ⟨x, s', ys, h1, h2, h3⟩
  · exact .inl ⟨h1, .next h h2⟩
  · exact .inr ⟨x, s', ys, h1, .next h h2, h3⟩

theorem flatDrains_inner {f : ι → σ} {next : σ → Prog (Option (α × σ))} {is : List ι} {t : σ} {xs ys : List α}
    (h : Drains next t xs) (h' : FlatDrains f next (is, none) ys) : FlatDrains f next (is, some t) (xs ++ ys) := by
  induction h with
  | nil h => exact .next (Returns.bind h (Returns.ret _)) h'
  | cons h _ ih =>
    exact .inr ⟨_, _, _, rfl, .stop (Returns.bind h (Returns.ret _)), ih.drains⟩

theorem flatDrains_list {f : ι → σ} {next : σ → Prog (Option (α × σ))} (is : List ι) (xs : ι → List α)
    (h : ∀ i ∈ is, Drains next (f i) (xs i)) : FlatDrains f next (is, none) (is.flatMap xs) := by
  induction is with
  | nil => exact .inl ⟨rfl, .stop (Returns.ret _)⟩
  | cons i is ih =>
    rw [List.flatMap_cons]
    exact .next (Returns.ret _) (flatDrains_inner (h i (by simp)) (ih fun j hj => h j (by simp [hj])))

theorem Drains.nextOnly {next : σ → Prog (Option (α × σ))} {s : σ} {xs : List α} (h : Drains next s xs) :
    Returns (Prog.nextOnly next s) xs.head? := by
  cases h with
  | nil h => exact Returns.bind h (Returns.ret _)
  | cons h _ => exact Returns.bind h (Returns.ret _)

theorem Drains.consume {next : σ → Prog (Option (α × σ))} {s : σ} {xs : List α} (f : List α → β) (h : Drains next s xs) :
    Returns (Prog.consume f next s) (f xs) := Returns.bind h.collect (Returns.ret _)

/-- Vertex lists covering all vertices without repetition. -/
theorem covers_iff {g : DirectedGraph} (hw : WF g) {l : List VertexId} (hn : l.Nodup) (hv : ∀ v ∈ l, v ∈ g.vertices) :
    l.length = g.vertexCount ↔ ∀ v, g.containsVertex v = true → v ∈ l := by
  have hlen : g.vertexCount = g.vertices.length := by simp [DirectedGraph.vertexCount, DirectedGraph.vertices, HMap.keys]
  rw [hlen]
  constructor
  · intro h v hc
    have hp : l.Perm g.vertices := (List.subperm_of_subset hn hv).perm_of_length_le (by omega)
    exact hp.mem_iff.2 (mem_vertices.2 hc)
  · intro h
    have h1 := (List.subperm_of_subset hn hv).length_le
    have h2 := (List.subperm_of_subset hw.nodup_vertices fun v hv => h v (mem_vertices.1 hv)).length_le
    omega

/-- All vertices of a walk from a vertex of the graph are vertices of the graph. -/
theorem chain_vertices {g : DirectedGraph} (hw : WF g) {s : VertexId} {l : List VertexId} (hc : l.IsChain (Adj g)) (hh : l.head? = some s)
    (hs : s ∈ g.vertices) : ∀ v ∈ l, v ∈ g.vertices := by
  intro v hv
  have hr := WalkFrom.reach ⟨hc, hh⟩ hv
  rcases Relation.ReflTransGen.cases_tail hr with h | ⟨u, _, ha⟩
  · rw [h]; exact hs
  · exact (hw.adj_vertex ha).2

theorem hamiltonian_drains {g : DirectedGraph} (hw : WF g) :
    ∃ ps, Drains (Hamiltonian.next g) (Hamiltonian.iter g) ps ∧ ps.Nodup ∧
      ∀ p : Path, p ∈ ps ↔ p.vertices ≠ [] ∧ HamiltonianPath g p.vertices := by
  choose xs h1 h2 h3 using fun s => dfs_path_drains hw s
  refine ⟨_, (flatDrains_list (f := DepthFirstPathIter.from_) g.vertices xs fun i _ => h1 i).drains.filter _, ?_, ?_⟩
  · refine List.Nodup.filter _ ?_
    rw [List.nodup_flatMap]
    refine ⟨fun s _ => h2 s, ?_⟩
    refine hw.nodup_vertices.imp fun {a b} hab => ?_
    intro p hpa hpb
    have ha := ((h3 a p).1 hpa).2.1
    have hb := ((h3 b p).1 hpb).2.1
    rw [ha] at hb
    exact hab (Option.some.inj hb)
  · intro p
    simp only [List.mem_filter, List.mem_flatMap, h3, beq_iff_eq]
    constructor
    · rintro ⟨⟨s, hs, k1, k2, k3⟩, hl⟩
      have hv := chain_vertices hw k1 k2 hs
      refine ⟨(by rintro h; rw [h] at k2; cases k2), k1, k3, fun v => ⟨fun h => mem_vertices.1 (hv v h), ?_⟩⟩
      exact (covers_iff hw k3 hv).1 hl v
    · rintro ⟨hne, k1, k3, k4⟩
      obtain ⟨s, t, hst⟩ := List.exists_cons_of_ne_nil hne
      have hv : ∀ v ∈ p.vertices, v ∈ g.vertices := fun v h => mem_vertices.2 ((k4 v).1 h)
      refine ⟨⟨s, hv s (by rw [hst]; simp), k1, by rw [hst]; rfl, k3⟩, ?_⟩
      exact (covers_iff hw k3 hv).2 fun v h => (k4 v).2 h

end GC
