/-
Lemmas for C136: constraints and changes of the graph.
-/
import Verif.Spec.Options
import Verif.Props.EndToEnd
namespace GC
open DirectedGraph

/-- `k` is the number of edges of a shortest walk with the property. -/
def Best (P : List VertexId → Prop) (k : Int) : Prop := ∃ l, P l ∧ k = (l.length : Int) - 1 ∧ ∀ l', P l' → l.length ≤ l'.length

theorem Best.congr {P Q : List VertexId → Prop} (h : ∀ l, P l ↔ Q l) {k : Int} : Best P k ↔ Best Q k := by
  unfold Best
  simp only [h]

theorem Best.exists {P : List VertexId → Prop} {l : List VertexId} (h : P l) : ∃ k, Best P k ∧ k ≤ (l.length : Int) - 1 := by
  have key : ∀ n, ∀ l, P l → l.length ≤ n → ∃ k, Best P k ∧ k ≤ (l.length : Int) - 1 := by
    intro n
    induction n with
    | zero => exact fun l hl hn => ⟨_, ⟨l, hl, rfl, fun l' _ => by omega⟩, Int.le_refl _⟩
    | succ n ih =>
      intro l hl hn
      by_cases hs : ∃ l', P l' ∧ l'.length < l.length
      · obtain ⟨l', h1, h2⟩ := hs
        obtain ⟨k, h3, h4⟩ := ih l' h1 (by omega)
        exact ⟨k, h3, by omega⟩
      · exact ⟨_, ⟨l, hl, rfl, fun l' h' => by by_contra hc; exact hs ⟨l', h', by omega⟩⟩, Int.le_refl _⟩
  exact key _ l h (Nat.le_refl _)

theorem Best.unique {P : List VertexId → Prop} {k k' : Int} (h : Best P k) (h' : Best P k') : k = k' := by
  obtain ⟨l, h1, rfl, h2⟩ := h
  obtain ⟨l', h3, rfl, h4⟩ := h'
  have := h2 l' h3
  have := h4 l h1
  omega

/-- The walk meets all constraints. -/
def Meets (cs : List Constraint) (l : List VertexId) : Prop := ∀ c ∈ cs, Satisfies ⟨⟨l⟩, (l.length : Int) - 1⟩ c

theorem best_of_found {H : ScoredHeap} {g : DirectedGraph} (h : Built g) {s t : VertexId} {cs : List Constraint} {k : Int} (hf : FindsWalk H g s t cs k) :
    Best (fun l => WalkFromTo g s t l ∧ Meets cs l) k := by
  obtain ⟨sp, h1, rfl⟩ := hf
  obtain ⟨hw, hc, a, b, ha, hb, hab⟩ := C35_constrained_valid H g h _ _ s t cs sp h1
  have hsum : AStar.sumScore AStar.oneWeightedEdge AStar.zeroHeuristic g sp.path = .done sp.score := by
    unfold AStar.sumScore at *
    have := unit_score g sp.path hw.ne_nil
    unfold AStar.sumScore at this
    cases hb
    unfold AStar.oneWeightedEdge at ha
    split at ha
    · cases ha
    · split at ha
      · rename_i hs0 hs1
        cases ha
        rw [this, if_pos (by unfold Path.size at *; omega)]
        congr 1
        unfold Path.size at *
        omega
      · cases ha
  have hlen : sp.path.vertices.length ≤ 2 ^ 63 ∧ sp.score = (sp.path.vertices.length : Int) - 1 := by
    rw [unit_score g sp.path hw.ne_nil] at hsum
    split at hsum
    · rename_i hl
      exact ⟨hl, (Run.done.inj hsum).symm⟩
    · cases hsum
  refine ⟨sp.path.vertices, ⟨hw, ?_⟩, hlen.2, ?_⟩
  · intro c hcm
    have := hc c hcm
    rw [← hlen.2]
    exact this
  · rintro l' ⟨hw', hm'⟩
    by_contra hcon
    obtain ⟨sp', h2, h3⟩ := C36_constrained_optimal H g h _ _ s t cs (monotone_unit g s) _ h1 ⟨⟨l'⟩, (l'.length : Int) - 1⟩ hw'
      (by rw [unit_score g ⟨l'⟩ hw'.ne_nil, if_pos (by simp only; omega)]) hm'
    cases h2
    simp only at h3
    omega

theorem found_of_best {H : ScoredHeap} {g : DirectedGraph} (h : Built g) {s t : VertexId} {cs : List Constraint} {k : Int} (hk : k < 2 ^ 63 - 1)
    (hb : Best (fun l => WalkFromTo g s t l ∧ Meets cs l) k) : FindsWalk H g s t cs k := by
  obtain ⟨l, ⟨hw, hm⟩, rfl, hmin⟩ := hb
  obtain ⟨sp, h1, h2, h3, h4, h5⟩ := C37_finds_solution_partial H g h s t cs ⟨l⟩ hw (by simp only; omega) hm
  refine ⟨sp, h1, ?_⟩
  have := hmin sp.path.vertices ⟨h2, fun c hc => by rw [← h3]; exact h4 c hc⟩
  simp only at h5
  omega

theorem csp_found_iff {H : ScoredHeap} {g : DirectedGraph} (h : Built g) {s t : VertexId} {cs : List Constraint} {k : Int} (hk : k < 2 ^ 63 - 1) :
    FindsWalk H g s t cs k ↔ Best (fun l => WalkFromTo g s t l ∧ Meets cs l) k := ⟨best_of_found h, found_of_best h hk⟩

theorem cost_iff {H : ScoredHeap} {g : DirectedGraph} (h : Built g) (hsize : g.vertexCount < 2 ^ 63) {s t : VertexId} {k : Int} :
    Cost H g s t (some k) ↔ Best (WalkFromTo g s t) k := by
  constructor
  · intro hc
    obtain ⟨⟨l, h1, h2⟩, h3⟩ := (cost_spec h hsize hc).2 k rfl
    exact ⟨l, h1, h2, fun l' hl' => by have := h3 l' hl'; omega⟩
  · intro hb
    obtain ⟨r, h1, h2, h3⟩ := C33_short_path_optimal H g h hsize s t
    have hc : Cost H g s t (r.map ScoredPath.score) := ⟨r, h1, rfl⟩
    cases r with
    | none =>
      obtain ⟨l, hl, _⟩ := hb
      exact absurd hl.reach (h2.1 rfl)
    | some sp =>
      obtain ⟨⟨l, h4, h5⟩, h6⟩ := (cost_spec h hsize hc).2 sp.score rfl
      have : sp.score = k := Best.unique ⟨l, h4, h5, fun l' hl' => by have := h6 l' hl'; omega⟩ hb
      rw [← this]
      exact hc

theorem cost_bound {H : ScoredHeap} {g : DirectedGraph} (h : Built g) (hsize : g.vertexCount < 2 ^ 63) {s t : VertexId} {k : Int}
    (hc : Cost H g s t (some k)) : 0 ≤ k := by
  obtain ⟨l, h1, rfl, _⟩ := (cost_iff h hsize).1 hc
  have := List.length_pos_of_ne_nil h1.ne_nil
  omega

/-! ### Removing vertices and edges -/

theorem built_applyCommands {g : DirectedGraph} (h : Built g) (cs : List GraphCommand) : Built (GraphCommand.applyCommands cs g) := h.applyCommands cs

theorem adj_removeVertices {g : DirectedGraph} (h : Built g) (vs : List VertexId) (u v : VertexId) :
    Adj (GraphCommand.applyCommands (vs.map .RemoveVertex) g) u v ↔ Adj g u v ∧ u ∉ vs ∧ v ∉ vs := by
  induction vs generalizing g with
  | nil => simp [GraphCommand.applyCommands]
  | cons x vs ih =>
    have e : GraphCommand.applyCommands ((x :: vs).map .RemoveVertex) g = GraphCommand.applyCommands (vs.map .RemoveVertex) ((GraphCommand.RemoveVertex x).applyTo g) := rfl
    rw [e, ih (built_applyTo h _), adj_applyTo h]
    show (Adj g u v ∧ _) ∧ _ ↔ _
    simp only [List.mem_cons, not_or]
    tauto

theorem adj_removeEdges {g : DirectedGraph} (h : Built g) (es : List Edge) (u v : VertexId) :
    Adj (GraphCommand.applyCommands (es.map fun e => .RemoveEdge e.src e.dst) g) u v ↔ Adj g u v ∧ (⟨u, v⟩ : Edge) ∉ es := by
  induction es generalizing g with
  | nil => simp [GraphCommand.applyCommands]
  | cons x es ih =>
    have e : GraphCommand.applyCommands ((x :: es).map fun e => .RemoveEdge e.src e.dst) g =
      GraphCommand.applyCommands (es.map fun e => .RemoveEdge e.src e.dst) ((GraphCommand.RemoveEdge x.src x.dst).applyTo g) := rfl
    rw [e, ih (built_applyTo h _), adj_applyTo h]
    show (Adj g u v ∧ _) ∧ _ ↔ _
    simp only [List.mem_cons, not_or]
    tauto

theorem visits_iff {l : List VertexId} {v : VertexId} : Visits ⟨l⟩ v ↔ v ∈ l := List.mem_iff_getElem?.symm

theorem traverses_iff {l : List VertexId} {e : Edge} : Traverses ⟨l⟩ e ↔ ∃ p q, l = p ++ e.src :: e.dst :: q := by
  constructor
  · rintro ⟨i, h1, h2⟩
    unfold At at h1 h2
    simp only at h1 h2
    obtain ⟨hi, e1⟩ := List.getElem?_eq_some_iff.1 h1
    obtain ⟨hi', e2⟩ := List.getElem?_eq_some_iff.1 h2
    refine ⟨l.take i, l.drop (i + 2), ?_⟩
    rw [← e1, ← e2, ← List.drop_eq_getElem_cons hi', ← List.drop_eq_getElem_cons hi, List.take_append_drop]
  · rintro ⟨p, q, rfl⟩
    refine ⟨p.length, ?_, ?_⟩ <;> simp [At]

theorem walk_removeVertices {g : DirectedGraph} (h : Built g) {vs : List VertexId} {s t : VertexId} (hs : s ∉ vs) (l : List VertexId) :
    WalkFromTo (GraphCommand.applyCommands (vs.map .RemoveVertex) g) s t l ↔ WalkFromTo g s t l ∧ ∀ v ∈ vs, v ∉ l := by
  unfold WalkFromTo
  have key : ∀ l : List VertexId, ∀ x, x ∉ vs → ((x :: l).IsChain (Adj (GraphCommand.applyCommands (vs.map .RemoveVertex) g)) ↔
      (x :: l).IsChain (Adj g) ∧ ∀ v ∈ vs, v ∉ x :: l) := by
    intro l
    induction l with
    | nil =>
      intro x hx
      simp only [List.isChain_singleton, true_and, true_iff]
      intro v hv hm
      rw [List.mem_singleton] at hm
      exact hx (hm ▸ hv)
    | cons y l ih =>
      intro x hx
      rw [List.isChain_cons_cons, List.isChain_cons_cons, adj_removeVertices h]
      constructor
      · rintro ⟨⟨h1, _, h2⟩, h3⟩
        obtain ⟨h4, h5⟩ := (ih y h2).1 h3
        refine ⟨⟨h1, h4⟩, fun v hv hm => ?_⟩
        rcases List.mem_cons.1 hm with rfl | hm
        · exact hx hv
        · exact h5 v hv hm
      · rintro ⟨⟨h1, h2⟩, h3⟩
        have hy : y ∉ vs := fun hm => h3 y hm (by simp)
        exact ⟨⟨h1, hx, hy⟩, (ih y hy).2 ⟨h2, fun v hv hm => h3 v hv (List.mem_cons_of_mem _ hm)⟩⟩
  cases l with
  | nil => simp
  | cons x l =>
    by_cases hx : x = s
    · subst hx
      rw [key l x hs]
      tauto
    · simp [hx]

theorem walk_removeEdges {g : DirectedGraph} (h : Built g) (es : List Edge) {s t : VertexId} (l : List VertexId) :
    WalkFromTo (GraphCommand.applyCommands (es.map fun e => .RemoveEdge e.src e.dst) g) s t l ↔ WalkFromTo g s t l ∧ ∀ e ∈ es, ¬ Traverses ⟨l⟩ e := by
  unfold WalkFromTo
  have key : ∀ l : List VertexId, (l.IsChain (Adj (GraphCommand.applyCommands (es.map fun e => .RemoveEdge e.src e.dst) g)) ↔
      l.IsChain (Adj g) ∧ ∀ e ∈ es, ¬ Traverses ⟨l⟩ e) := by
    intro l
    simp only [traverses_iff]
    induction l with
    | nil => simp
    | cons x l ih =>
      cases l with
      | nil =>
        simp only [List.isChain_singleton, true_and, true_iff]
        rintro e _ ⟨p, q, hpq⟩
        have := congrArg List.length hpq
        simp at this
        omega
      | cons y l =>
        rw [List.isChain_cons_cons, List.isChain_cons_cons, adj_removeEdges h, ih]
        constructor
        · rintro ⟨⟨h1, h2⟩, h3, h4⟩
          refine ⟨⟨h1, h3⟩, ?_⟩
          rintro e he ⟨p, q, hpq⟩
          cases p with
          | nil => cases hpq; exact h2 he
          | cons z p => exact h4 e he ⟨p, q, (List.cons.inj hpq).2⟩
        · rintro ⟨⟨h1, h2⟩, h3⟩
          exact ⟨⟨h1, fun hm => h3 _ hm ⟨[], l, rfl⟩⟩, h2, fun e he ⟨p, q, hpq⟩ => h3 e he ⟨x :: p, q, by rw [hpq]; rfl⟩⟩
  rw [key l]
  tauto

end GC
