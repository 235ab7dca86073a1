/-
Lemmas for C137: what cannot be reached does not matter.
-/
import Verif.Spec.SameFrom
import Verif.Props.Options
import Verif.Props.AnyWeights
namespace GC
open DirectedGraph ShortestPath
namespace SameFrom
variable {g g' : DirectedGraph} {s : VertexId}

theorem reach (h : SameFrom g g' s) (v : VertexId) : Reach g s v ↔ Reach g' s v := by
  constructor
  · intro hr
    induction hr with
    | refl => exact .refl
    | tail h1 h2 ih => exact ih.tail ((h _ h1 _).1 h2)
  · intro hr
    induction hr with
    | refl => exact .refl
    | tail h1 h2 ih => exact ih.tail ((h _ ih _).2 h2)

theorem symm (h : SameFrom g g' s) : SameFrom g' g s := fun u hu v => (h u ((h.reach u).2 hu) v).symm

theorem trans {g'' : DirectedGraph} (h : SameFrom g g' s) (h' : SameFrom g' g'' s) : SameFrom g g'' s := fun u hu v =>
  (h u hu v).trans (h' u ((h.reach u).1 hu) v)

theorem chain (h : SameFrom g g' s) (x : VertexId) (hx : Reach g s x) (l : List VertexId) (hl : (x :: l).IsChain (Adj g)) : (x :: l).IsChain (Adj g') := by
  induction l generalizing x with
  | nil => exact List.isChain_singleton _
  | cons y l ih =>
    rw [List.isChain_cons_cons] at hl ⊢
    exact ⟨(h x hx y).1 hl.1, ih y (hx.tail hl.1) hl.2⟩

theorem walk_mp (h : SameFrom g g' s) {t : VertexId} {l : List VertexId} (hw : WalkFromTo g s t l) : WalkFromTo g' s t l := by
  obtain ⟨h1, h2, h3⟩ := hw
  obtain ⟨q, rfl⟩ := List.head?_eq_some_iff.1 h2
  exact ⟨h.chain s .refl q h1, h2, h3⟩

theorem walk (h : SameFrom g g' s) (t : VertexId) (l : List VertexId) : WalkFromTo g s t l ↔ WalkFromTo g' s t l := ⟨h.walk_mp, h.symm.walk_mp⟩

theorem simplePath_mp (h : SameFrom g g' s) {l : List VertexId} (hw : SimplePathFrom g s l) : SimplePathFrom g' s l := by
  obtain ⟨h1, h2, h3⟩ := hw
  obtain ⟨q, rfl⟩ := List.head?_eq_some_iff.1 h2
  exact ⟨h.chain s .refl q h1, h2, h3⟩

theorem simplePath (h : SameFrom g g' s) (l : List VertexId) : SimplePathFrom g s l ↔ SimplePathFrom g' s l := ⟨h.simplePath_mp, h.symm.simplePath_mp⟩

theorem at_reach (h : SameFrom g g' s) {u : VertexId} (hu : Reach g s u) : SameFrom g g' u := fun x hx v => h x (Relation.ReflTransGen.trans hu hx) v

theorem lightest (h : SameFrom g g' s) {w : WeightFn} {m : List (VertexId × ScoredPath)} (hm : LightestBelowMax g w s m) : LightestBelowMax g' w s m := by
  obtain ⟨h1, h2, h3⟩ := hm
  simp only [h.walk] at h2 h3
  exact ⟨h1, h2, h3⟩

theorem negative_mp (h : SameFrom g g' s) {w : WeightFn} (hn : NegativeCycleBelowMax g w s) : NegativeCycleBelowMax g' w s := by
  obtain ⟨v, a, c, h1, h2, h3, h4⟩ := hn
  exact ⟨v, a, c, h.walk_mp h1, (h.at_reach h1.reach).walk_mp h2, h3, h4⟩

theorem negative (h : SameFrom g g' s) {w : WeightFn} : NegativeCycleBelowMax g w s ↔ NegativeCycleBelowMax g' w s := ⟨h.negative_mp, h.symm.negative_mp⟩

end SameFrom

theorem FarFrom.congr {g g' : DirectedGraph} {s : VertexId} (h : SameFrom g g' s) {c : GraphCommand} (hc : FarFrom g s c) : FarFrom g' s c := by
  cases c with
  | AddVertex v => trivial
  | RemoveVertex v => exact fun hr => hc ((h.reach v).2 hr)
  | AddEdge a b => exact fun hr => hc ((h.reach a).2 hr)
  | RemoveEdge a b => exact fun hr => hc ((h.reach a).2 hr)

theorem sameFrom_applyTo {g : DirectedGraph} (h : Built g) {s : VertexId} {c : GraphCommand} (hc : FarFrom g s c) : SameFrom g (c.applyTo g) s := by
  intro u hu v
  rw [adj_applyTo h]
  cases c with
  | AddVertex x => exact Iff.rfl
  | RemoveVertex x =>
    show Adj g u v ↔ Adj g u v ∧ u ≠ x ∧ v ≠ x
    constructor
    · intro ha
      exact ⟨ha, fun e => hc (e ▸ hu), fun e => hc (e ▸ hu.tail ha)⟩
    · exact fun ha => ha.1
  | AddEdge a b =>
    show Adj g u v ↔ Adj g u v ∨ (⟨u, v⟩ : Edge) = ⟨a, b⟩
    constructor
    · exact .inl
    · rintro (ha | e)
      · exact ha
      · cases e; exact absurd hu hc
  | RemoveEdge a b =>
    show Adj g u v ↔ Adj g u v ∧ (⟨u, v⟩ : Edge) ≠ ⟨a, b⟩
    constructor
    · intro ha
      exact ⟨ha, fun e => by cases e; exact hc hu⟩
    · exact fun ha => ha.1

end GC
