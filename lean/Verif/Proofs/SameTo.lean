/-
Lemmas for C150: what does not lead to the end does not matter.
-/
import Verif.Spec.SameTo
import Verif.Proofs.SameFrom
import Verif.Proofs.Agree
namespace GC
open DirectedGraph
namespace SameTo
variable {g g' : DirectedGraph} {t : VertexId}

theorem reach (h : SameTo g g' t) (v : VertexId) : Reach g v t ↔ Reach g' v t := by
  constructor
  · intro hr
    induction hr using Relation.ReflTransGen.head_induction_on with
    | refl => exact .refl
    | head h1 h2 ih => exact .head ((h _ h2 _).1 h1) ih
  · intro hr
    induction hr using Relation.ReflTransGen.head_induction_on with
    | refl => exact .refl
    | head h1 h2 ih => exact .head ((h _ ih _).2 h1) ih

theorem symm (h : SameTo g g' t) : SameTo g' g t := fun v hv u => (h v ((h.reach v).2 hv) u).symm

theorem trans {g'' : DirectedGraph} (h : SameTo g g' t) (h' : SameTo g' g'' t) : SameTo g g'' t := fun v hv u =>
  (h v hv u).trans (h' v ((h.reach v).1 hv) u)

theorem walk_mp (h : SameTo g g' t) {s : VertexId} {l : List VertexId} (hw : WalkFromTo g s t l) : WalkFromTo g' s t l := by
  induction l generalizing s with
  | nil => exact absurd rfl hw.ne_nil
  | cons a l ih =>
    obtain ⟨h1, h2, h3⟩ := hw
    cases h2
    cases l with
    | nil => exact ⟨List.isChain_singleton _, rfl, h3⟩
    | cons b l =>
      rw [List.isChain_cons_cons] at h1
      have hb : WalkFromTo g b t (b :: l) := ⟨h1.2, rfl, by simpa using h3⟩
      exact (ih hb).cons ((h b hb.reach _).1 h1.1)

theorem walk (h : SameTo g g' t) (s : VertexId) (l : List VertexId) : WalkFromTo g s t l ↔ WalkFromTo g' s t l := ⟨h.walk_mp, h.symm.walk_mp⟩

end SameTo

theorem AsideOf.congr {g g' : DirectedGraph} {t : VertexId} (h : SameTo g g' t) {c : GraphCommand} (hc : AsideOf g t c) : AsideOf g' t c := by
  cases c with
  | AddVertex v => trivial
  | RemoveVertex v => exact fun hr => hc ((h.reach v).2 hr)
  | AddEdge a b => exact fun hr => hc ((h.reach b).2 hr)
  | RemoveEdge a b => exact fun hr => hc ((h.reach b).2 hr)

theorem sameTo_applyTo {g : DirectedGraph} (h : Built g) {t : VertexId} {c : GraphCommand} (hc : AsideOf g t c) : SameTo g (c.applyTo g) t := by
  intro v hv u
  rw [adj_applyTo h]
  cases c with
  | AddVertex x => exact Iff.rfl
  | RemoveVertex x =>
    show Adj g u v ↔ Adj g u v ∧ u ≠ x ∧ v ≠ x
    constructor
    · intro ha
      exact ⟨ha, fun e => hc (e ▸ .head ha hv), fun e => hc (e ▸ hv)⟩
    · exact fun ha => ha.1
  | AddEdge a b =>
    show Adj g u v ↔ Adj g u v ∨ (⟨u, v⟩ : Edge) = ⟨a, b⟩
    constructor
    · exact .inl
    · rintro (ha | e)
      · exact ha
      · cases e; exact absurd hv hc
  | RemoveEdge a b =>
    show Adj g u v ↔ Adj g u v ∧ (⟨u, v⟩ : Edge) ≠ ⟨a, b⟩
    constructor
    · intro ha
      exact ⟨ha, fun e => by cases e; exact hc hv⟩
    · exact fun ha => ha.1

end GC
