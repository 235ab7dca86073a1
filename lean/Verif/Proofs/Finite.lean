/- There are finitely many vertex identifiers. -/
import Verif.Model.Graph
import Mathlib.Data.Fintype.EquivFin
namespace GC

instance : Finite VertexId :=
  Finite.of_injective (fun v : VertexId => v.id.toFin) (by
    intro a b h
    obtain ⟨a⟩ := a
    obtain ⟨b⟩ := b
    simp only at h
    rw [UInt64.toFin_inj.1 h])

end GC
