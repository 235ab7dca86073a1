/-
Property C59: options of gc-csp and gc-cycle with invalid values are ignored, by every run.
-/
import Verif.Spec.Ignored
import Verif.Props.Main
namespace GC
open Text Store Args Main

theorem IfValid.bind {α β : Type} {Valid : α → β → Prop} {p : α → Option β} (hp : ∀ {x y}, p x = some y ↔ Valid x y) {o o' : Option α}
    (h : IfValid Valid o o') : o'.bind p = o.bind p := by
  rcases h with ⟨rfl, _⟩ | ⟨rfl, h⟩
  · rfl
  · cases o with
    | none => rfl
    | some x =>
      cases hx : p x with
      | none => simp [hx]
      | some y => exact absurd (hp.1 hx) (h x y rfl)

theorem IfValid.exists {α β : Type} (Valid : α → β → Prop) (o : Option α) : ∃ o', IfValid Valid o o' := by
  by_cases h : ∃ x y, o = some x ∧ Valid x y
  · exact ⟨o, .inl ⟨rfl, h⟩⟩
  · exact ⟨none, .inr ⟨rfl, fun x y e hv => h ⟨x, y, e, hv⟩⟩⟩

/-- C59 is false of gc-csp, in every run: it does and prints the same as without the options that have invalid values. -/
theorem C59_csp_counterexample (H : ScoredHeap) (nd : Char → Bool) (order : DirectedGraph → DirectedGraph) (root : FPath)
    (start end_ : Text) (a b : CspArgs) (h : CspValidOptions a b) (fs : FS) :
    gcCsp H nd order root start end_ a fs = gcCsp H nd order root start end_ b fs := by
  obtain ⟨h1, h2, h3, h4, h5, h6, h7, h8, h9, h10, h11⟩ := h
  have : cspConstraints a = cspConstraints b := by
    unfold cspConstraints
    rw [h1.bind parseVertexIdList_iff, h2.bind parseVertexIdList_iff, h3.bind parseVertexIdList_iff, h4, h5, h6.bind parseUsize_iff,
      h7.bind parseUsize_iff, h8.bind parseUsize_iff, h9.bind parseI64_iff, h10.bind parseI64_iff, h11.bind parseI64_iff]
  unfold gcCsp
  rw [this]

/-- C59 is false of gc-cycle, in every run: it does and prints the same as without the options that have invalid values. -/
theorem C59_cycle_counterexample (nd : Char → Bool) (order : DirectedGraph → DirectedGraph) (root : FPath) (act : GcCycle.Actions)
    (a b : CycleArgs) (h : CycleValidOptions a b) (fs : FS) :
    gcCycle nd order root act a fs = gcCycle nd order root act b fs := by
  obtain ⟨h1, h2, h3, h4, h6, h7, h8, h9, h10, h11⟩ := h
  have : cycleConstraints a = cycleConstraints b := by
    unfold cycleConstraints
    rw [h1.bind parseVertexIdList_iff, h2.bind parseVertexIdList_iff, h3.bind parseEdgeList_iff, h4.bind parseEdgeList_iff,
      h6.bind parseUsize_iff, h7.bind parseUsize_iff, h8.bind parseUsize_iff, h9.bind parseI64_iff, h10.bind parseI64_iff,
      h11.bind parseI64_iff]
  unfold gcCycle GcCycle.main
  simp only [this]

/-- `--include 1 x --max-length 4` is the same as `--max-length 4`. -/
example : CspValidOptions { include_ := some [['1'], ['x']], maxLength := some ['4'] } { maxLength := some ['4'] } := by
  have h4 : ArgNat ['4'] 4 := parseUsize_iff.1 (by decide)
  have hx : ∀ l vs, some [['1'], ['x']] = some l → ¬ ArgIds l vs := by
    rintro _ vs ⟨⟩ h
    have := parseVertexIdList_iff.2 h
    exact absurd this (by rw [show parseVertexIdList [['1'], ['x']] = none by decide]; simp)
  have no : ∀ {α β : Type} (V : α → β → Prop), IfValid V none none := fun V => .inr ⟨rfl, fun _ _ e => by cases e⟩
  exact ⟨.inr ⟨rfl, hx⟩, no _, no _, rfl, rfl, no _, .inl ⟨rfl, _, _, rfl, h4⟩, no _, no _, no _, no _⟩

/-- Such remaining options exist for all options. -/
example (a : CspArgs) : ∃ b, CspValidOptions a b := by
  obtain ⟨i, hi⟩ := IfValid.exists ArgIds a.include_
  obtain ⟨e, he⟩ := IfValid.exists ArgIds a.exclude
  obtain ⟨o, ho⟩ := IfValid.exists ArgIds a.ordered
  obtain ⟨m, hm⟩ := IfValid.exists ArgNat a.minLength
  obtain ⟨n, hn⟩ := IfValid.exists ArgNat a.maxLength
  obtain ⟨x, hx⟩ := IfValid.exists ArgNat a.exactLength
  obtain ⟨r, hr⟩ := IfValid.exists ArgInt a.minScore
  obtain ⟨s, hs⟩ := IfValid.exists ArgInt a.maxScore
  obtain ⟨t, ht⟩ := IfValid.exists ArgInt a.exactScore
  exact ⟨⟨i, e, o, a.includeCycle, a.noCycle, m, n, x, r, s, t⟩, hi, he, ho, rfl, rfl, hm, hn, hx, hr, hs, ht⟩

end GC
