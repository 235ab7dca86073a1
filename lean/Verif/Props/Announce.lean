/-
Property C73, the first part of the text: the requirements that gc-csp prints are those of its options.
-/
import Verif.Spec.Announce
import Verif.Props.Main
namespace GC
namespace Main
open Text Store Args DirectedGraph

theorem part {α β : Type} {Valid : α → β → Prop} {p : α → Option β} (hv : ∀ {x y}, p x = some y ↔ Valid x y) (o : Option α)
    (build : β → List Constraint) {Lines : β → List Text → Prop} (h : ∀ x y, Valid x y → Lines y ((build y).map debugConstraint)) :
    Part o Valid Lines ((((o.bind p).map build).getD []).map debugConstraint) := by
  cases o with
  | none => exact .inr ⟨fun _ _ e => (nomatch e), rfl⟩
  | some x =>
    cases hp : p x with
    | none =>
      refine .inr ⟨fun x' y e hv' => ?_, by simp [hp]⟩
      cases e
      rw [← hv, hp] at hv'
      cases hv'
    | some y => exact .inl ⟨x, y, rfl, hv.1 hp, by simpa [hp] using h x y (hv.1 hp)⟩

theorem toList_getD {α β : Type} (o : Option α) (f : α → β) : (o.map f).toList = (o.map fun x => [f x]).getD [] := by
  cases o <;> rfl

theorem eachVertex {before after : String} {c : VertexId → Constraint} (h : ∀ v, debugConstraint (c v) = before.toList ++ showId v ++ after.toList)
    (vs : List VertexId) : EachVertex before after vs ((vs.map c).map debugConstraint) := by
  unfold EachVertex
  induction vs with
  | nil => exact .nil
  | cons v vs ih => exact .cons ⟨_, decimal_showId v, h v⟩ ih

theorem vertexIds (vs : List VertexId) : VertexIds vs (debugVertices vs) := by
  induction vs with
  | nil => exact .nil
  | cons v vs ih =>
    cases vs with
    | nil => exact .one (decimal_showId v)
    | cons w vs =>
      have := VertexIds.cons (by simp) (decimal_showId v) ih
      have e : debugVertices (v :: w :: vs) = debugVertex v ++ ", ".toList ++ debugVertices (w :: vs) := debugVertices.eq_3 v (w :: vs) (by simp)
      have e' : "), ".toList = [')'] ++ ", ".toList := by decide
      rw [e'] at this
      rw [e]
      unfold debugVertex
      generalize "VertexId(".toList = A at this ⊢
      generalize ", ".toList = B at this ⊢
      rw [List.append_assoc (A ++ showId v)]
      exact this

theorem decimalInt {s : Text} {i : Int} (h : ArgInt s i) : DecimalInt (showInt i) i := by
  unfold showInt DecimalInt
  have hb : i.natAbs < 2 ^ 64 := by
    rcases h with ⟨_, n, _, _, h1, rfl⟩ | ⟨_, n, _, _, h1, rfl⟩ <;> omega
  by_cases hi : i < 0
  · rw [if_pos hi]
    refine .inr ⟨hi, _, rfl, ?_⟩
    rw [show (-i).toNat = i.natAbs by omega]
    exact decimal_showFuel hb
  · rw [if_neg hi]
    refine .inl ⟨by omega, ?_⟩
    rw [show i.toNat = i.natAbs by omega]
    exact decimal_showFuel hb

theorem decimalNat {s : Text} {n : Nat} (h : ArgNat s n) : Decimal (GcCycle.showNat n) n := by
  obtain ⟨_, _, _, h⟩ := h
  exact decimal_showNat h

/-- C73: the first part of what gc-csp prints tells the requirements of its options. -/
theorem announces (a : CspArgs) : Announces a (constraintsText (cspConstraints a)) := by
  refine ⟨_, _, _, _, _, _, _, _, _,
    part parseVertexIdList_iff a.include_ buildInclude fun _ vs _ => eachVertex (fun v => ?_) vs,
    part parseVertexIdList_iff a.exclude buildExclude fun _ vs _ => eachVertex (fun v => ?_) vs,
    part parseVertexIdList_iff a.ordered (fun x => [buildOrdered x]) fun _ vs _ => ⟨_, vertexIds vs, rfl⟩,
    part parseUsize_iff a.minLength (fun x => [buildMinLength x]) fun _ n h => ⟨_, decimalNat h, rfl⟩,
    part parseUsize_iff a.maxLength (fun x => [buildMaxLength x]) fun _ n h => ⟨_, decimalNat h, rfl⟩,
    part parseUsize_iff a.exactLength buildExactLength fun _ n h => ⟨_, decimalNat h, rfl⟩,
    part parseI64_iff a.minScore (fun x => [buildMinScore x]) fun _ n h => ⟨_, decimalInt h, rfl⟩,
    part parseI64_iff a.maxScore (fun x => [buildMaxScore x]) fun _ n h => ⟨_, decimalInt h, rfl⟩,
    part parseI64_iff a.exactScore buildExactScore fun _ n h => ⟨_, decimalInt h, rfl⟩, ?_⟩
  · unfold debugConstraint debugVertex
    simp
  · unfold debugConstraint debugConstraint debugVertex
    simp
  · have hf : ∀ (b : Bool) (c : Constraint) (t : String), debugConstraint c = t.toList → (optionOf b c).toList.map debugConstraint = Flag b t := by
      intro b c t h
      cases b
      · rfl
      · simp [optionOf, Flag, h]
    rw [← hf a.includeCycle buildIncludeCycle "ContainsCycle" rfl, ← hf a.noCycle buildNoCycle "Not(ContainsCycle)" rfl]
    unfold constraintsText cspConstraints
    simp only [toList_getD, ← List.map_append, List.flatMap_cons, List.flatMap_map]
    congr 1

/-- C73: the whole text. If gc-csp ends, it has printed a line for every requirement of its options, and then a shortest walk that meets all of
them, or, exactly if there is none, that there is none. -/
theorem C73_text (H : ScoredHeap) (nd : Char → Bool) (order : DirectedGraph → DirectedGraph) (ho : IsOrder order)
    (root : FPath) (fs : FS) (g : DirectedGraph) (h : loadGraph nd root fs = .done (.ok g)) (start end_ : Text) (s e : VertexId)
    (hs : ArgId start s) (he : ArgId end_ e) (a : CspArgs) (out : Text)
    (hr : Returns (gcCsp H nd order root start end_ a fs) out) :
    ∃ first report, out = first ++ report ∧ Announces a first ∧ CspAnswer g s e a report := by
  obtain ⟨report, h1, h2⟩ := C73_exact H nd order ho root fs g h start end_ s e hs he a out hr
  exact ⟨_, report, h1, announces a, h2⟩

/-- `C73_text` for the file of one edge, whatever is printed. -/
example (H : ScoredHeap) (nd : Char → Bool) (a : CspArgs) (out : Text)
    (hr : Returns (gcCsp H nd id [['d']] "1".toList "2".toList a (sampleFS (Format.Gcmd.commandsText [.AddEdge 1 2]))) out) :=
  C73_text H nd id isOrder_id [['d']] _ _ (load_sample nd [.AddEdge 1 2]) _ _ 1 2 (argId_of (by decide)) (argId_of (by decide)) a out hr

/-- The first part for `--include 2 7 --min-score -3 --max-length many`. -/
example : constraintsText (cspConstraints { include_ := some [['2'], ['7']], minScore := some ['-', '3'], maxLength := some ['m'] }) =
    ("Constraint that will be applied to search are: \nContainsVertex(VertexId(2))\nContainsVertex(VertexId(7))\n" ++
      "MinScore(-3)\n").toList := by decide +kernel

end Main
end GC
