/- Lemmas about the constraint checker. -/
import Verif.Proofs.Path
import Mathlib.Tactic.Tauto
namespace GC
open Checker

theorem filterMap_length_le_one {α : Type} (f : Constraint → Option α) (q : Constraint → Prop)
    (hf : ∀ c, (f c).isSome = true ↔ q c) (cs : List Constraint) :
    (cs.filterMap f).length ≤ 1 ↔ AtMostOne cs q := by
  have h0 : ∀ cs : List Constraint, cs.filterMap f = [] ↔ ∀ (i : Nat) c, cs[i]? = some c → ¬ q c := by
    intro cs
    rw [List.filterMap_eq_nil_iff]
    constructor
    · intro h i c hc hq
      have := h c (List.mem_iff_getElem?.2 ⟨i, hc⟩)
      rw [← hf, this] at hq
      cases hq
    · intro h c hc
      obtain ⟨i, hi⟩ := List.mem_iff_getElem?.1 hc
      have := h i c hi
      rw [← hf] at this
      simpa using this
  induction cs with
  | nil => simp [AtMostOne]
  | cons c cs ih =>
    by_cases hc : q c
    · obtain ⟨a, ha⟩ := Option.isSome_iff_exists.1 ((hf c).2 hc)
      rw [List.filterMap_cons_some ha, List.length_cons]
      have : (cs.filterMap f).length + 1 ≤ 1 ↔ cs.filterMap f = [] := by
        rw [← List.length_eq_zero_iff]; omega
      rw [this, h0]
      constructor
      · intro h i j x y hi hj hx hy
        cases i with
        | zero =>
          cases j with
          | zero => rfl
          | succ j => exact absurd hy (h j y (by simpa using hj))
        | succ i => exact absurd hx (h i x (by simpa using hi))
      · intro h i x hi hx
        have := h (i + 1) 0 x c (by simpa using hi) (by simp) hx hc
        omega
    · have hn : f c = none := by
        have := (hf c).not.2 hc
        simpa using this
      rw [List.filterMap_cons_none hn]
      refine Iff.trans ih ?_
      constructor
      · intro h i j x y hi hj hx hy
        cases i with
        | zero => simp at hi; subst hi; exact absurd hx hc
        | succ i =>
          cases j with
          | zero => simp at hj; subst hj; exact absurd hy hc
          | succ j =>
            have := h i j x y (by simpa using hi) (by simpa using hj) hx hy
            omega
      · intro h i j x y hi hj hx hy
        have := h (i + 1) (j + 1) x y (by simpa using hi) (by simpa using hj) hx hy
        omega

theorem mem_vertexInclusions {cs : List Constraint} {v : VertexId} :
    v ∈ vertexInclusions cs ↔ .ContainsVertex v ∈ cs ∨ ∃ e : Edge, (e.src = v ∨ e.dst = v) ∧ .ContainsEdge e ∈ cs := by
  unfold vertexInclusions
  rw [List.mem_flatMap]
  constructor
  · rintro ⟨c, hc, hv⟩
    cases c <;> simp at hv
    · subst hv; exact .inl hc
    · rename_i e
      exact .inr ⟨e, by rcases hv with h | h <;> simp [h], hc⟩
  · rintro (h | ⟨e, he, h⟩)
    · exact ⟨_, h, by simp⟩
    · exact ⟨_, h, by rcases he with h | h <;> simp [h]⟩

theorem mem_vertexExclusions {cs : List Constraint} {v : VertexId} :
    v ∈ vertexExclusions cs ↔ .Not (.ContainsVertex v) ∈ cs := by
  unfold vertexExclusions
  rw [List.mem_flatMap]
  constructor
  · rintro ⟨c, hc, hv⟩
    split at hv
    · simp at hv; subst hv; exact hc
    · simp at hv
  · intro h; exact ⟨_, h, by simp⟩

theorem checkVertex_ok_iff {cs : List Constraint} : checkVertexInclusionExclusion cs = .ok () ↔
    ∀ v, .Not (.ContainsVertex v) ∈ cs → .ContainsVertex v ∉ cs ∧
    ∀ e : Edge, (e.src = v ∨ e.dst = v) → .ContainsEdge e ∉ cs := by
  unfold checkVertexInclusionExclusion
  simp only
  split
  · rename_i h
    simp only [true_iff]
    rw [List.isEmpty_iff, List.filter_eq_nil_iff] at h
    intro v hv
    have key : v ∉ vertexInclusions cs := fun hc => h v hc (by simpa using mem_vertexExclusions.2 hv)
    rw [mem_vertexInclusions] at key
    simp only [not_or, not_exists, not_and] at key
    exact key
  · rename_i h
    simp only [reduceCtorEq, false_iff]
    intro hc
    apply h
    rw [List.isEmpty_iff, List.filter_eq_nil_iff]
    intro v hv hx
    have := hc v (mem_vertexExclusions.1 (by simpa using hx))
    rw [mem_vertexInclusions] at hv
    rcases hv with hv | ⟨e, he, hv⟩
    · exact this.1 hv
    · exact this.2 e he hv

theorem mem_edgeInclusions {cs : List Constraint} {e : Edge} : e ∈ edgeInclusions cs ↔ .ContainsEdge e ∈ cs := by
  unfold edgeInclusions
  rw [List.mem_filterMap]
  constructor
  · rintro ⟨c, hc, hv⟩
    split at hv
    · cases hv; exact hc
    · cases hv
  · intro h; exact ⟨_, h, by simp⟩

theorem mem_edgeExclusions {cs : List Constraint} {e : Edge} : e ∈ edgeExclusions cs ↔ .Not (.ContainsEdge e) ∈ cs := by
  unfold edgeExclusions
  rw [List.mem_filterMap]
  constructor
  · rintro ⟨c, hc, hv⟩
    split at hv
    · cases hv; exact hc
    · cases hv
  · intro h; exact ⟨_, h, by simp⟩

theorem checkEdge_ok_iff {cs : List Constraint} : checkEdgeInclusionExclusion cs = .ok () ↔
    ∀ e, .ContainsEdge e ∈ cs → .Not (.ContainsEdge e) ∉ cs := by
  unfold checkEdgeInclusionExclusion
  simp only
  split
  · rename_i h
    simp only [true_iff]
    rw [List.isEmpty_iff, List.filter_eq_nil_iff] at h
    intro e he hn
    exact h e (mem_edgeInclusions.2 he) (by simpa using mem_edgeExclusions.2 hn)
  · rename_i h
    simp only [reduceCtorEq, false_iff]
    intro hc
    apply h
    rw [List.isEmpty_iff, List.filter_eq_nil_iff]
    intro e he hx
    exact hc e (mem_edgeInclusions.1 he) (mem_edgeExclusions.1 (by simpa using hx))

theorem mem_negated {cs : List Constraint} {c : Constraint} : c ∈ negatedConstraints cs ↔ .Not c ∈ cs := by
  unfold negatedConstraints
  rw [List.mem_filterMap]
  constructor
  · rintro ⟨c, hc, hv⟩
    split at hv
    · cases hv; exact hc
    · cases hv
  · intro h; exact ⟨_, h, by simp⟩

theorem find?_eq_isSome {l : List Constraint} {c : Constraint} :
    (l.find? (fun x => x = c)).isSome = true ↔ c ∈ l := by
  rw [List.find?_isSome]
  simp

theorem checkCycle_ok_iff {cs : List Constraint} : checkCycleInclusionExclusion cs = .ok () ↔
    (.ContainsCycle ∈ cs ↔ .Not .ContainsCycle ∉ cs) := by
  unfold checkCycleInclusionExclusion
  simp only
  rw [← find?_eq_isSome (l := cs), ← mem_negated (cs := cs), ← find?_eq_isSome (l := negatedConstraints cs)]
  cases (cs.find? (fun x => x = Constraint.ContainsCycle)).isSome <;>
    cases ((negatedConstraints cs).find? (fun x => x = Constraint.ContainsCycle)).isSome <;> simp

theorem checkCycle_error {cs : List Constraint} {e : ValidateError}
    (h : checkCycleInclusionExclusion cs = .error e) : e = .cycle := by
  unfold checkCycleInclusionExclusion at h
  simp only at h
  split at h
  · cases h
  · cases h; rfl

theorem bounds_ok_iff {α : Type} [LT α] [DecidableLT α] (mins maxs : List α) (e1 e2 : ValidateError)
    (e3 : α → α → ValidateError) :
    checkBounds mins maxs e1 e2 e3 = .ok () ↔
    mins.length ≤ 1 ∧ maxs.length ≤ 1 ∧ ∀ a b, a ∈ mins → b ∈ maxs → ¬ b < a := by
  unfold checkBounds
  by_cases h1 : mins.length > 1
  · simp only [h1, if_true, reduceCtorEq, false_iff]; omega
  · by_cases h2 : maxs.length > 1
    · simp only [h1, h2, if_true, if_false, reduceCtorEq, false_iff]; omega
    · simp only [h1, h2, if_false]
      match mins, maxs, h1, h2 with
      | [], _, _, h2 => simp; omega
      | [a], [], _, _ => simp
      | [a], [b], _, _ =>
        simp only [List.head?_cons, List.length_singleton, Nat.le_refl, true_and, List.mem_singleton]
        by_cases h : a > b
        · simp only [h, if_true, reduceCtorEq, false_iff]
          intro hc; exact hc a b rfl rfl h
        · simp only [h, if_false, true_iff]
          rintro _ _ rfl rfl; exact h
      | a :: b :: l, _, h1, _ => simp at h1
      | [_], a :: b :: l, _, h2 => simp at h2

theorem mem_minLengths {cs : List Constraint} {a : Nat} : a ∈ minLengths cs ↔ .MinLength a ∈ cs := by
  unfold minLengths
  rw [List.mem_filterMap]
  constructor
  · rintro ⟨c, hc, h⟩
    split at h
    · cases h; exact hc
    · cases h
  · intro h; exact ⟨_, h, rfl⟩

theorem mem_maxLengths {cs : List Constraint} {a : Nat} : a ∈ maxLengths cs ↔ .MaxLength a ∈ cs := by
  unfold maxLengths
  rw [List.mem_filterMap]
  constructor
  · rintro ⟨c, hc, h⟩
    split at h
    · cases h; exact hc
    · cases h
  · intro h; exact ⟨_, h, rfl⟩

theorem checkLength_ok_iff {cs : List Constraint} : checkMinMaxLength cs = .ok () ↔
    AtMostOne cs IsMinLength ∧ AtMostOne cs IsMaxLength ∧
    ∀ a b, .MinLength a ∈ cs → .MaxLength b ∈ cs → a ≤ b := by
  unfold checkMinMaxLength
  rw [bounds_ok_iff]
  have e1 : (minLengths cs).length ≤ 1 ↔ AtMostOne cs IsMinLength :=
    filterMap_length_le_one _ _ (fun c => by cases c <;> simp [IsMinLength]) cs
  have e2 : (maxLengths cs).length ≤ 1 ↔ AtMostOne cs IsMaxLength :=
    filterMap_length_le_one _ _ (fun c => by cases c <;> simp [IsMaxLength]) cs
  rw [e1, e2]
  simp only [mem_minLengths, mem_maxLengths, Nat.not_lt]

theorem mem_minScores {cs : List Constraint} {a : Int} : a ∈ minScores cs ↔ .MinScore a ∈ cs := by
  unfold minScores
  rw [List.mem_filterMap]
  constructor
  · rintro ⟨c, hc, h⟩
    split at h
    · cases h; exact hc
    · cases h
  · intro h; exact ⟨_, h, rfl⟩

theorem mem_maxScores {cs : List Constraint} {a : Int} : a ∈ maxScores cs ↔ .MaxScore a ∈ cs := by
  unfold maxScores
  rw [List.mem_filterMap]
  constructor
  · rintro ⟨c, hc, h⟩
    split at h
    · cases h; exact hc
    · cases h
  · intro h; exact ⟨_, h, rfl⟩

theorem checkScore_ok_iff {cs : List Constraint} : checkMinMaxScore cs = .ok () ↔
    AtMostOne cs IsMinScore ∧ AtMostOne cs IsMaxScore ∧
    ∀ a b, .MinScore a ∈ cs → .MaxScore b ∈ cs → a ≤ b := by
  unfold checkMinMaxScore
  rw [bounds_ok_iff]
  have e1 : (minScores cs).length ≤ 1 ↔ AtMostOne cs IsMinScore :=
    filterMap_length_le_one _ _ (fun c => by cases c <;> simp [IsMinScore]) cs
  have e2 : (maxScores cs).length ≤ 1 ↔ AtMostOne cs IsMaxScore :=
    filterMap_length_le_one _ _ (fun c => by cases c <;> simp [IsMaxScore]) cs
  rw [e1, e2]
  simp only [mem_minScores, mem_maxScores, Int.not_lt]

theorem validate_unfold (cs : List Constraint) : validate cs =
    (checkVertexInclusionExclusion cs).bind fun _ =>
    (checkEdgeInclusionExclusion cs).bind fun _ =>
    (checkCycleInclusionExclusion cs).bind fun _ =>
    (checkMinMaxLength cs).bind fun _ =>
    (checkMinMaxScore cs).bind fun _ => .ok () := rfl

theorem except_bind_ok {ε : Type} {x : Except ε Unit} {f : Unit → Except ε Unit} :
    x.bind f = .ok () ↔ x = .ok () ∧ f () = .ok () := by
  cases x <;> simp [Except.bind]

theorem validate_ok_iff (cs : List Constraint) : validate cs = .ok () ↔ Acceptable cs := by
  rw [validate_unfold]
  simp only [except_bind_ok, and_true]
  rw [checkVertex_ok_iff, checkEdge_ok_iff, checkCycle_ok_iff, checkLength_ok_iff, checkScore_ok_iff]
  exact Iff.rfl

theorem checkVertex_error {cs : List Constraint} {e : ValidateError} (h : checkVertexInclusionExclusion cs = .error e) :
    kindOf e = 0 ∧ Describes cs e := by
  unfold checkVertexInclusionExclusion at h
  simp only at h
  split at h
  · cases h
  · rename_i hne
    cases h
    refine ⟨rfl, fun hn => hne (by rw [hn]; rfl), fun v => ?_⟩
    rw [List.mem_filter, List.contains_iff_mem, mem_vertexInclusions, mem_vertexExclusions, and_comm]

theorem checkEdge_error {cs : List Constraint} {e : ValidateError} (h : checkEdgeInclusionExclusion cs = .error e) :
    kindOf e = 1 ∧ Describes cs e := by
  unfold checkEdgeInclusionExclusion at h
  simp only at h
  split at h
  · cases h
  · rename_i hne
    cases h
    refine ⟨rfl, fun hn => hne (by rw [hn]; rfl), fun v => ?_⟩
    rw [List.mem_filter, List.contains_iff_mem, mem_edgeInclusions, mem_edgeExclusions]

theorem bounds_error {α : Type} [LT α] [DecidableLT α] {mins maxs : List α} {e1 e2 : ValidateError} {e3 : α → α → ValidateError}
    {e : ValidateError} (h : checkBounds mins maxs e1 e2 e3 = .error e) :
    (e = e1 ∧ ¬ mins.length ≤ 1) ∨ (e = e2 ∧ mins.length ≤ 1 ∧ ¬ maxs.length ≤ 1) ∨
    ∃ a b, e = e3 a b ∧ mins = [a] ∧ maxs = [b] ∧ b < a := by
  unfold checkBounds at h
  by_cases h1 : mins.length > 1
  · rw [if_pos h1] at h
    cases h
    exact .inl ⟨rfl, by omega⟩
  · rw [if_neg h1] at h
    by_cases h2 : maxs.length > 1
    · rw [if_pos h2] at h
      cases h
      exact .inr (.inl ⟨rfl, by omega, by omega⟩)
    · rw [if_neg h2] at h
      match mins, maxs, h1, h2, h with
      | [], _, _, _, h => simp at h
      | [a], [], _, _, h => simp at h
      | [a], [b], _, _, h =>
        simp only [List.head?_cons] at h
        split at h
        · cases h
          exact .inr (.inr ⟨a, b, rfl, rfl, rfl, ‹_›⟩)
        · cases h
      | a :: b :: l, _, h1, _, _ => simp at h1
      | [_], a :: b :: l, _, h2, _ => simp at h2

theorem checkLength_error {cs : List Constraint} {e : ValidateError} (h : checkMinMaxLength cs = .error e) :
    Describes cs e ∧ ((kindOf e = 3) ∨ (kindOf e = 4 ∧ AtMostOne cs IsMinLength) ∨
      (kindOf e = 5 ∧ AtMostOne cs IsMinLength ∧ AtMostOne cs IsMaxLength)) := by
  have e1 : (minLengths cs).length ≤ 1 ↔ AtMostOne cs IsMinLength :=
    filterMap_length_le_one _ _ (fun c => by cases c <;> simp [IsMinLength]) cs
  have e2 : (maxLengths cs).length ≤ 1 ↔ AtMostOne cs IsMaxLength :=
    filterMap_length_le_one _ _ (fun c => by cases c <;> simp [IsMaxLength]) cs
  rcases bounds_error h with ⟨rfl, h1⟩ | ⟨rfl, h1, h2⟩ | ⟨a, b, rfl, h1, h2, h3⟩
  · exact ⟨⟨e1.not.1 h1, fun n => mem_minLengths⟩, .inl rfl⟩
  · exact ⟨⟨e2.not.1 h2, fun n => mem_maxLengths⟩, .inr (.inl ⟨rfl, e1.1 h1⟩)⟩
  · exact ⟨⟨mem_minLengths.1 (by rw [h1]; simp), mem_maxLengths.1 (by rw [h2]; simp), h3⟩,
      .inr (.inr ⟨rfl, e1.1 (by rw [h1]; simp), e2.1 (by rw [h2]; simp)⟩)⟩

theorem checkScore_error {cs : List Constraint} {e : ValidateError} (h : checkMinMaxScore cs = .error e) :
    Describes cs e ∧ ((kindOf e = 6) ∨ (kindOf e = 7 ∧ AtMostOne cs IsMinScore) ∨
      (kindOf e = 8 ∧ AtMostOne cs IsMinScore ∧ AtMostOne cs IsMaxScore)) := by
  have e1 : (minScores cs).length ≤ 1 ↔ AtMostOne cs IsMinScore :=
    filterMap_length_le_one _ _ (fun c => by cases c <;> simp [IsMinScore]) cs
  have e2 : (maxScores cs).length ≤ 1 ↔ AtMostOne cs IsMaxScore :=
    filterMap_length_le_one _ _ (fun c => by cases c <;> simp [IsMaxScore]) cs
  rcases bounds_error h with ⟨rfl, h1⟩ | ⟨rfl, h1, h2⟩ | ⟨a, b, rfl, h1, h2, h3⟩
  · exact ⟨⟨e1.not.1 h1, fun n => mem_minScores⟩, .inl rfl⟩
  · exact ⟨⟨e2.not.1 h2, fun n => mem_maxScores⟩, .inr (.inl ⟨rfl, e1.1 h1⟩)⟩
  · exact ⟨⟨mem_minScores.1 (by rw [h1]; simp), mem_maxScores.1 (by rw [h2]; simp), h3⟩,
      .inr (.inr ⟨rfl, e1.1 (by rw [h1]; simp), e2.1 (by rw [h2]; simp)⟩)⟩

/-- A described error of a kind contradicts the check of that kind. -/
theorem describes_kind {cs : List Constraint} {e : ValidateError} (h : Describes cs e) :
    (kindOf e = 0 → checkVertexInclusionExclusion cs ≠ .ok ()) ∧ (kindOf e = 1 → checkEdgeInclusionExclusion cs ≠ .ok ()) ∧
    (kindOf e = 2 → checkCycleInclusionExclusion cs ≠ .ok ()) ∧
    (3 ≤ kindOf e → kindOf e ≤ 5 → checkMinMaxLength cs ≠ .ok ()) ∧ (6 ≤ kindOf e → checkMinMaxScore cs ≠ .ok ()) ∧
    (kindOf e = 3 → ¬ AtMostOne cs IsMinLength) ∧ (kindOf e = 4 → ¬ AtMostOne cs IsMaxLength) ∧
    (kindOf e = 6 → ¬ AtMostOne cs IsMinScore) ∧ (kindOf e = 7 → ¬ AtMostOne cs IsMaxScore) := by
  simp only [ne_eq, checkVertex_ok_iff, checkEdge_ok_iff, checkCycle_ok_iff, checkLength_ok_iff, checkScore_ok_iff]
  cases e with
  | vertices vs =>
    obtain ⟨h1, h2⟩ := h
    obtain ⟨v, hv⟩ := List.exists_mem_of_ne_nil vs h1
    obtain ⟨h3, h4⟩ := (h2 v).1 hv
    simp only [kindOf]
    refine ⟨fun _ hc => ?_, by omega, by omega, by omega, by omega, by omega, by omega, by omega, by omega⟩
    rcases h4 with h4 | ⟨e, he, h4⟩
    · exact (hc v h3).1 h4
    · exact (hc v h3).2 e he h4
  | edges es =>
    obtain ⟨h1, h2⟩ := h
    obtain ⟨v, hv⟩ := List.exists_mem_of_ne_nil es h1
    obtain ⟨h3, h4⟩ := (h2 v).1 hv
    simp only [kindOf]
    exact ⟨by omega, fun _ hc => hc v h3 h4, by omega, by omega, by omega, by omega, by omega, by omega, by omega⟩
  | cycle =>
    simp only [kindOf]
    exact ⟨by omega, by omega, fun _ => h, by omega, by omega, by omega, by omega, by omega, by omega⟩
  | severalMinLength l =>
    simp only [kindOf]
    exact ⟨by omega, by omega, by omega, fun _ _ hc => h.1 hc.1, by omega, fun _ => h.1, by omega, by omega, by omega⟩
  | severalMaxLength l =>
    simp only [kindOf]
    exact ⟨by omega, by omega, by omega, fun _ _ hc => h.1 hc.2.1, by omega, by omega, fun _ => h.1, by omega, by omega⟩
  | minMaxLength a b =>
    simp only [kindOf]
    obtain ⟨h1, h2, h3⟩ := h
    exact ⟨by omega, by omega, by omega, fun _ _ hc => absurd (hc.2.2 a b h1 h2) (by omega), by omega, by omega, by omega, by omega,
      by omega⟩
  | severalMinScore l =>
    simp only [kindOf]
    exact ⟨by omega, by omega, by omega, by omega, fun _ hc => h.1 hc.1, by omega, by omega, fun _ => h.1, by omega⟩
  | severalMaxScore l =>
    simp only [kindOf]
    exact ⟨by omega, by omega, by omega, by omega, fun _ hc => h.1 hc.2.1, by omega, by omega, by omega, fun _ => h.1⟩
  | minMaxScore a b =>
    simp only [kindOf]
    obtain ⟨h1, h2, h3⟩ := h
    exact ⟨by omega, by omega, by omega, by omega, fun _ hc => absurd (hc.2.2 a b h1 h2) (by omega), by omega, by omega, by omega,
      by omega⟩

/-- The error of `validate` describes a real conflict, of the first kind for which there is one. -/
theorem validate_error {cs : List Constraint} {e : ValidateError} (h : validate cs = .error e) :
    Describes cs e ∧ ∀ e', Describes cs e' → kindOf e ≤ kindOf e' := by
  rw [validate_unfold] at h
  cases hv : checkVertexInclusionExclusion cs with
  | error x =>
    rw [hv] at h
    cases h
    obtain ⟨h1, h2⟩ := checkVertex_error hv
    exact ⟨h2, fun e' _ => by omega⟩
  | ok u =>
    rw [hv] at h
    cases he : checkEdgeInclusionExclusion cs with
    | error x =>
      rw [he] at h
      cases h
      obtain ⟨h1, h2⟩ := checkEdge_error he
      refine ⟨h2, fun e' hd => ?_⟩
      have k0 := (describes_kind hd).1
      by_contra hlt
      exact k0 (by omega) hv
    | ok u =>
      rw [he] at h
      cases hc : checkCycleInclusionExclusion cs with
      | error x =>
        rw [hc] at h
        cases h
        have := checkCycle_error hc
        subst this
        refine ⟨fun hh => (by rw [checkCycle_ok_iff.2 hh] at hc; cases hc), fun e' hd => ?_⟩
        obtain ⟨k0, k1, _⟩ := describes_kind hd
        by_contra hlt
        change ¬ 2 ≤ kindOf e' at hlt
        have : kindOf e' = 0 ∨ kindOf e' = 1 := by omega
        rcases this with h | h
        · exact k0 h hv
        · exact k1 h he
      | ok u =>
        rw [hc] at h
        cases hl : checkMinMaxLength cs with
        | error x =>
          rw [hl] at h
          cases h
          obtain ⟨h1, h2⟩ := checkLength_error hl
          refine ⟨h1, fun e' hd => ?_⟩
          obtain ⟨k0, k1, k2, _, _, k5, k6, _⟩ := describes_kind hd
          by_contra hlt
          have : kindOf e' = 0 ∨ kindOf e' = 1 ∨ kindOf e' = 2 ∨ (3 ≤ kindOf e' ∧ kindOf e' < kindOf e) := by omega
          rcases this with h | h | h | h
          · exact k0 h hv
          · exact k1 h he
          · exact k2 h hc
          · rcases h2 with h2 | ⟨h2, h3⟩ | ⟨h2, h3, h4⟩
            · omega
            · exact k5 (by omega) h3
            · have : kindOf e' = 3 ∨ kindOf e' = 4 := by omega
              rcases this with h | h
              · exact k5 h h3
              · exact k6 h h4
        | ok u =>
          rw [hl] at h
          cases hs : checkMinMaxScore cs with
          | ok u => rw [hs] at h; cases h
          | error x =>
            rw [hs] at h
            cases h
            obtain ⟨h1, h2⟩ := checkScore_error hs
            refine ⟨h1, fun e' hd => ?_⟩
            obtain ⟨k0, k1, k2, k3, _, _, _, k7, k8⟩ := describes_kind hd
            by_contra hlt
            have : kindOf e' = 0 ∨ kindOf e' = 1 ∨ kindOf e' = 2 ∨ (3 ≤ kindOf e' ∧ kindOf e' ≤ 5) ∨
              (6 ≤ kindOf e' ∧ kindOf e' < kindOf e) := by omega
            rcases this with h | h | h | h | h
            · exact k0 h hv
            · exact k1 h he
            · exact k2 h hc
            · exact k3 h.1 h.2 hl
            · rcases h2 with h2 | ⟨h2, h3⟩ | ⟨h2, h3, h4⟩
              · omega
              · exact k7 (by omega) h3
              · have : kindOf e' = 6 ∨ kindOf e' = 7 := by omega
                rcases this with h | h
                · exact k7 h h3
                · exact k8 h h4

end GC
