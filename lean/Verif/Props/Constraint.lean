/-
Properties C18-C22: paths, constraints, constraint validation.
-/
import Verif.Proofs.Checker
namespace GC
open Path

/-! ### C18 -/

/-- C18: the path predicates have their positional meaning. -/
theorem C18_path_queries (p : Path) (v : VertexId) (e : Edge) :
    (p.containsVertex v = true ↔ ∃ i : Nat, p.vertices[i]? = some v) ∧
    (p.containsEdge e = true ↔ ∃ i : Nat, p.vertices[i]? = some e.src ∧ p.vertices[i + 1]? = some e.dst) ∧
    (p.containsCycle = true ↔ ∃ (i j : Nat) (u : VertexId), i < j ∧ p.vertices[i]? = some u ∧ p.vertices[j]? = some u) := by
  refine ⟨?_, pathContainsEdge_iff, containsCycle_iff⟩
  rw [containsVertex_iff_mem, List.mem_iff_getElem?]

/-- C18: the edge list consists of exactly the consecutive pairs, in order. -/
theorem C18_edge_list (p : Path) (i : Nat) (e : Edge) :
    p.toEdgeList.length = p.size - 1 ∧
    (p.toEdgeList[i]? = some e ↔ p.vertices[i]? = some e.src ∧ p.vertices[i + 1]? = some e.dst) :=
  ⟨length_edgesOf _, edgesOf_getElem? _ _ _⟩

/-- C18: `append` adds one vertex at the end and changes nothing else. -/
theorem C18_append (p : Path) (v : VertexId) :
    (p.append v).size = p.size + 1 ∧ (p.append v).last = some v ∧
    (∀ i, i < p.size → (p.append v).vertices[i]? = p.vertices[i]?) ∧
    (p.isEmpty = false → (p.append v).first = p.first) ∧
    (∀ u, p.last = some u → (p.append v).toEdgeList = p.toEdgeList ++ [⟨u, v⟩]) := by
  refine ⟨by simp [append, size], by simp [append, last], ?_, ?_, ?_⟩
  · intro i hi
    exact List.getElem?_append_left hi
  · intro h
    unfold isEmpty at h
    cases hv : p.vertices with
    | nil => simp [hv] at h
    | cons a l => simp [append, first, hv]
  · intro u hu
    unfold append toEdgeList last at *
    simp only
    generalize p.vertices = l at *
    induction l with
    | nil => simp at hu
    | cons a l ih =>
      cases l with
      | nil => simp at hu; subst hu; rfl
      | cons b l =>
        rw [List.getLast?_cons_cons] at hu
        have := ih hu
        simp only [List.cons_append] at this ⊢
        rw [edgesOf, edgesOf, this]
        rfl

example : (Path.mk [1, 2, 3, 1]).containsCycle = true ∧ (Path.mk [1, 2, 3, 1]).containsEdge ⟨3, 1⟩ = true ∧
    (Path.mk [1, 2, 3, 1]).containsEdge ⟨2, 1⟩ = false ∧ (Path.mk [1, 2, 3]).containsCycle = false ∧
    ((Path.mk [1, 2]).append 9).toEdgeList = [⟨1, 2⟩, ⟨2, 9⟩] := by decide

/-! ### C19 -/

/-- C19: `check_complete` computes the documented meaning of every constraint expression. -/
theorem C19_check_complete_meaning (c : Constraint) (sp : ScoredPath) :
    c.checkComplete sp = true ↔ Satisfies sp c := checkComplete_iff c sp

example : Constraint.checkComplete (.Xor (.ContainsVertex 2) (.Not (.And .ContainsCycle (.MaxLength 3))))
    ⟨⟨[1, 2, 1, 4]⟩, 3⟩ = false := by decide

/-! ### C20 -/

/-- C20: if `check_partial` rejects a path, then no extension of it (same beginning, score not smaller) satisfies the constraint,
as decided by `check_complete`. -/
theorem C20_never_prunes_solutions (c : Constraint) (p q : ScoredPath)
    (hpre : p.path.vertices <+: q.path.vertices) (hscore : p.score ≤ q.score)
    (hrej : c.checkPartial p = false) : c.checkComplete q = false := by
  rw [← Bool.not_eq_true, checkComplete_iff]
  intro hs
  rw [checkPartial_of_satisfies c hpre hscore hs] at hrej
  cases hrej

/-- C20: rejection is permanent: an extension of a rejected partial path cannot be accepted by `check_complete`, and
in particular the empty extension is not. -/
theorem C20_prefix_check_weaker (c : Constraint) (p : ScoredPath) (h : c.checkComplete p = true) :
    c.checkPartial p = true := by
  by_contra hc
  rw [C20_never_prunes_solutions c p p (List.prefix_refl _) (Int.le_refl _) (by simpa using hc)] at h
  cases h

/-- C20: what the partial check looks at. -/
theorem C20_check_meaning (c : Constraint) (sp : ScoredPath) : c.checkPartial sp = true ↔ NotYetBroken sp c :=
  checkPartial_iff c sp

/-- C20: for the simple constraints nothing is kept in vain either: a path is rejected exactly when no longer path satisfies the constraint. -/
theorem C20_prunes_exactly (c : Constraint) (hc : Simple c) (sp : ScoredPath) :
    c.checkPartial sp = true ↔ CanBeSatisfied sp c := by
  constructor
  · intro h
    have self : ∀ {d : Constraint}, Satisfies sp d → CanBeSatisfied sp d := fun hs => ⟨sp, List.prefix_refl _, Int.le_refl _, hs⟩
    have longer : ∀ {d : Constraint} (l : List VertexId), Satisfies ⟨⟨sp.path.vertices ++ l⟩, sp.score⟩ d → CanBeSatisfied sp d :=
      fun l hs => ⟨⟨⟨sp.path.vertices ++ l⟩, sp.score⟩, List.prefix_append _ _, Int.le_refl _, hs⟩
    rw [checkPartial_iff] at h
    induction hc with
    | vertex v => exact longer [v] ⟨sp.path.vertices.length, by simp [At]⟩
    | edge e =>
      refine longer [e.src, e.dst] ⟨sp.path.vertices.length, ?_, ?_⟩
      · simp [At]
      · unfold At; rw [List.getElem?_append_right (by omega)]; simp
    | ordered l => exact self h
    | cycle =>
      refine longer [⟨0⟩, ⟨0⟩] ⟨sp.path.vertices.length, sp.path.vertices.length + 1, ⟨0⟩, by omega, ?_, ?_⟩
      · simp [At]
      · unfold At; rw [List.getElem?_append_right (by omega)]; simp
    | minLength n => exact longer (List.replicate n ⟨0⟩) (by simp [Satisfies])
    | maxLength n => exact self h
    | minScore s =>
      by_cases hs : s ≤ sp.score
      · exact self hs
      · exact ⟨⟨sp.path, s⟩, List.prefix_refl _, by simp only; omega, Int.le_refl _⟩
    | maxScore s => exact self h
    | notVertex v => exact self h
    | notEdge e => exact self h
    | notCycle => exact self h
    | @or a b _ _ iha ihb =>
      rcases h with h | h
      · obtain ⟨q, h1, h2, h3⟩ := iha h; exact ⟨q, h1, h2, .inl h3⟩
      · obtain ⟨q, h1, h2, h3⟩ := ihb h; exact ⟨q, h1, h2, .inr h3⟩
  · rintro ⟨q, h1, h2, h3⟩
    exact checkPartial_of_satisfies c h1 h2 h3

/-- C20: for other constraints paths may be kept that cannot be completed, here with a negated minimum. -/
theorem C20_keeps_more : Constraint.checkPartial (.Not (.MinLength 2)) ⟨⟨[1, 2]⟩, 1⟩ = true ∧
    ¬ CanBeSatisfied ⟨⟨[1, 2]⟩, 1⟩ (.Not (.MinLength 2)) := by
  refine ⟨rfl, ?_⟩
  rintro ⟨q, h1, _, h3⟩
  exact h3 h1.length_le

/-- `C20_never_prunes_solutions`: a path that visits 3 and is too long is dropped, and no longer path satisfies the constraint. -/
example : Constraint.checkComplete (.Or (.MaxLength 2) (.Not (.ContainsVertex 3))) ⟨⟨[1, 2, 3, 7, 8]⟩, 4⟩ = false :=
  C20_never_prunes_solutions _ ⟨⟨[1, 2, 3]⟩, 2⟩ _ ⟨[7, 8], rfl⟩ (by decide) (by decide)

example : Simple (.Or (.MaxLength 2) (.Not (.ContainsVertex 3))) := .or (.maxLength 2) (.notVertex 3)
example : Constraint.checkPartial (.Or (.MaxLength 2) (.Not (.ContainsVertex 3))) ⟨⟨[1, 2, 3]⟩, 2⟩ = false := by decide

/-! ### C21 -/

/-- C21: the ordered-vertices check accepts exactly the paths in which ranked vertices appear with non-decreasing rank. -/
theorem C21_ordered_vertices (l : List VertexId) (p : Path) :
    Constraint.checkVerticesOrder p l = true ↔
      ∀ (i j : Nat) (u v : VertexId) (a b : Nat), i < j → p.vertices[i]? = some u → p.vertices[j]? = some v →
        Rank l u a → Rank l v b → a ≤ b := checkVerticesOrder_iff

/-- C21 for a list without duplicates: whenever `u` is listed before `v`, no occurrence of `v` in the path precedes an
occurrence of `u`. Vertices of the list that are missing in the path do not matter. -/
theorem C21_ordered_vertices_nodup (l : List VertexId) (hl : l.Nodup) (p : Path) :
    Constraint.checkVerticesOrder p l = true ↔
      ∀ (a b : Nat) (u v : VertexId), a < b → l[a]? = some u → l[b]? = some v →
        ∀ i j : Nat, p.vertices[i]? = some u → p.vertices[j]? = some v → i < j := by
  rw [C21_ordered_vertices]
  have hrank : ∀ v k, Rank l v k ↔ l[k]? = some v := by
    intro v k
    refine ⟨fun h => h.1, fun h => ⟨h, fun j hj hc => ?_⟩⟩
    have h1 := (List.nodup_iff_getElem?_ne_getElem?.1 hl) k j hj (List.getElem?_eq_some_iff.1 hc).1
    exact h1 (h.trans hc.symm)
  simp only [hrank]
  constructor
  · intro h a b u v hab ha hb i j hi hj
    rcases Nat.lt_trichotomy i j with hij | hij | hij
    · exact hij
    · subst hij
      rw [hi] at hj
      have : u = v := Option.some.inj hj
      subst this
      exact absurd (ha.trans hb.symm) ((List.nodup_iff_getElem?_ne_getElem?.1 hl) a b hab (List.getElem?_eq_some_iff.1 hb).1)
    · have := h j i v u b a hij hj hi hb ha
      omega
  · intro h i j u v a b hij hi hj ha hb
    by_contra hc
    have := h b a v u (by omega) hb ha j i hj hi
    omega

example : Constraint.checkVerticesOrder ⟨[9, 1, 4, 1, 3]⟩ [1, 2, 3] = true ∧
    Constraint.checkVerticesOrder ⟨[1, 3, 2]⟩ [1, 2, 3] = false := by decide

/-! ### C22 -/

/-- C22: exactly which constraint lists `validate` accepts. -/
theorem C22_validate_accepts_iff (cs : List Constraint) :
    Checker.validate cs = .ok () ↔ Acceptable cs := validate_ok_iff cs

/-- C22 (partial): a rejected list is either truly unsatisfiable, or repeats a min/max constraint (the documented rule), or
mentions cycles not at all. Missing: the last case is a rejection that is not justified (`C22_counterexample`). -/
theorem C22_rejections_justified_partial (cs : List Constraint) (e : Checker.ValidateError)
    (h : Checker.validate cs = .error e) :
    Unsatisfiable cs ∨ RepeatsBound cs ∨
      (e = .cycle ∧ .ContainsCycle ∉ cs ∧ .Not .ContainsCycle ∉ cs) := by
  by_cases h1 : Acceptable cs
  · rw [(validate_ok_iff cs).2 h1] at h; cases h
  · by_cases h2 : RepeatsBound cs
    · exact .inr (.inl h2)
    · by_cases h3 : Unsatisfiable cs
      · exact .inl h3
      · refine .inr (.inr ?_)
        have hsat : ∃ sp : ScoredPath, ∀ c ∈ cs, Satisfies sp c := by
          by_contra hc
          exact h3 fun sp hsp => hc ⟨sp, hsp⟩
        obtain ⟨sp, hsp⟩ := hsat
        have hv : Checker.checkVertexInclusionExclusion cs = .ok () := by
          rw [checkVertex_ok_iff]
          intro v hv
          refine ⟨fun hc => hsp _ hv (hsp _ hc), ?_⟩
          rintro ed hed hc
          have : Traverses sp.path ed := hsp _ hc
          obtain ⟨i, hi1, hi2⟩ := this
          rcases hed with rfl | rfl
          · exact hsp _ hv ⟨i, hi1⟩
          · exact hsp _ hv ⟨i + 1, hi2⟩
        have he : Checker.checkEdgeInclusionExclusion cs = .ok () := by
          rw [checkEdge_ok_iff]
          intro ed h1 h2
          exact hsp _ h2 (hsp _ h1)
        have hl : Checker.checkMinMaxLength cs = .ok () := by
          rw [checkLength_ok_iff]
          refine ⟨?_, ?_, fun a b ha hb => ?_⟩
          · by_contra hc; exact h2 (.inl hc)
          · by_contra hc; exact h2 (.inr (.inl hc))
          · have h1 : a ≤ sp.path.vertices.length := hsp _ ha
            have h2 : sp.path.vertices.length ≤ b := hsp _ hb
            omega
        have hs : Checker.checkMinMaxScore cs = .ok () := by
          rw [checkScore_ok_iff]
          refine ⟨?_, ?_, fun a b ha hb => ?_⟩
          · by_contra hc; exact h2 (.inr (.inr (.inl hc)))
          · by_contra hc; exact h2 (.inr (.inr (.inr hc)))
          · have h1 : a ≤ sp.score := hsp _ ha
            have h2 : sp.score ≤ b := hsp _ hb
            omega
        cases hc : Checker.checkCycleInclusionExclusion cs with
        | ok u =>
          exfalso
          rw [validate_unfold, hv, he, hc, hl, hs] at h
          cases h
        | error e' =>
          rw [validate_unfold, hv, he, hc] at h
          have hee : e' = e := by cases h; rfl
          have hcyc : ¬ (.ContainsCycle ∈ cs ↔ .Not .ContainsCycle ∉ cs) := by
            rw [← checkCycle_ok_iff, hc]; simp
          have hboth : ¬ (.ContainsCycle ∈ cs ∧ .Not .ContainsCycle ∈ cs) := fun hb =>
            hsp _ hb.2 (hsp _ hb.1)
          refine ⟨?_, ?_, ?_⟩
          · rw [← hee]
            exact checkCycle_error hc
          · tauto
          · tauto

/-- C22: the error reported describes a conflict that is in the list, names all offenders of its kind, and no conflict of a kind that is
looked for earlier is in the list. -/
theorem C22_error_describes (cs : List Constraint) (e : Checker.ValidateError) (h : Checker.validate cs = .error e) :
    Describes cs e ∧ ∀ e', Describes cs e' → kindOf e ≤ kindOf e' := validate_error h

example : Checker.validate [.ContainsCycle, .MaxLength 2, .MinScore 4, .MaxLength 3, .MaxScore 1] = .error (.severalMaxLength [2, 3]) ∧
    Checker.validate [.ContainsCycle, .MaxLength 2, .MinScore 4, .MaxScore 1] = .error (.minMaxScore 4 1) := by decide

/-- C22 is false as documented: the empty list, and any list that does not mention cycles, is rejected although satisfiable. -/
theorem C22_counterexample :
    Checker.validate [.ContainsVertex 1] = .error .cycle ∧ ¬ Unsatisfiable [.ContainsVertex 1] ∧
    Checker.validate [] = .error .cycle ∧ ¬ Unsatisfiable [] := by
  refine ⟨by decide, ?_, by decide, ?_⟩
  · intro h
    refine h ⟨⟨[1]⟩, 0⟩ ?_
    intro c hc
    simp only [List.mem_singleton] at hc
    subst hc
    exact ⟨0, rfl⟩
  · intro h
    exact h ⟨⟨[1]⟩, 0⟩ (by simp)

example : Checker.validate [.ContainsCycle, .MinLength 2, .MaxLength 5, .Not (.ContainsVertex 3)] = .ok () ∧
    Checker.validate [.ContainsCycle, .ContainsEdge ⟨2, 3⟩, .Not (.ContainsVertex 3)] = .error (.vertices [3]) := by
  decide

end GC
