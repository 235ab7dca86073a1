/-
Property C110: the comparisons of vertices, edges, cycles and scored paths.
-/
import Verif.Spec.Compare
import Verif.Props.Cycle
import Mathlib.Tactic.Tauto
namespace GC

theorem cmpU64_lt {a b : UInt64} : cmpU64 a b = .lt ↔ a < b := by
  unfold cmpU64; split
  · simp_all
  · split <;> simp_all

theorem cmpU64_eq {a b : UInt64} : cmpU64 a b = .eq ↔ a = b := by
  unfold cmpU64; split
  · rename_i h; simp; rintro rfl; exact UInt64.lt_irrefl _ h
  · split <;> simp_all

theorem cmpU64_gt {a b : UInt64} : cmpU64 a b = .gt ↔ b < a := by
  unfold cmpU64; split
  · rename_i h; simp only [reduceCtorEq, false_iff]; exact UInt64.lt_asymm h
  · split
    · rename_i h; subst h; simp [UInt64.lt_irrefl]
    · rename_i h h'
      simp only [true_iff]
      rcases UInt64.lt_or_eq_of_le (UInt64.not_lt.1 h) with k | k
      · exact k
      · exact absurd k.symm h'

theorem weakOrder_u64 : WeakOrder cmpU64 where
  swap a b := by
    rcases e : cmpU64 a b with _ | _ | _
    · exact cmpU64_gt.2 (cmpU64_lt.1 e)
    · exact cmpU64_eq.2 (cmpU64_eq.1 e).symm
    · exact cmpU64_lt.2 (cmpU64_gt.1 e)
  trans a b c h1 h2 h3 := by
    rw [cmpU64_gt] at h3
    have k1 : a ≤ b := UInt64.not_lt.1 fun c => h1 (cmpU64_gt.2 c)
    have k2 : b ≤ c := UInt64.not_lt.1 fun c => h2 (cmpU64_gt.2 c)
    exact UInt64.not_lt.2 (UInt64.le_trans k1 k2) h3

theorem cmpI64_lt {a b : Int} : cmpI64 a b = .lt ↔ a < b := by
  unfold cmpI64; split
  · simp_all
  · split <;> simp_all

theorem cmpI64_eq {a b : Int} : cmpI64 a b = .eq ↔ a = b := by
  unfold cmpI64; split
  · simp; omega
  · split <;> simp_all

theorem cmpI64_gt {a b : Int} : cmpI64 a b = .gt ↔ b < a := by
  unfold cmpI64; split
  · simp; omega
  · split <;> simp <;> omega

/-! ### C110 -/

/-- C110: the order of vertices is lawful, and it is the order of the ids. -/
theorem C110_vertices : LawfulOrd VertexId.cmp ∧ ∀ a b : VertexId, a.cmp b = .lt ↔ a.id.toNat < b.id.toNat := by
  refine ⟨⟨⟨fun a b => weakOrder_u64.swap _ _, fun a b c => weakOrder_u64.trans _ _ _⟩, fun a b => ?_⟩, fun a b => ?_⟩
  · refine cmpU64_eq.trans ⟨fun h => ?_, fun h => h ▸ rfl⟩
    cases a; cases b; exact congrArg _ h
  · exact cmpU64_lt.trans UInt64.lt_iff_toNat_lt

theorem ord_not_gt {o : Ordering} : o ≠ .gt ↔ o = .lt ∨ o = .eq := by cases o <;> simp

/-- In a lawful order smaller and not greater compose. -/
theorem LawfulOrd.lt_of {α : Type} {cmp : α → α → Ordering} (h : LawfulOrd cmp) {a b c : α} (h1 : cmp a b = .lt) (h2 : cmp b c = .lt) :
    cmp a c = .lt := by
  rcases ord_not_gt.1 (h.trans a b c (by rw [h1]; decide) (by rw [h2]; decide)) with e | e
  · exact e
  · rw [h.eq] at e
    subst e
    rw [h.swap, h2] at h1
    cases h1

theorem lawful_vec {α : Type} {cmp : α → α → Ordering} (h : LawfulOrd cmp) : LawfulOrd (cmpVec cmp) := by
  have heq : ∀ l m, cmpVec cmp l m = .eq ↔ l = m := by
    intro l
    induction l with
    | nil => intro m; cases m <;> simp [cmpVec]
    | cons a l ih =>
      intro m
      cases m with
      | nil => simp [cmpVec]
      | cons b m =>
        rw [cmpVec, List.cons.injEq, ← h.eq]
        rcases cmp a b with _ | _ | _ <;> simp [ih]
  refine ⟨⟨?_, ?_⟩, heq⟩
  · intro l
    induction l with
    | nil => intro m; cases m <;> rfl
    | cons a l ih =>
      intro m
      cases m with
      | nil => rfl
      | cons b m =>
        rw [cmpVec, cmpVec, h.swap a b, ih m]
        rcases cmp a b with _ | _ | _ <;> rfl
  · intro l
    induction l with
    | nil => intro m k h1 h2; cases k <;> simp [cmpVec]
    | cons a l ih =>
      intro m k h1 h2
      cases m with
      | nil => exact absurd rfl h1
      | cons b m =>
        cases k with
        | nil => exact absurd rfl h2
        | cons c k =>
          rw [cmpVec] at h1 h2 ⊢
          rcases e1 : cmp a b with _ | _ | _ <;> rw [e1] at h1
          · rcases e2 : cmp b c with _ | _ | _ <;> rw [e2] at h2
            · rw [h.lt_of e1 e2]; intro c; cases c
            · rw [h.eq] at e2; subst e2; rw [e1]; intro c; cases c
            · exact absurd rfl h2
          · rw [h.eq] at e1
            subst e1
            rcases e2 : cmp a c with _ | _ | _ <;> rw [e2] at h2
            · intro c; cases c
            · exact ih m k h1 h2
            · exact absurd rfl h2
          · exact absurd rfl h1

/-- C110: the order of edges is lawful, and it compares the starts and then the ends. -/
theorem C110_edges : LawfulOrd Edge.cmp ∧
    ∀ e f : Edge, e.cmp f = .lt ↔ e.src.id.toNat < f.src.id.toNat ∨ e.src = f.src ∧ e.dst.id.toNat < f.dst.id.toNat := by
  obtain ⟨hv, hlt⟩ := C110_vertices
  have key : ∀ e f : Edge, e.cmp f = cmpVec VertexId.cmp [e.src, e.dst] [f.src, f.dst] := by
    intro e f
    rw [Edge.cmp, cmpVec, cmpVec, cmpVec]
    rcases e.src.cmp f.src with _ | _ | _ <;> rcases e.dst.cmp f.dst with _ | _ | _ <;> rfl
  have hl := lawful_vec hv
  refine ⟨⟨⟨fun e f => ?_, fun e f g => ?_⟩, fun e f => ?_⟩, fun e f => ?_⟩
  · rw [key, key, hl.swap]
  · rw [key, key, key]; exact hl.trans _ _ _
  · rw [key, hl.eq]; cases e; cases f; simp
  · rw [Edge.cmp, ← hlt, ← hlt, ← hv.eq]
    rcases e.src.cmp f.src with _ | _ | _ <;> simp

/-- C110: the order of cycles is lawful, and it is the order of a dictionary. -/
theorem C110_cycles : LawfulOrd Cycle.cmp ∧ ∀ c d : Cycle, c.cmp d = .lt ↔ DictionaryLess c.vertices d.vertices := by
  obtain ⟨hv, hlt⟩ := C110_vertices
  have hl := lawful_vec hv
  refine ⟨⟨⟨fun c d => hl.swap _ _, fun c d e => hl.trans _ _ _⟩, fun c d => (hl.eq _ _).trans ?_⟩, fun c d => ?_⟩
  · cases c; cases d; simp
  · rcases c with ⟨l⟩
    rcases d with ⟨m⟩
    show cmpVec VertexId.cmp l m = .lt ↔ DictionaryLess l m
    induction l generalizing m with
    | nil =>
      cases m with
      | nil => simp [cmpVec, DictionaryLess]
      | cons b m => simp [cmpVec, DictionaryLess]
    | cons a l ih =>
      cases m with
      | nil => simp [cmpVec, DictionaryLess]
      | cons b m =>
        rw [cmpVec]
        rcases e : a.cmp b with _ | _ | _
        · simp only [true_iff]
          exact .inl ⟨[], a, b, l, m, rfl, rfl, cmpU64_lt.1 e⟩
        · rw [hv.eq] at e
          subst e
          refine (ih m).trans ?_
          constructor
          · rintro (⟨p, x, y, s, t, rfl, rfl, hxy⟩ | ⟨y, t, rfl⟩)
            · exact .inl ⟨a :: p, x, y, s, t, rfl, rfl, hxy⟩
            · exact .inr ⟨y, t, rfl⟩
          · rintro (⟨p, x, y, s, t, h1, h2, hxy⟩ | ⟨y, t, h⟩)
            · cases p with
              | nil =>
                simp only [List.nil_append, List.cons.injEq] at h1 h2
                rw [← h1.1, ← h2.1] at hxy
                exact absurd hxy (UInt64.lt_irrefl _)
              | cons z p =>
                simp only [List.cons_append, List.cons.injEq] at h1 h2
                exact .inl ⟨p, x, y, s, t, h1.2, h2.2, hxy⟩
            · simp only [List.cons_append, List.cons.injEq, true_and] at h
              exact .inr ⟨y, t, h⟩
        · have hgt : b.id < a.id := cmpU64_gt.1 e
          simp only [reduceCtorEq, false_iff]
          rintro (⟨p, x, y, s, t, h1, h2, hxy⟩ | ⟨y, t, h⟩)
          · cases p with
            | nil =>
              simp only [List.nil_append, List.cons.injEq] at h1 h2
              rw [← h1.1, ← h2.1] at hxy
              exact UInt64.lt_asymm hxy hgt
            | cons z p =>
              simp only [List.cons_append, List.cons.injEq] at h1 h2
              rw [h1.1, h2.1] at hgt
              exact UInt64.lt_irrefl _ hgt
          · simp only [List.cons_append, List.cons.injEq] at h
            rw [h.1] at hgt
            exact UInt64.lt_irrefl _ hgt

/-- C110: the canonical form of a cycle is the least of its rotations. -/
theorem C110_canonical_least (c d : Cycle) (hc : c.vertices.Nodup) (h : Cycle.canonical c = .done d) (e : Cycle)
    (he : c.vertices ~r e.vertices) : d.cmp e = .lt ∨ d = e := by
  have hne : c.vertices ≠ [] := by
    intro hn
    rcases c with ⟨l⟩
    dsimp only at hn
    subst hn
    cases h
  obtain ⟨d1, k1, k2, k3⟩ := canonical_spec c.vertices hne
  have k1' : Cycle.canonical c = .done ⟨d1⟩ := k1
  rw [h] at k1'
  cases Run.done.inj k1'
  have hce : e.vertices ≠ [] := fun hn => hne (by have := he.perm; rw [hn] at this; exact this.eq_nil)
  by_cases hs : SmallestFirst e.vertices
  · right
    have := (canonical_eq_iff hc hne).2 ⟨he, hs⟩
    have h' : Cycle.canonical ⟨c.vertices⟩ = .done ⟨d1⟩ := h
    rw [h'] at this
    cases e
    exact Run.done.inj this
  · left
    obtain ⟨m, hm, hmin⟩ := k3
    rcases e with ⟨_ | ⟨x, l⟩⟩
    · exact absurd rfl hce
    rcases d1 with _ | ⟨y, d1⟩
    · cases hm
    cases Option.some.inj hm
    have hxm : x ∈ m :: d1 := (k2.symm.trans he).mem_iff.2 (by simp)
    have hle : m.id ≤ x.id := hmin x hxm
    have hlt : m.id < x.id := by
      rcases UInt64.lt_or_eq_of_le hle with k | k
      · exact k
      · exfalso
        apply hs
        refine ⟨x, rfl, fun z hz => ?_⟩
        rw [← k]
        exact hmin z ((k2.symm.trans he).mem_iff.2 hz)
    show cmpVec VertexId.cmp (m :: d1) (x :: l) = .lt
    rw [cmpVec, show m.cmp x = .lt from cmpU64_lt.2 hlt]

/-- `C110_canonical_least` for the cycle 5 → 2 → 9: its canonical writing 2, 9, 5 precedes 9, 5, 2. -/
example : (Cycle.mk [2, 9, 5]).cmp ⟨[9, 5, 2]⟩ = .lt ∨ Cycle.mk [2, 9, 5] = ⟨[9, 5, 2]⟩ :=
  C110_canonical_least ⟨[5, 2, 9]⟩ _ (by decide) (by decide) _ ⟨2, rfl⟩

/-- C110: scored paths are compared by their scores alone: the comparison is a weak order, and `partial_cmp` agrees with `cmp`. -/
theorem C110_scored_paths_partial : WeakOrder ScoredPath.cmp ∧ ∀ a b : ScoredPath, a.partialCmp b = some (a.cmp b) ∧
    (a.cmp b = .lt ↔ a.score < b.score) ∧ (a.cmp b = .eq ↔ a.score = b.score) ∧ (a.cmp b ≠ .gt ↔ a.le b = true) := by
  refine ⟨⟨fun a b => ?_, fun a b c h1 h2 h3 => ?_⟩, fun a b => ⟨rfl, cmpI64_lt, cmpI64_eq, ?_⟩⟩
  · unfold ScoredPath.cmp
    rcases e : cmpI64 a.score b.score with _ | _ | _
    · exact cmpI64_gt.2 (cmpI64_lt.1 e)
    · exact cmpI64_eq.2 (cmpI64_eq.1 e).symm
    · exact cmpI64_lt.2 (cmpI64_gt.1 e)
  · unfold ScoredPath.cmp at *
    simp only [ne_eq, cmpI64_gt] at *
    omega
  · unfold ScoredPath.cmp ScoredPath.le
    rw [ne_eq, cmpI64_gt]
    simp

/-- C110 is false for scored paths: `cmp` calls any two paths of one score equal, `==` does not. -/
theorem C110_scored_paths_counterexample (p q : Path) (h : p ≠ q) (score : Int) :
    (ScoredPath.mk p score).cmp ⟨q, score⟩ = .eq ∧ ScoredPath.mk p score ≠ ⟨q, score⟩ ∧ ¬ LawfulOrd ScoredPath.cmp := by
  have h1 : (ScoredPath.mk p score).cmp ⟨q, score⟩ = .eq := cmpI64_eq.2 rfl
  have h2 : ScoredPath.mk p score ≠ ⟨q, score⟩ := fun c => h (ScoredPath.mk.inj c).1
  exact ⟨h1, h2, fun hl => h2 ((hl.eq _ _).1 h1)⟩

/-- C110: an edge made from a pair goes from the first to the second vertex, and reversing it swaps them. -/
theorem C110_edge_from (a b : VertexId) : (Edge.from (a, b)).src = a ∧ (Edge.from (a, b)).dst = b ∧
    (Edge.from (a, b)).reverse = Edge.from (b, a) := ⟨rfl, rfl, rfl⟩

section Examples

/-- Two edges with the same start. -/
example : (Edge.mk 1 2).cmp ⟨1, 5⟩ = .lt ∧ (Edge.mk 1 9).cmp ⟨2, 0⟩ = .lt := by decide +kernel

/-- A longer cycle can come first. -/
example : (Cycle.mk [1, 2, 3]).cmp ⟨[1, 3]⟩ = .lt ∧ (Cycle.mk [1, 3]).cmp ⟨[1, 3, 2]⟩ = .lt := by decide +kernel

/-- The canonical form of a cycle of three vertices. -/
example : Cycle.canonical ⟨[5, 2, 9]⟩ = .done ⟨[2, 9, 5]⟩ ∧ (Cycle.mk [2, 9, 5]).cmp ⟨[5, 2, 9]⟩ = .lt := by decide +kernel

/-- Two paths of one score. -/
example : (⟨[1, 2]⟩ : Path) ≠ ⟨[1, 3]⟩ ∧ (ScoredPath.mk ⟨[1, 2]⟩ 1).cmp ⟨⟨[1, 3]⟩, 1⟩ = .eq := by decide +kernel

end Examples

end GC
