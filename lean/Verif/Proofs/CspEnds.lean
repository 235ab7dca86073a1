/-
Lemmas for Props/CspEnds.lean: walks that go on for ever.
-/
import Verif.Spec.CspEnds
import Verif.Proofs.Main
import Verif.Proofs.Args
import Verif.Proofs.Iter
import Mathlib.Data.Finset.Lattice.Fold
import Mathlib.Data.Finset.Prod
import Mathlib.Combinatorics.Pigeonhole
namespace GC
open Main Text Args DirectedGraph

theorem notYetBroken_options (a : CspArgs) (l : List VertexId) :
    (∀ c ∈ cspConstraints a, NotYetBroken ⟨⟨l⟩, (l.length : Int) - 1⟩ c) ↔ StillOpen a l := by
  simp only [cspConstraints, List.forall_mem_append, and_assoc]
  have hi : (∀ c ∈ ((a.include_.bind parseVertexIdList).map buildInclude).getD [], NotYetBroken ⟨⟨l⟩, (l.length : Int) - 1⟩ c) ↔ True := by
    rw [forall_getD_map, forall_bind]
    simp [buildInclude, NotYetBroken]
  have he : (∀ c ∈ ((a.exclude.bind parseVertexIdList).map buildExclude).getD [], NotYetBroken ⟨⟨l⟩, (l.length : Int) - 1⟩ c) ↔
      (∀ t vs, a.exclude = some t → ArgIds t vs → ∀ v ∈ vs, ¬ Visits ⟨l⟩ v) := by
    rw [forall_getD_map, forall_bind]
    simp [parseVertexIdList_iff, buildExclude, NotYetBroken]
  have ho : (∀ c ∈ ((a.ordered.bind parseVertexIdList).map buildOrdered).toList, NotYetBroken ⟨⟨l⟩, (l.length : Int) - 1⟩ c) ↔
      (∀ t vs, a.ordered = some t → ArgIds t vs → InOrder vs ⟨l⟩) := by
    rw [forall_toList_map, forall_bind]
    simp [parseVertexIdList_iff, buildOrdered, NotYetBroken]
  have hc : (∀ c ∈ (optionOf a.includeCycle buildIncludeCycle).toList, NotYetBroken ⟨⟨l⟩, (l.length : Int) - 1⟩ c) ↔ True := by
    cases a.includeCycle <;> simp [optionOf, buildIncludeCycle, NotYetBroken]
  have hn : (∀ c ∈ (optionOf a.noCycle buildNoCycle).toList, NotYetBroken ⟨⟨l⟩, (l.length : Int) - 1⟩ c) ↔
      (a.noCycle = true → ¬ RepeatsVertex ⟨l⟩) := by
    cases a.noCycle <;> simp [optionOf, buildNoCycle, NotYetBroken]
  rw [hi, he, ho, hc, hn]
  have h3 : (∀ c ∈ ((a.exactLength.bind parseUsize).map buildExactLength).getD [], NotYetBroken ⟨⟨l⟩, (l.length : Int) - 1⟩ c) ↔
      (∀ s n, a.exactLength = some s → ArgNat s n → l.length ≤ n) := by
    rw [forall_getD_map, forall_bind]
    simp [parseUsize_iff, buildExactLength, NotYetBroken]
  have h6 : (∀ c ∈ ((a.exactScore.bind parseI64).map buildExactScore).getD [], NotYetBroken ⟨⟨l⟩, (l.length : Int) - 1⟩ c) ↔
      (∀ s i, a.exactScore = some s → ArgInt s i → (l.length : Int) - 1 ≤ i) := by
    rw [forall_getD_map, forall_bind]
    simp only [parseI64_iff, buildExactScore, List.mem_cons, List.not_mem_nil, or_false, forall_eq_or_imp, forall_eq, NotYetBroken, true_and]
  rw [h3, h6]
  simp only [forall_toList_map, forall_bind, parseUsize_iff, parseI64_iff, buildMinLength, buildMaxLength, buildMinScore, buildMaxScore,
    NotYetBroken, StillOpen, Allowed, or_imp, forall_and]
  tauto

/-- The order between two vertices of a walk. -/
def RankLe (vs : List VertexId) (u v : VertexId) : Prop := ∀ a b, Rank vs u a → Rank vs v b → a ≤ b

theorem inOrder_pairwise {vs l : List VertexId} : InOrder vs ⟨l⟩ ↔ l.Pairwise (RankLe vs) := by
  rw [List.pairwise_iff_getElem]
  constructor
  · intro h i j hi hj hij a b
    exact h i j _ _ a b hij (List.getElem?_eq_getElem hi) (List.getElem?_eq_getElem hj)
  · intro h i j u v a b hij hu hv
    obtain ⟨hi, rfl⟩ := List.getElem?_eq_some_iff.1 hu
    obtain ⟨hj, rfl⟩ := List.getElem?_eq_some_iff.1 hv
    exact h i j hi hj hij a b

/-- What `Allowed` says, with the ids of the options read once. -/
theorem allowed_iff (a : CspArgs) : ∃ xs vs : List VertexId, vs.length ≤ (a.ordered.getD []).length ∧
    ∀ l, Allowed a l ↔ (∀ v ∈ xs, v ∉ l) ∧ l.Pairwise (RankLe vs) := by
  have hx : ∃ xs : List VertexId, ∀ l, (∀ t vs, a.exclude = some t → ArgIds t vs → ∀ v ∈ vs, ¬ Visits ⟨l⟩ v) ↔ ∀ v ∈ xs, v ∉ l := by
    have hv : ∀ (l : List VertexId) v, Visits ⟨l⟩ v ↔ v ∈ l := fun l v => List.mem_iff_getElem?.symm
    simp only [hv]
    rcases h : a.exclude with _ | t
    · exact ⟨[], by simp⟩
    · by_cases h' : ∃ vs, ArgIds t vs
      · obtain ⟨xs, h'⟩ := h'
        refine ⟨xs, fun l => ⟨fun k => k t xs rfl h', ?_⟩⟩
        rintro k _ vs ⟨⟩ h2
        have := (parseVertexIdList_iff.2 h2).symm.trans (parseVertexIdList_iff.2 h')
        cases this
        exact k
      · refine ⟨[], fun l => ⟨fun _ => by simp, ?_⟩⟩
        rintro _ _ vs ⟨⟩ h2
        exact absurd ⟨vs, h2⟩ h'
  have ho : ∃ vs : List VertexId, vs.length ≤ (a.ordered.getD []).length ∧
      ∀ l, (∀ t vs, a.ordered = some t → ArgIds t vs → InOrder vs ⟨l⟩) ↔ l.Pairwise (RankLe vs) := by
    have hnil : ∀ l : List VertexId, l.Pairwise (RankLe []) := fun l => inOrder_pairwise.1 fun i j u v a b _ _ _ h => by
      have := h.1
      simp at this
    rcases h : a.ordered with _ | t
    · exact ⟨[], by simp, fun l => ⟨fun _ => hnil l, fun _ => by simp⟩⟩
    · by_cases h' : ∃ vs, ArgIds t vs
      · obtain ⟨xs, h'⟩ := h'
        refine ⟨xs, h'.length_eq.symm.le, fun l => ⟨fun k => inOrder_pairwise.1 (k t xs rfl h'), ?_⟩⟩
        rintro k _ vs ⟨⟩ h2
        have := (parseVertexIdList_iff.2 h2).symm.trans (parseVertexIdList_iff.2 h')
        cases this
        exact inOrder_pairwise.2 k
      · refine ⟨[], by simp, fun l => ⟨fun _ => hnil l, ?_⟩⟩
        rintro _ _ vs ⟨⟩ h2
        exact absurd ⟨vs, h2⟩ h'
  obtain ⟨xs, hx⟩ := hx
  obtain ⟨vs, hl, ho⟩ := ho
  exact ⟨xs, vs, hl, fun l => and_congr (hx l) (ho l)⟩

theorem allowed_prefix {a : CspArgs} {l l' : List VertexId} (h : l <+: l') (h' : Allowed a l') : Allowed a l := by
  obtain ⟨xs, vs, _, e⟩ := allowed_iff a
  rw [e] at h' ⊢
  exact ⟨fun v hv hm => h'.1 v hv (h.subset hm), h'.2.sublist h.sublist⟩

/-- Going round as often as one likes. -/
theorem round_many {g : DirectedGraph} {s : VertexId} {a : CspArgs} (h : RoundTwice g s a) (n : Nat) :
    ∃ l, n ≤ l.length ∧ WalkFrom g s l ∧ Allowed a l := by
  obtain ⟨p, c, hc, ⟨hw, hs⟩, ha⟩ := h
  obtain ⟨xs, vs, _, e⟩ := allowed_iff a
  rw [e] at ha
  have hlen : 0 < c.length := List.length_pos_iff.2 hc
  have hcc : ∀ u ∈ c, ∀ v ∈ c, RankLe vs u v := fun u hu v hv =>
    (List.pairwise_append.1 ha.2).2.2 u (List.mem_append_right _ hu) v hv
  have key : ∀ n, ∃ l, n ≤ l.length ∧ WalkFrom g s (p ++ c ++ l) ∧ (∀ v ∈ l, v ∈ c) ∧ (p ++ c ++ l).getLast? = c.getLast? := by
    intro n
    induction n with
    | zero => exact ⟨[], by simp, ⟨by simpa using (List.isChain_append.1 hw).1, by simpa [List.head?_append, hc] using hs⟩, by simp,
        by simp [List.getLast?_append, List.getLast?_eq_some_getLast hc]⟩
    | succ n ih =>
      obtain ⟨l, h1, h2, h3, h4⟩ := ih
      refine ⟨l ++ c, by simp; omega, ⟨?_, ?_⟩, ?_, ?_⟩
      · rw [← List.append_assoc, List.isChain_append]
        refine ⟨h2.1, (List.isChain_append.1 hw).2.1, ?_⟩
        rw [h4]
        intro x hx y hy
        exact (List.isChain_append.1 hw).2.2 x (by simp [List.getLast?_append, Option.mem_def.1 hx]) y hy
      · rw [← List.append_assoc, List.head?_append, h2.2]
        rfl
      · intro v hv
        rcases List.mem_append.1 hv with hv | hv
        · exact h3 v hv
        · exact hv
      · rw [← List.append_assoc, List.getLast?_append, List.getLast?_eq_some_getLast hc]
        rfl
  obtain ⟨l, h1, h2, h3, _⟩ := key n
  refine ⟨_, by simp; omega, h2, (e _).2 ⟨?_, ?_⟩⟩
  · intro v hv hm
    refine ha.1 v hv ?_
    rcases List.mem_append.1 hm with hm | hm
    · exact List.mem_append_left _ hm
    · exact List.mem_append_right _ (h3 v hm)
  · rw [List.pairwise_append]
    refine ⟨(List.pairwise_append.1 ha.2).1, ?_, ?_⟩
    · rw [List.pairwise_iff_forall_sublist]
      intro x y hxy
      exact hcc x (h3 x (hxy.subset (by simp))) y (h3 y (hxy.subset (by simp)))
    · intro x hx y hy
      exact (List.pairwise_append.1 ha.2).2.2 x hx y (h3 y hy)

open Classical in
/-- One more than the rank, 0 if there is none. -/
noncomputable def rankOf (vs : List VertexId) (u : VertexId) : Nat := if h : ∃ a, Rank vs u a then h.choose + 1 else 0

theorem rank_unique {vs : List VertexId} {u : VertexId} {a b : Nat} (h : Rank vs u a) (h' : Rank vs u b) : a = b := by
  rcases Nat.lt_trichotomy a b with hab | hab | hab
  · exact absurd h'.1 (h.2 b hab)
  · exact hab
  · exact absurd h.1 (h'.2 a hab)

theorem rankOf_eq {vs : List VertexId} {u : VertexId} {a : Nat} (h : Rank vs u a) : rankOf vs u = a + 1 := by
  unfold rankOf
  rw [dif_pos ⟨a, h⟩]
  exact congrArg (· + 1) (rank_unique (Exists.choose_spec ⟨a, h⟩) h)

theorem rankOf_le (vs : List VertexId) (u : VertexId) : rankOf vs u ≤ vs.length := by
  unfold rankOf
  split
  · rename_i h
    exact (List.getElem?_eq_some_iff.1 h.choose_spec.1).1
  · omega

/-- An allowed walk that is long enough goes round something that may be repeated. -/
theorem round_of_long {g : DirectedGraph} (hw : WF g) {s : VertexId} {a : CspArgs} {l : List VertexId} (hl : WalkFrom g s l) (ha : Allowed a l)
    (h2 : 2 ≤ l.length) (hn : g.vertexCount * ((a.ordered.getD []).length + 1) < l.length) : RoundTwice g s a := by
  obtain ⟨xs, vs, hvs, e⟩ := allowed_iff a
  have ha' := (e l).1 ha
  have hmem : ∀ v ∈ l, v ∈ g.vertices := by
    intro v hv
    obtain ⟨i, hi, rfl⟩ := List.getElem_of_mem hv
    have hch := List.isChain_iff_getElem.1 hl.1
    rcases i with _ | i
    · exact (hw.adj_vertex (hch 0 (by omega))).1
    · exact (hw.adj_vertex (hch i hi)).2
  let r : Nat → Nat := fun k => (l[k]?.map (rankOf vs)).getD 0
  let M : Nat → Nat := fun i => (Finset.range (i + 1)).sup r
  have hrle : ∀ k, r k ≤ vs.length := by
    intro k
    simp only [r]
    cases l[k]? with
    | none => simp
    | some u => exact rankOf_le vs u
  obtain ⟨i, hi, j, hj, hne, hij⟩ := Finset.exists_ne_map_eq_of_card_lt_of_maps_to
    (s := Finset.range l.length) (t := g.vertices.toFinset ×ˢ Finset.range (vs.length + 1))
    (f := fun i => ((l[i]?).getD s, M i)) (by
      rw [Finset.card_range, Finset.card_product, Finset.card_range]
      have h3 : g.vertices.toFinset.card ≤ g.vertexCount := by
        refine (List.toFinset_card_le _).trans ?_
        simp [vertices, HMap.keys, vertexCount]
      have : g.vertices.toFinset.card * (vs.length + 1) ≤ g.vertexCount * ((a.ordered.getD []).length + 1) :=
        Nat.mul_le_mul h3 (by omega)
      omega) (by
      intro i hi
      have hi : i < l.length := by simpa using hi
      simp only [Finset.coe_product, Set.mem_prod, Finset.mem_coe, List.mem_toFinset, Finset.mem_range]
      refine ⟨?_, ?_⟩
      · rw [List.getElem?_eq_getElem hi]
        exact hmem _ (List.getElem_mem hi)
      · exact Nat.lt_succ_of_le (Finset.sup_le fun k _ => hrle k))
  rw [Finset.mem_range] at hi hj
  simp only [Prod.mk.injEq] at hij
  obtain ⟨hv, hM⟩ := hij
  rw [List.getElem?_eq_getElem hi, List.getElem?_eq_getElem hj] at hv
  simp only [Option.getD_some] at hv
  -- without loss of generality i < j
  have main : ∀ i j (hi : i < l.length) (hj : j < l.length), i < j → l[i] = l[j] → M i = M j → RoundTwice g s a := by
    intro i j hi hj hlt hv hM
    have hch := List.isChain_iff_getElem.1 hl.1
    have hcat : l.take (i + 1) ++ (l.drop (i + 1)).take (j - i) = l.take (j + 1) := by
      have := List.take_add (l := l) (i := i + 1) (j := j - i)
      rw [← this]
      congr 1
      omega
    have hcl : ((l.drop (i + 1)).take (j - i)).length = j - i := by simp; omega
    have hget : ∀ k (hk : k < ((l.drop (i + 1)).take (j - i)).length), ((l.drop (i + 1)).take (j - i))[k] = l[i + 1 + k]'(by rw [hcl] at hk; omega) := by
      intro k hk
      simp
    have hcmem : ∀ v ∈ (l.drop (i + 1)).take (j - i), ∃ y, i < y ∧ y ≤ j ∧ l[y]? = some v := by
      intro v hv
      obtain ⟨k, hk, rfl⟩ := List.getElem_of_mem hv
      rw [hget k hk]
      rw [hcl] at hk
      exact ⟨i + 1 + k, by omega, by omega, List.getElem?_eq_getElem _⟩
    have hpmem : ∀ v ∈ l.take (j + 1), ∃ x, x ≤ j ∧ l[x]? = some v := by
      intro v hv
      obtain ⟨k, hk, rfl⟩ := List.getElem_of_mem hv
      rw [List.length_take] at hk
      exact ⟨k, by omega, by rw [List.getElem_take]; exact List.getElem?_eq_getElem _⟩
    refine ⟨l.take (i + 1), (l.drop (i + 1)).take (j - i), fun h0 => by rw [h0] at hcl; simp at hcl; omega, ?_⟩
    rw [hcat]
    have htake : (l.take (j + 1)).IsChain (Adj g) := hl.1.prefix (List.take_prefix _ _)
    have hctake : ((l.drop (i + 1)).take (j - i)).IsChain (Adj g) := (hl.1.suffix (List.drop_suffix _ _)).prefix (List.take_prefix _ _)
    refine ⟨⟨?_, ?_⟩, (e _).2 ⟨?_, ?_⟩⟩
    · rw [List.isChain_append]
      refine ⟨htake, hctake, ?_⟩
      intro x hx y hy
      have hx' : x = l[j] := by
        have : (l.take (j + 1)).getLast? = some l[j] := by
          rw [List.getLast?_eq_getElem?, List.length_take, show min (j + 1) l.length - 1 = j by omega, List.getElem?_take_of_lt (by omega),
            List.getElem?_eq_getElem hj]
        rw [this] at hx
        exact (Option.mem_some.1 hx).symm
      have hy' : y = l[i + 1]'(by omega) := by
        have : ((l.drop (i + 1)).take (j - i)).head? = some (l[i + 1]'(by omega)) := by
          rw [List.head?_eq_getElem?, List.getElem?_take_of_lt (by omega), List.getElem?_drop]
          exact List.getElem?_eq_getElem _
        rw [this] at hy
        exact (Option.mem_some.1 hy).symm
      rw [hx', hy', ← hv]
      exact hch i (by omega)
    · rw [List.head?_append, List.head?_take, if_neg (by omega), hl.2]
      rfl
    · intro v hv hm
      refine ha'.1 v hv ?_
      rcases List.mem_append.1 hm with hm | hm
      · exact List.mem_of_mem_take hm
      · exact List.mem_of_mem_drop (List.mem_of_mem_take hm)
    · rw [List.pairwise_append]
      refine ⟨ha'.2.sublist (List.take_sublist _ _), ha'.2.sublist ((List.take_sublist _ _).trans (List.drop_sublist _ _)), ?_⟩
      intro u hu v hv' ru rv hru hrv
      obtain ⟨x, hx, hux⟩ := hpmem u hu
      obtain ⟨y, hy1, hy2, hvy⟩ := hcmem v hv'
      have h3 : ru + 1 ≤ M i := by
        rw [hM]
        have : r x ≤ M j := Finset.le_sup (f := r) (Finset.mem_range.2 (by omega))
        simp only [r, hux, Option.map_some, Option.getD_some, rankOf_eq hru] at this
        exact this
      obtain ⟨z, hz, hz'⟩ := Finset.exists_mem_eq_sup (Finset.range (i + 1)) ⟨0, by simp⟩ r
      rw [Finset.mem_range] at hz
      have hzl : z < l.length := by omega
      have hMz : M i = rankOf vs l[z] := by
        have : M i = r z := hz'
        rw [this]
        simp only [r, List.getElem?_eq_getElem hzl, Option.map_some, Option.getD_some]
      have hex : ∃ b, Rank vs l[z] b := by
        by_contra hno
        have : rankOf vs l[z] = 0 := by
          unfold rankOf
          rw [dif_neg hno]
        omega
      obtain ⟨b, hb⟩ := hex
      rw [rankOf_eq hb] at hMz
      obtain ⟨hyl, hvy'⟩ := List.getElem?_eq_some_iff.1 hvy
      have := List.pairwise_iff_getElem.1 ha'.2 z y hzl hyl (by omega) b rv hb (hvy' ▸ hrv)
      omega
  rcases Nat.lt_or_gt_of_ne hne with h | h
  · exact main i j hi hj h hv hM
  · exact main j i hj hi h hv.symm hM.symm

end GC
