/-
Lemmas about cycles and the cycle iterator.
-/
import Verif.Proofs.Text
import Verif.Spec.Cycle
import Verif.Spec.Iter
import Verif.Proofs.Iter
import Verif.Proofs.Walk
namespace GC
open DirectedGraph

/-! ### Minima and maxima -/

theorem minByKey_split {α : Type} (key : α → Nat) (l : List α) (hl : l ≠ []) :
    ∃ a x b, l = a ++ x :: b ∧ minByKey key l = some x ∧ (∀ y ∈ a, key x < key y) ∧ ∀ y ∈ b, key x ≤ key y := by
  obtain ⟨x, l, rfl⟩ := List.exists_cons_of_ne_nil hl
  clear hl
  induction l using List.reverseRecOn with
  | nil => exact ⟨[], x, [], rfl, rfl, by simp, by simp⟩
  | append_singleton l z ih =>
    obtain ⟨a, m, b, h1, h2, h3, h4⟩ := ih
    have h2' : l.foldl (fun a b => if key b < key a then b else a) x = m := Option.some.inj h2
    by_cases hz : key z < key m
    · refine ⟨x :: l, z, [], by simp, ?_, ?_, by simp⟩
      · simp only [minByKey, List.foldl_append, List.foldl_cons, List.foldl_nil, h2', if_pos hz]
      · rw [h1]
        intro y hy
        rcases List.mem_append.1 hy with hy | hy
        · have := h3 y hy; omega
        · rcases List.mem_cons.1 hy with rfl | hy
          · exact hz
          · have := h4 y hy; omega
    · refine ⟨a, m, b ++ [z], ?_, ?_, h3, ?_⟩
      · rw [← List.cons_append, h1]; simp
      · simp only [minByKey, List.foldl_append, List.foldl_cons, List.foldl_nil, h2', if_neg hz]
      · intro y hy
        rcases List.mem_append.1 hy with hy | hy
        · exact h4 y hy
        · rw [List.mem_singleton] at hy; subst hy; omega

theorem maxByKey_split {α : Type} (key : α → Nat) (l : List α) (hl : l ≠ []) :
    ∃ a x b, l = a ++ x :: b ∧ maxByKey key l = some x ∧ (∀ y ∈ a, key y ≤ key x) ∧ ∀ y ∈ b, key y < key x := by
  obtain ⟨x, l, rfl⟩ := List.exists_cons_of_ne_nil hl
  clear hl
  induction l using List.reverseRecOn with
  | nil => exact ⟨[], x, [], rfl, rfl, by simp, by simp⟩
  | append_singleton l z ih =>
    obtain ⟨a, m, b, h1, h2, h3, h4⟩ := ih
    have h2' : l.foldl (fun a b => if key b < key a then a else b) x = m := Option.some.inj h2
    by_cases hz : key z < key m
    · refine ⟨a, m, b ++ [z], ?_, ?_, h3, ?_⟩
      · rw [← List.cons_append, h1]; simp
      · simp only [maxByKey, List.foldl_append, List.foldl_cons, List.foldl_nil, h2', if_pos hz]
      · intro y hy
        rcases List.mem_append.1 hy with hy | hy
        · exact h4 y hy
        · rw [List.mem_singleton] at hy; subst hy; exact hz
    · refine ⟨x :: l, z, [], by simp, ?_, ?_, by simp⟩
      · simp only [maxByKey, List.foldl_append, List.foldl_cons, List.foldl_nil, h2', if_neg hz]
      · rw [h1]
        intro y hy
        rcases List.mem_append.1 hy with hy | hy
        · have := h3 y hy; omega
        · rcases List.mem_cons.1 hy with rfl | hy
          · omega
          · have := h4 y hy; omega

theorem minByKey_nil {α : Type} (key : α → Nat) : minByKey key ([] : List α) = none := rfl

theorem minByKey_eq_none {α : Type} {key : α → Nat} {l : List α} : minByKey key l = none ↔ l = [] := by
  cases l <;> simp [minByKey]

theorem maxByKey_eq_none {α : Type} {key : α → Nat} {l : List α} : maxByKey key l = none ↔ l = [] := by
  cases l <;> simp [maxByKey]

theorem minByKey_some {α : Type} {key : α → Nat} {l : List α} {x : α} (h : minByKey key l = some x) :
    x ∈ l ∧ ∀ y ∈ l, key x ≤ key y := by
  obtain ⟨a, x', b, h1, h2, h3, h4⟩ := minByKey_split key l (by rintro rfl; simp [minByKey] at h)
  rw [h] at h2
  cases h2
  subst h1
  refine ⟨by simp, fun y hy => ?_⟩
  rcases List.mem_append.1 hy with hy | hy
  · have := h3 y hy; omega
  · rcases List.mem_cons.1 hy with rfl | hy
    · exact Nat.le_refl _
    · exact h4 y hy

theorem maxByKey_some {α : Type} {key : α → Nat} {l : List α} {x : α} (h : maxByKey key l = some x) :
    x ∈ l ∧ ∀ y ∈ l, key y ≤ key x := by
  obtain ⟨a, x', b, h1, h2, h3, h4⟩ := maxByKey_split key l (by rintro rfl; simp [maxByKey] at h)
  rw [h] at h2
  cases h2
  subst h1
  refine ⟨by simp, fun y hy => ?_⟩
  rcases List.mem_append.1 hy with hy | hy
  · exact h3 y hy
  · rcases List.mem_cons.1 hy with rfl | hy
    · exact Nat.le_refl _
    · have := h4 y hy; omega

/-! ### Canonical cycles -/

theorem zipIdx_split {l : List VertexId} {A B : List (VertexId × Nat)} {m : VertexId} {i : Nat} (h : l.zipIdx = A ++ (m, i) :: B) :
    l = A.map Prod.fst ++ m :: B.map Prod.fst ∧ i = A.length := by
  constructor
  · have := congrArg (List.map Prod.fst) h
    simpa [List.zipIdx_map_fst] using this
  · have := congrArg (fun x => x[A.length]?) h
    simp only [List.getElem?_append_right (Nat.le_refl _), Nat.sub_self, List.getElem?_cons_zero, List.getElem?_zipIdx,
      Option.map_eq_some_iff, Prod.mk.injEq] at this
    obtain ⟨_, _, _, h2⟩ := this
    omega

theorem canonical_split (l : List VertexId) (hl : l ≠ []) :
    ∃ a m b, l = a ++ m :: b ∧ Cycle.canonical ⟨l⟩ = .done ⟨m :: b ++ a⟩ ∧ (∀ y ∈ a, m.id < y.id) ∧ ∀ y ∈ b, m.id ≤ y.id := by
  obtain ⟨A, ⟨m, i⟩, B, h1, h2, h3, h4⟩ := minByKey_split (fun p : VertexId × Nat => p.1.id.toNat) l.zipIdx
    (by simpa [List.zipIdx_eq_nil_iff] using hl)
  obtain ⟨h5, h6⟩ := zipIdx_split h1
  refine ⟨A.map Prod.fst, m, B.map Prod.fst, h5, ?_, ?_, ?_⟩
  · have e1 : l.drop i = m :: B.map Prod.fst := by
      rw [h5, h6, List.drop_append_of_le_length (by simp)]; simp
    have e2 : l.take i = A.map Prod.fst := by
      rw [h5, h6, List.take_append_of_le_length (by simp)]; simp
    simp only [Cycle.canonical, h2, Run.unwrap_some, Run.bind_done, e1, e2]
  · intro y hy
    obtain ⟨p, hp, rfl⟩ := List.mem_map.1 hy
    exact UInt64.lt_iff_toNat_lt.2 (h3 p hp)
  · intro y hy
    obtain ⟨p, hp, rfl⟩ := List.mem_map.1 hy
    exact UInt64.le_iff_toNat_le.2 (h4 p hp)

theorem canonical_spec (l : List VertexId) (hl : l ≠ []) :
    ∃ d, Cycle.canonical ⟨l⟩ = .done ⟨d⟩ ∧ l ~r d ∧ SmallestFirst d := by
  obtain ⟨a, m, b, h1, h2, h3, h4⟩ := canonical_split l hl
  refine ⟨_, h2, ?_, m, rfl, ?_⟩
  · rw [h1]
    exact ⟨a.length, by rw [List.rotate_append_length_eq]⟩
  · intro v hv
    rcases List.mem_append.1 hv with hv | hv
    · rcases List.mem_cons.1 hv with rfl | hv
      · exact UInt64.le_refl _
      · exact h4 v hv
    · exact UInt64.le_of_lt (h3 v hv)

theorem eq_of_rotated {l l' : List VertexId} (hn : l.Nodup) (h : l ~r l') (hh : l.head? = l'.head?) : l = l' := by
  obtain ⟨n, rfl⟩ := h
  rcases l with _ | ⟨x, t⟩
  · simp
  · have hlen : 0 < (x :: t).length := by simp
    have hm : n % (x :: t).length < (x :: t).length := Nat.mod_lt _ hlen
    rw [← List.rotate_mod] at hh ⊢
    generalize n % (x :: t).length = k at *
    rw [List.head?_eq_getElem?, List.head?_eq_getElem?, List.getElem?_rotate hlen, Nat.zero_add, Nat.mod_eq_of_lt hm] at hh
    have : 0 = k := (List.Nodup.getElem_inj_iff hn (hi := hlen) (hj := hm)).1 (by
      rw [List.getElem?_eq_getElem hlen, List.getElem?_eq_getElem hm] at hh
      exact Option.some.inj hh)
    subst this
    simp

theorem SmallestFirst.head_eq {l l' : List VertexId} (h : l ~r l') (h1 : SmallestFirst l) (h2 : SmallestFirst l') : l.head? = l'.head? := by
  obtain ⟨m, e1, k1⟩ := h1
  obtain ⟨m', e2, k2⟩ := h2
  have hm : m ∈ l := List.mem_of_head? e1
  have hm' : m' ∈ l' := List.mem_of_head? e2
  have a1 := k1 m' (h.mem_iff.2 hm')
  have a2 := k2 m (h.mem_iff.1 hm)
  have : m = m' := by
    have := UInt64.le_antisymm a1 a2
    cases m; cases m'; simp_all
  rw [e1, e2, this]

theorem canonical_unique {l l' : List VertexId} (hn : l.Nodup) (h : l ~r l') (h1 : SmallestFirst l) (h2 : SmallestFirst l') : l = l' :=
  eq_of_rotated hn h (h1.head_eq h h2)

/-- The canonical form of a duplicate-free list is its only rotation that starts with the smallest vertex. -/
theorem canonical_eq_iff {l d : List VertexId} (hn : l.Nodup) (hl : l ≠ []) :
    Cycle.canonical ⟨l⟩ = .done ⟨d⟩ ↔ l ~r d ∧ SmallestFirst d := by
  obtain ⟨d', h1, h2, h3⟩ := canonical_spec l hl
  constructor
  · intro h
    rw [h1] at h
    cases Run.done.inj h
    exact ⟨h2, h3⟩
  · rintro ⟨h4, h5⟩
    have := canonical_unique (h2.nodup_iff.1 hn) (h2.symm.trans h4) h3 h5
    rw [h1, this]

/-! ### Rotations of cycles -/

theorem IsCycle.rotate_one {g : DirectedGraph} {x : VertexId} {l : List VertexId} (h : IsCycle g (x :: l)) : IsCycle g (l ++ [x]) := by
  obtain ⟨_, h2, h3⟩ := h
  refine ⟨by simp, ?_, ?_⟩
  · have : (x :: l).Perm (l ++ [x]) := (List.perm_append_singleton x l).symm
    exact this.nodup_iff.1 h2
  · rcases l with _ | ⟨y, l⟩
    · simpa using h3
    · simp only [List.head?_cons, Option.toList_some, List.cons_append] at h3 ⊢
      rw [List.isChain_cons_cons] at h3
      have h4 := h3.2
      rw [← List.cons_append]
      rw [List.isChain_append]
      refine ⟨h4, by simp, ?_⟩
      intro a ha b hb
      rw [← List.cons_append, List.getLast?_concat] at ha
      simp at ha hb
      subst ha hb
      exact h3.1

theorem IsCycle.rotated {g : DirectedGraph} {l l' : List VertexId} (h : IsCycle g l) (hr : l ~r l') : IsCycle g l' := by
  obtain ⟨n, rfl⟩ := hr
  induction n generalizing l with
  | zero => simpa using h
  | succ n ih =>
    rcases l with _ | ⟨x, l⟩
    · exact absurd rfl h.1
    · rw [List.rotate_cons_succ]
      exact ih h.rotate_one

theorem isCycle_rotated {g : DirectedGraph} {l l' : List VertexId} (hr : l ~r l') : IsCycle g l ↔ IsCycle g l' :=
  ⟨fun h => h.rotated hr, fun h => h.rotated hr.symm⟩

theorem IsCycle.adj {g : DirectedGraph} {l : List VertexId} (h : IsCycle g l) {v : VertexId} (hv : v ∈ l) :
    (∃ u ∈ l, Adj g u v) ∧ ∃ w ∈ l, Adj g v w := by
  obtain ⟨a, b, rfl⟩ := List.append_of_mem hv
  have hr : (a ++ v :: b) ~r (v :: b ++ a) := ⟨a.length, by rw [List.rotate_append_length_eq]⟩
  have h' := h.rotated hr
  obtain ⟨_, _, h3⟩ := h'
  have hm : ∀ x, x ∈ v :: (b ++ a) → x ∈ a ++ v :: b := fun x hx => by
    simp only [List.mem_append, List.mem_cons] at hx ⊢; tauto
  simp only [List.cons_append, List.head?_cons, Option.toList_some] at h3
  constructor
  · rw [← List.cons_append, List.isChain_append] at h3
    obtain ⟨u, hu⟩ : ∃ u, (v :: (b ++ a)).getLast? = some u := ⟨_, List.getLast?_eq_some_getLast (by simp)⟩
    exact ⟨u, hm u (List.mem_of_getLast? hu), h3.2.2 u hu v (by simp)⟩
  · rcases e : b ++ a with _ | ⟨w, t⟩
    · rw [e] at h3
      exact ⟨v, hv, by simpa using h3⟩
    · rw [e] at h3
      rw [List.cons_append, List.isChain_cons_cons] at h3
      exact ⟨w, hm w (by rw [e]; simp), h3.1⟩

theorem IsCycle.vertex {g : DirectedGraph} (hw : WF g) {l : List VertexId} (h : IsCycle g l) {v : VertexId} (hv : v ∈ l) : v ∈ g.vertices := by
  obtain ⟨w, _, hw'⟩ := (h.adj hv).2
  exact (hw.adj_vertex hw').1

/-- All vertices of a cycle can be reached from each other. -/
theorem IsCycle.reach {g : DirectedGraph} {l : List VertexId} (h : IsCycle g l) {u v : VertexId} (hu : u ∈ l) (hv : v ∈ l) : Reach g u v := by
  obtain ⟨a, b, rfl⟩ := List.append_of_mem hu
  have hr : (a ++ u :: b) ~r (u :: b ++ a) := ⟨a.length, by rw [List.rotate_append_length_eq]⟩
  have hc : (u :: (b ++ a)).IsChain (Adj g) := by
    have h3 := (h.rotated hr).2.2
    rw [List.isChain_append] at h3
    exact h3.1
  have hv' : v ∈ u :: (b ++ a) := by
    simp only [List.mem_append, List.mem_cons] at hv ⊢; tauto
  generalize b ++ a = t at hc hv'
  clear h hr hu hv
  induction t generalizing u with
  | nil =>
    simp at hv'
    subst hv'
    exact .refl
  | cons w t ih =>
    rw [List.isChain_cons_cons] at hc
    rcases List.mem_cons.1 hv' with rfl | hv'
    · exact .refl
    · exact .head hc.1 (ih hc.2 hv')

/-! ### Extraction of the cycle at the end of a walk -/

theorem rposition_none {v : VertexId} {l : List VertexId} : rposition v l = none ↔ v ∉ l := by
  induction l with
  | nil => simp [rposition]
  | cons x l ih =>
    simp only [rposition]
    cases e : rposition v l with
    | none =>
      rw [e] at ih
      by_cases hx : x = v
      · simp [hx]
      · simp only [hx, if_false, true_iff, List.mem_cons, not_or]
        exact ⟨fun h => hx h.symm, ih.1 rfl⟩
    | some i =>
      rw [e] at ih
      simp only [reduceCtorEq, false_iff, not_not] at ih ⊢
      exact List.mem_cons_of_mem _ ih

theorem rposition_append {v : VertexId} {a b : List VertexId} (h : v ∉ b) : rposition v (a ++ v :: b) = some a.length := by
  induction a with
  | nil => simp [rposition, rposition_none.2 h]
  | cons x a ih => simp [rposition, ih]

theorem mem_split_last {v : VertexId} {l : List VertexId} (h : v ∈ l) : ∃ a b, l = a ++ v :: b ∧ v ∉ b := by
  induction l with
  | nil => cases h
  | cons x l ih =>
    by_cases hv : v ∈ l
    · obtain ⟨a, b, rfl, hb⟩ := ih hv
      exact ⟨x :: a, b, rfl, hb⟩
    · rcases List.mem_cons.1 h with rfl | h
      · exact ⟨[], l, rfl, hv⟩
      · exact absurd h hv

theorem extract_none {l : List VertexId} {v : VertexId} (h : v ∉ l) :
    CycleIter.extractCanonicalCycleFromLast ⟨l ++ [v]⟩ = .done none := by
  unfold CycleIter.extractCanonicalCycleFromLast
  simp only [Path.last, List.getLast?_concat, Option.bind_some, List.dropLast_concat]
  rw [rposition_none.2 h]

theorem extract_some {a b : List VertexId} {v : VertexId} (h : v ∉ b) :
    CycleIter.extractCanonicalCycleFromLast ⟨a ++ v :: b ++ [v]⟩ = (Cycle.canonical ⟨v :: b⟩).bind fun c => .done (some c) := by
  unfold CycleIter.extractCanonicalCycleFromLast
  simp only [Path.last, List.getLast?_concat, Option.bind_some, List.dropLast_concat]
  rw [rposition_append h]
  simp

/-! ### The cycle iterator -/

/-- The walks pushed when a walk is taken from the stack. -/
def cycleChildren (g : DirectedGraph) (p : Path) : List Path :=
  match p.last with
  | none => []
  | some v => if v ∈ p.vertices.dropLast then [] else (g.outs v).map p.append

/-- The walks on the stack. -/
def Lasso (g : DirectedGraph) (p : Path) : Prop :=
  p.vertices ≠ [] ∧ p.vertices.IsChain (Adj g) ∧ p.vertices.dropLast.Nodup ∧ ∀ v ∈ p.vertices, v ∈ g.vertices

theorem Lasso.concat {g : DirectedGraph} {p : Path} (h : Lasso g p) : ∃ l v, p = ⟨l ++ [v]⟩ := by
  obtain ⟨vs⟩ := p
  obtain ⟨h, _⟩ := h
  exact ⟨vs.dropLast, vs.getLast h, by rw [List.dropLast_concat_getLast]⟩

theorem cycleChildren_concat (g : DirectedGraph) (l : List VertexId) (v : VertexId) :
    cycleChildren g ⟨l ++ [v]⟩ = if v ∈ l then [] else (g.outs v).map (Path.append ⟨l ++ [v]⟩) := by
  simp [cycleChildren, Path.last]

theorem mem_cycleChildren {g : DirectedGraph} (hw : WF g) {l : List VertexId} {v : VertexId} {q : Path} :
    q ∈ cycleChildren g ⟨l ++ [v]⟩ ↔ v ∉ l ∧ ∃ w, Adj g v w ∧ q = ⟨l ++ [v] ++ [w]⟩ := by
  rw [cycleChildren_concat]
  split
  · simp [*]
  · rename_i h
    simp only [List.mem_map, hw.mem_outs', h, not_false_eq_true, true_and, Path.append]
    constructor
    · rintro ⟨w, h1, rfl⟩; exact ⟨w, h1, rfl⟩
    · rintro ⟨w, h1, rfl⟩; exact ⟨w, h1, rfl⟩

theorem lasso_child {g : DirectedGraph} (hw : WF g) (p : Path) (hp : Lasso g p) :
    ∀ q ∈ cycleChildren g p, Lasso g q ∧ g.vertices.length + 2 - q.vertices.length < g.vertices.length + 2 - p.vertices.length := by
  intro q hq
  obtain ⟨l, v, rfl⟩ := hp.concat
  obtain ⟨hv, w, ha, rfl⟩ := (mem_cycleChildren hw).1 hq
  obtain ⟨_, h2, h3, h4⟩ := hp
  rw [List.dropLast_concat] at h3
  have hnd : (l ++ [v]).Nodup := by
    rw [List.nodup_append]
    refine ⟨h3, by simp, ?_⟩
    rintro a hal b hb rfl
    rw [List.mem_singleton] at hb
    subst hb
    exact hv hal
  refine ⟨⟨by simp, ?_, by rw [List.dropLast_concat]; exact hnd, ?_⟩, ?_⟩
  · rw [List.isChain_append]
    refine ⟨h2, by simp, ?_⟩
    intro x hx y hy
    rw [List.getLast?_concat] at hx
    simp at hx hy
    subst hx hy
    exact ha
  · intro x hx
    rcases List.mem_append.1 hx with hx | hx
    · exact h4 x hx
    · rw [List.mem_singleton] at hx
      subst hx
      exact (hw.adj_vertex ha).2
  · have := (List.subperm_of_subset hnd h4).length_le
    simp only [List.length_append, List.length_singleton] at this ⊢
    omega

/-- The walks found from a start vertex. -/
theorem descends_cycleChildren {g : DirectedGraph} (hw : WF g) (s : VertexId) (q : Path) :
    Descends (cycleChildren g) ⟨[s]⟩ q ↔ WalkFrom g s q.vertices ∧ q.vertices.dropLast.Nodup := by
  constructor
  · intro h
    induction h with
    | refl => exact ⟨⟨by simp, rfl⟩, by simp⟩
    | @tail b c _ hc ih =>
      obtain ⟨⟨h1, h2⟩, h3⟩ := ih
      obtain ⟨vs⟩ := b
      rcases List.eq_nil_or_concat vs with rfl | ⟨l, v, e⟩
      · simp at h2
      · rw [List.concat_eq_append] at e
        subst e
        obtain ⟨hv, w, ha, rfl⟩ := (mem_cycleChildren hw).1 hc
        simp only [List.dropLast_concat] at h3 ⊢
        refine ⟨⟨?_, ?_⟩, ?_⟩
        · rw [List.isChain_append]
          refine ⟨h1, by simp, ?_⟩
          intro x hx y hy
          rw [List.getLast?_concat] at hx
          simp at hx hy
          subst hx hy
          exact ha
        · simp only at h2 ⊢
          rw [List.head?_append, h2]; rfl
        · rw [List.nodup_append]
          refine ⟨h3, by simp, ?_⟩
          rintro a hal b hb rfl
          rw [List.mem_singleton] at hb
          subst hb
          exact hv hal
  · obtain ⟨vs⟩ := q
    simp only
    rintro ⟨⟨h1, h2⟩, h3⟩
    induction vs using List.reverseRecOn with
    | nil => simp at h2
    | append_singleton l w ih =>
      rcases List.eq_nil_or_concat l with rfl | ⟨l, v, e⟩
      · simp at h2
        subst h2
        exact .refl
      · rw [List.concat_eq_append] at e
        subst e
        rw [List.dropLast_concat] at h3
        rw [List.isChain_append] at h1
        refine .tail (ih ?_ h1.1 ?_) ((mem_cycleChildren hw).2 ⟨?_, w, h1.2.2 v (by simp) w (by simp), rfl⟩)
        · rw [List.dropLast_concat]
          exact (List.nodup_append.1 h3).1
        · rw [List.head?_append_of_ne_nil _ (by simp)] at h2
          exact h2
        · intro hv
          exact (List.nodup_append.1 h3).2.2 v hv v (by simp) rfl

theorem foldl_push (p : Path) (l : List VertexId) (st : List Path) :
    l.foldl (fun st v => st.push (p.append v)) (⟨st⟩ : Stack Path) = ⟨st ++ l.map p.append⟩ := by
  induction l generalizing st with
  | nil => simp
  | cons a l ih =>
    rw [List.foldl_cons, show (⟨st⟩ : Stack Path).push (p.append a) = ⟨st ++ [p.append a]⟩ from rfl, ih]
    simp

/-- Total number of walks still to be looked at. -/
def cycleWork (g : DirectedGraph) (st : List Path) : Nat :=
  (st.flatMap fun y => nodesAux (cycleChildren g) (g.vertices.length + 2 - y.vertices.length) y).length

theorem cycleWork_pop {g : DirectedGraph} (hw : WF g) (st : List Path) (p : Path) (hp : Lasso g p) :
    cycleWork g (st ++ cycleChildren g p) < cycleWork g (st ++ [p]) := by
  unfold cycleWork
  have := nodesAux_unfold (P := Lasso g) (rank := fun y => g.vertices.length + 2 - y.vertices.length) (lasso_child hw) p hp
  simp only [List.flatMap_append, List.length_append, List.flatMap_cons, List.flatMap_nil, List.append_nil]
  rw [this]
  simp only [List.length_cons]
  omega

theorem cycleWork_pop' {g : DirectedGraph} (hw : WF g) (st : List Path) (p : Path) (hp : Lasso g p) :
    cycleWork g st < cycleWork g (st ++ [p]) := by
  refine Nat.lt_of_le_of_lt ?_ (cycleWork_pop hw st p hp)
  unfold cycleWork
  simp [List.flatMap_append]

/-- What remains to be yielded from a state. -/
theorem cycle_drains_aux {g : DirectedGraph} (hw : WF g) (n : Nat) (st : List Path) (ret : List Cycle) (hn : cycleWork g st = n)
    (hst : ∀ p ∈ st, Lasso g p) :
    ∃ xs : List Cycle, ((xs = [] ∧ LoopTo (CycleIter.step g) ⟨⟨st⟩, ret⟩ none) ∨
        ∃ x s' ys, xs = x :: ys ∧ LoopTo (CycleIter.step g) ⟨⟨st⟩, ret⟩ (some (x, s')) ∧ Drains (CycleIter.next g) s' ys) ∧
      xs.Nodup ∧ ∀ c, c ∈ xs ↔ c ∉ ret ∧ ∃ p ∈ st, ∃ q, Descends (cycleChildren g) p q ∧
        CycleIter.extractCanonicalCycleFromLast q = .done (some c) := by
  induction n using Nat.strongRecOn generalizing st ret with
  | _ n ih =>
    rcases List.eq_nil_or_concat st with rfl | ⟨st, p, e⟩
    · refine ⟨[], .inl ⟨rfl, .stop ?_⟩, by simp, by simp⟩
      exact Returns.ret _
    · rw [List.concat_eq_append] at e
      subst e
      have hp := hst p (by simp)
      have hst' : ∀ q ∈ st, Lasso g q := fun q hq => hst q (by simp [hq])
      have hpop : (⟨st ++ [p]⟩ : Stack Path).pop = some (p, ⟨st⟩) := Stack.pop_eq_some.2 rfl
      obtain ⟨l, v, rfl⟩ := hp.concat
      by_cases hv : v ∈ l
      · -- a walk that ends with a cycle
        obtain ⟨a, b, rfl, hb⟩ := mem_split_last hv
        obtain ⟨d, hd, _, _⟩ := canonical_spec (v :: b) (by simp)
        have hex := extract_some (a := a) hb
        rw [hd, Run.bind_done] at hex
        have hkids : cycleChildren g ⟨a ++ v :: b ++ [v]⟩ = [] := by rw [cycleChildren_concat, if_pos hv]
        have honly : ∀ q, Descends (cycleChildren g) ⟨a ++ v :: b ++ [v]⟩ q ↔ q = ⟨a ++ v :: b ++ [v]⟩ := by
          intro q
          constructor
          · intro h
            rcases Relation.ReflTransGen.cases_head h with h | ⟨c, hc, _⟩
            · exact h.symm
            · rw [hkids] at hc; cases hc
          · rintro rfl; exact .refl
        have hlt := cycleWork_pop' hw st _ hp
        by_cases hret : (⟨d⟩ : Cycle) ∈ ret
        · obtain ⟨xs, h1, h2, h3⟩ := ih _ (hn ▸ hlt) st ret rfl hst'
          have hstep : Returns (CycleIter.step g ⟨⟨st ++ [⟨a ++ v :: b ++ [v]⟩]⟩, ret⟩) (.inl ⟨⟨st⟩, ret⟩) := by
            unfold CycleIter.step
            simp only [hpop, hex, Run.bind_done, List.contains_iff_mem, hret, if_true]
            exact Returns.lift_done _
          refine ⟨xs, ?_, h2, ?_⟩
          · rcases h1 with ⟨h1, h4⟩ | ⟨x, s', ys, h1, h4, h5⟩
            · exact .inl ⟨h1, .next hstep h4⟩
            · exact .inr ⟨x, s', ys, h1, .next hstep h4, h5⟩
          · intro c
            rw [h3]
            constructor
            · rintro ⟨k1, p, k2, k3⟩
              exact ⟨k1, p, by simp [k2], k3⟩
            · rintro ⟨k1, p, k2, q, k3, k4⟩
              refine ⟨k1, ?_⟩
              rcases List.mem_append.1 k2 with k2 | k2
              · exact ⟨p, k2, q, k3, k4⟩
              · rw [List.mem_singleton] at k2
                subst k2
                rw [(honly q).1 k3, hex] at k4
                cases k4
                exact absurd hret k1
        · obtain ⟨xs, h1, h2, h3⟩ := ih _ (hn ▸ hlt) st (⟨d⟩ :: ret) rfl hst'
          have hstep : Returns (CycleIter.step g ⟨⟨st ++ [⟨a ++ v :: b ++ [v]⟩]⟩, ret⟩) (.inr (some (⟨d⟩, ⟨⟨st⟩, ⟨d⟩ :: ret⟩))) := by
            unfold CycleIter.step
            simp only [hpop, hex, Run.bind_done, List.contains_iff_mem, hret, if_false]
            exact Returns.lift_done _
          have hdr : Drains (CycleIter.next g) ⟨⟨st⟩, ⟨d⟩ :: ret⟩ xs := by
            rcases h1 with ⟨h1, h4⟩ | ⟨x, s', ys, h1, h4, h5⟩
            · rw [h1]; exact .nil h4.returns
            · rw [h1]; exact .cons h4.returns h5
          refine ⟨⟨d⟩ :: xs, .inr ⟨_, _, _, rfl, .stop hstep, hdr⟩, ?_, ?_⟩
          · rw [List.nodup_cons]
            exact ⟨fun h => ((h3 _).1 h).1 (by simp), h2⟩
          · intro c
            rw [List.mem_cons, h3]
            constructor
            · rintro (rfl | ⟨k1, p, k2, k3⟩)
              · exact ⟨hret, _, by simp, _, .refl, hex⟩
              · exact ⟨fun h => k1 (by simp [h]), p, by simp [k2], k3⟩
            · rintro ⟨k1, p, k2, q, k3, k4⟩
              by_cases hc : c = ⟨d⟩
              · exact .inl hc
              · right
                refine ⟨by simp [hc, k1], ?_⟩
                rcases List.mem_append.1 k2 with k2 | k2
                · exact ⟨p, k2, q, k3, k4⟩
                · rw [List.mem_singleton] at k2
                  subst k2
                  rw [(honly q).1 k3, hex] at k4
                  cases k4
                  exact absurd rfl hc
      · -- a simple path
        have hex := extract_none hv
        have hlt := cycleWork_pop hw st _ hp
        obtain ⟨xs, h1, h2, h3⟩ := ih _ (hn ▸ hlt) (st ++ cycleChildren g ⟨l ++ [v]⟩) ret rfl (by
          intro q hq
          rcases List.mem_append.1 hq with hq | hq
          · exact hst' q hq
          · exact (lasso_child hw _ hp q hq).1)
        have hstep : Returns (CycleIter.step g ⟨⟨st ++ [⟨l ++ [v]⟩]⟩, ret⟩) (.inl ⟨⟨st ++ cycleChildren g ⟨l ++ [v]⟩⟩, ret⟩) := by
          unfold CycleIter.step CycleIter.pushNext
          have hlast : (⟨l ++ [v]⟩ : Path).last = some v := by simp [Path.last]
          simp only [hpop, hex, Run.bind_done, hlast, Run.unwrap_some, foldl_push, cycleChildren_concat, if_neg hv]
          exact Returns.lift_done _
        refine ⟨xs, ?_, h2, ?_⟩
        · rcases h1 with ⟨h1, h4⟩ | ⟨x, s', ys, h1, h4, h5⟩
          · exact .inl ⟨h1, .next hstep h4⟩
          · exact .inr ⟨x, s', ys, h1, .next hstep h4, h5⟩
        · intro c
          rw [h3]
          constructor
          · rintro ⟨k1, p, k2, q, k3, k4⟩
            refine ⟨k1, ?_⟩
            rcases List.mem_append.1 k2 with k2 | k2
            · exact ⟨p, by simp [k2], q, k3, k4⟩
            · exact ⟨_, by simp, q, .head k2 k3, k4⟩
          · rintro ⟨k1, p, k2, q, k3, k4⟩
            refine ⟨k1, ?_⟩
            rcases List.mem_append.1 k2 with k2 | k2
            · exact ⟨p, by simp [k2], q, k3, k4⟩
            · rw [List.mem_singleton] at k2
              subst k2
              rcases Relation.ReflTransGen.cases_head k3 with h | ⟨c', hc, hq⟩
              · rw [← h, hex] at k4; cases k4
              · exact ⟨c', by simp [hc], q, hq, k4⟩

theorem cycleIter_eq (g : DirectedGraph) :
    CycleIter.cycleIter g = ⟨⟨(CycleIter.findStartingEdges g).map fun v => ⟨[v]⟩⟩, []⟩ := by
  unfold CycleIter.cycleIter
  generalize CycleIter.findStartingEdges g = l
  have : ∀ st : List Path, l.foldl (fun it v => (⟨it.stack.push (.ofVertices [v]), it.returned⟩ : CycleIter)) ⟨⟨st⟩, []⟩ =
      ⟨⟨st ++ l.map fun v => ⟨[v]⟩⟩, []⟩ := by
    induction l with
    | nil => intro st; simp
    | cons a l ih =>
      intro st
      rw [List.foldl_cons, show (⟨st⟩ : Stack Path).push (.ofVertices [a]) = ⟨st ++ [⟨[a]⟩]⟩ from rfl, ih]
      simp
  exact this []

theorem findStartingEdges_vertex {g : DirectedGraph} {v : VertexId} (h : v ∈ CycleIter.findStartingEdges g) : v ∈ g.vertices := by
  unfold CycleIter.findStartingEdges at h
  dsimp only at h
  split at h
  · rcases List.mem_append.1 h with h | h
    · exact (List.mem_filter.1 h).1
    · rw [Option.mem_toList] at h
      exact List.mem_of_head? h
  · exact (List.mem_filter.1 h).1

/-- A walk to a set of vertices can be made simple and to stop at the first vertex of the set. -/
theorem first_hit {g : DirectedGraph} {s t : VertexId} (C : List VertexId) (h : Reach g s t) (ht : t ∈ C) :
    ∃ l u, u ∈ C ∧ (l ++ [u]).IsChain (Adj g) ∧ (l ++ [u]).head? = some s ∧ l.Nodup ∧ ∀ x ∈ l, x ∉ C := by
  induction h using Relation.ReflTransGen.head_induction_on with
  | refl => exact ⟨[], t, ht, by simp, rfl, by simp, by simp⟩
  | @head s s' ha _ ih =>
    obtain ⟨l, u, h1, h2, h3, h4, h5⟩ := ih
    by_cases hs : s ∈ C
    · exact ⟨[], s, hs, by simp, rfl, by simp, by simp⟩
    · by_cases hl : s ∈ l
      · obtain ⟨a, b, rfl⟩ := List.append_of_mem hl
        refine ⟨s :: b, u, h1, ?_, rfl, ?_, ?_⟩
        · rw [List.append_assoc] at h2
          exact (List.isChain_append.1 h2).2.1
        · exact (List.nodup_append.1 h4).2.1
        · intro x hx; exact h5 x (by simp only [List.mem_append]; exact .inr hx)
      · refine ⟨s :: l, u, h1, ?_, rfl, List.nodup_cons.2 ⟨hl, h4⟩, ?_⟩
        · rcases e : l ++ [u] with _ | ⟨x, t'⟩
          · simp at e
          · rw [e] at h2 h3
            simp at h3
            subst h3
            rw [List.cons_append, e, List.isChain_cons_cons]
            exact ⟨ha, h2⟩
        · intro x hx
          rcases List.mem_cons.1 hx with rfl | hx
          · exact hs
          · exact h5 x hx

/-- Every vertex of a walk can be reached from its first vertex. -/
theorem WalkFrom.reach {g : DirectedGraph} {s : VertexId} {l : List VertexId} (h : WalkFrom g s l) {v : VertexId} (hv : v ∈ l) : Reach g s v := by
  obtain ⟨h1, h2⟩ := h
  rcases l with _ | ⟨x, t⟩
  · cases hv
  · simp at h2
    subst h2
    induction t generalizing x with
    | nil =>
      simp at hv
      subst hv
      exact .refl
    | cons w t ih =>
      rw [List.isChain_cons_cons] at h1
      rcases List.mem_cons.1 hv with rfl | hv
      · exact .refl
      · exact .head h1.1 (ih w hv h1.2)

/-- The cycles found from the start vertex `s`. -/
theorem found_iff {g : DirectedGraph} (s : VertexId) (c : Cycle) :
    (∃ q : Path, WalkFrom g s q.vertices ∧ q.vertices.dropLast.Nodup ∧ CycleIter.extractCanonicalCycleFromLast q = .done (some c)) ↔
      IsCycle g c.vertices ∧ SmallestFirst c.vertices ∧ ∃ v ∈ c.vertices, Reach g s v := by
  constructor
  · rintro ⟨⟨vs⟩, h1, h2, h3⟩
    simp only at h1 h2
    rcases List.eq_nil_or_concat vs with rfl | ⟨l, v, e⟩
    · simp [WalkFrom] at h1
    · rw [List.concat_eq_append] at e
      subst e
      rw [List.dropLast_concat] at h2
      by_cases hv : v ∈ l
      · obtain ⟨a, b, rfl, hb⟩ := mem_split_last hv
        rw [extract_some hb] at h3
        obtain ⟨c', h4, h5⟩ := Run.bind_eq_done.1 h3
        cases h5
        have hn : (v :: b).Nodup := (List.nodup_append.1 h2).2.1
        obtain ⟨h5, h6⟩ := (canonical_eq_iff hn (by simp)).1 h4
        have hc : IsCycle g (v :: b) := by
          refine ⟨by simp, hn, ?_⟩
          have := h1.1
          rw [List.append_assoc] at this
          simpa using (List.isChain_append.1 this).2.1
        refine ⟨hc.rotated h5, h6, v, h5.mem_iff.1 (by simp), h1.reach (by simp)⟩
      · rw [extract_none hv] at h3
        cases h3
  · rintro ⟨h1, h2, v, hv, hr⟩
    obtain ⟨l, u, h3, h4, h5, h6, h7⟩ := first_hit c.vertices hr hv
    obtain ⟨a, b, hab⟩ := List.append_of_mem h3
    have hrot : c.vertices ~r (u :: (b ++ a)) := by
      rw [hab]
      exact ⟨a.length, by rw [List.rotate_append_length_eq]; rfl⟩
    have hcyc := h1.rotated hrot
    have hub : u ∉ b ++ a := (List.nodup_cons.1 hcyc.2.1).1
    refine ⟨⟨l ++ u :: (b ++ a) ++ [u]⟩, ⟨?_, ?_⟩, ?_, ?_⟩
    · have e : l ++ u :: (b ++ a) ++ [u] = (l ++ [u]) ++ ((b ++ a) ++ [u]) := by simp
      have h8 : (u :: ((b ++ a) ++ [u])).IsChain (Adj g) := by simpa using hcyc.2.2
      simp only
      rw [e, List.isChain_append]
      refine ⟨h4, (List.isChain_cons.1 h8).2, ?_⟩
      intro x hx y hy
      rw [List.getLast?_concat] at hx
      simp at hx
      subst hx
      exact (List.isChain_cons.1 h8).1 y hy
    · simp only
      rw [← h5]
      rcases l with _ | ⟨x, l⟩ <;> simp
    · simp only
      rw [List.dropLast_concat, List.nodup_append]
      refine ⟨h6, hcyc.2.1, ?_⟩
      rintro x hx y hy rfl
      exact h7 x hx (hrot.mem_iff.2 hy)
    · rw [extract_some hub, (canonical_eq_iff hcyc.2.1 (by simp)).2 ⟨hrot.symm, h2⟩, Run.bind_done]

/-- What `cycle_iter` yields. -/
theorem cycle_drains {g : DirectedGraph} (hw : WF g) :
    ∃ xs, Drains (CycleIter.next g) (CycleIter.cycleIter g) xs ∧ xs.Nodup ∧
      ∀ c, c ∈ xs ↔ IsCycle g c.vertices ∧ SmallestFirst c.vertices ∧
        ∃ s ∈ CycleIter.findStartingEdges g, ∃ v ∈ c.vertices, Reach g s v := by
  obtain ⟨xs, h1, h2, h3⟩ := cycle_drains_aux hw _ ((CycleIter.findStartingEdges g).map fun v => ⟨[v]⟩) [] rfl (by
    intro p hp
    obtain ⟨v, hv, rfl⟩ := List.mem_map.1 hp
    exact ⟨by simp, by simp, by simp, by simpa using findStartingEdges_vertex hv⟩)
  rw [cycleIter_eq]
  refine ⟨xs, ?_, h2, ?_⟩
  · rcases h1 with ⟨h1, h4⟩ | ⟨x, s', ys, h1, h4, h5⟩
    · rw [h1]; exact .nil h4.returns
    · rw [h1]; exact .cons h4.returns h5
  · intro c
    rw [h3]
    constructor
    · rintro ⟨_, p, hp, q, hq, he⟩
      obtain ⟨s, hs, rfl⟩ := List.mem_map.1 hp
      obtain ⟨k1, k2⟩ := (descends_cycleChildren hw s q).1 hq
      obtain ⟨k3, k4, k5⟩ := (found_iff s c).1 ⟨q, k1, k2, he⟩
      exact ⟨k3, k4, s, hs, k5⟩
    · rintro ⟨k3, k4, s, hs, k5⟩
      obtain ⟨q, k1, k2, he⟩ := (found_iff s c).2 ⟨k3, k4, k5⟩
      exact ⟨by simp, ⟨[s]⟩, List.mem_map.2 ⟨s, hs, rfl⟩, q, (descends_cycleChildren hw s q).2 ⟨k1, k2⟩, he⟩

/-- The start vertices of `cycle_iter`. -/
theorem mem_findStartingEdges {g : DirectedGraph} (hw : WF g) {s : VertexId} :
    s ∈ CycleIter.findStartingEdges g ↔ IsRoot g s ∨ ((∀ r, ¬ IsRoot g r) ∧ g.headOption = some s) := by
  have hroot : ∀ v, v ∈ (g.vertices.filter fun v => (g.inboundEdges v).length == 0) ↔ IsRoot g v := by
    intro v
    simp only [List.mem_filter, mem_vertices, beq_iff_eq, List.length_eq_zero_iff, IsRoot]
    refine and_congr_right fun _ => ?_
    rw [List.eq_nil_iff_forall_not_mem]
    constructor
    · intro h u ha
      exact h ⟨u, v⟩ (hw.mem_inbound.2 ⟨ha, rfl⟩)
    · rintro h e he
      obtain ⟨h1, h2⟩ := hw.mem_inbound.1 he
      exact h e.src (by subst h2; exact h1)
  unfold CycleIter.findStartingEdges
  dsimp only
  split
  · rename_i he
    rw [List.isEmpty_iff] at he
    have hno : ∀ r, ¬ IsRoot g r := fun r hr => by
      have := (hroot r).2 hr
      rw [he] at this
      cases this
    rw [he]
    simp only [List.nil_append, Option.mem_toList]
    exact ⟨fun h => .inr ⟨hno, h⟩, fun h => h.elim (fun h => absurd h (hno s)) And.right⟩
  · rename_i he
    rw [hroot]
    refine ⟨.inl, fun h => h.elim id fun h => absurd ?_ he⟩
    rw [List.isEmpty_iff, List.eq_nil_iff_forall_not_mem]
    intro r hr
    exact h.1 r ((hroot r).1 hr)

theorem uniqueCount_le (seen l : List VertexId) : uniqueCount seen l ≤ l.length := by
  induction l generalizing seen with
  | nil => simp [uniqueCount]
  | cons v l ih =>
    simp only [uniqueCount, List.length_cons]
    split
    · have := ih seen; omega
    · have := ih (v :: seen); omega

theorem uniqueCount_eq (seen l : List VertexId) : uniqueCount seen l = l.length ↔ l.Nodup ∧ ∀ v ∈ l, v ∉ seen := by
  induction l generalizing seen with
  | nil => simp [uniqueCount]
  | cons v l ih =>
    simp only [uniqueCount, List.length_cons]
    split
    · rename_i h
      rw [List.contains_iff_mem] at h
      have := uniqueCount_le seen l
      constructor
      · intro e; omega
      · rintro ⟨_, h2⟩
        exact absurd h (h2 v (by simp))
    · rename_i h
      rw [List.contains_iff_mem] at h
      have := ih (v :: seen)
      rw [Nat.add_right_cancel_iff, this, List.nodup_cons]
      constructor
      · rintro ⟨h1, h2⟩
        refine ⟨⟨fun hv => h2 v hv (by simp), h1⟩, ?_⟩
        intro w hw
        rcases List.mem_cons.1 hw with rfl | hw
        · exact h
        · exact fun hs => h2 w hw (by simp [hs])
      · rintro ⟨⟨h1, h2⟩, h3⟩
        refine ⟨h2, fun w hw => ?_⟩
        rw [List.mem_cons, not_or]
        exact ⟨fun e => h1 (e ▸ hw), h3 w (by simp [hw])⟩

theorem closing_or_open {l : List VertexId} {e : Edge} : CycleTraverses l e ↔ Traverses ⟨l⟩ e ∨ IsClosingEdge l e := by
  unfold CycleTraverses IsClosingEdge Traverses At
  rcases l with _ | ⟨x, l⟩
  · simp
  · simp only [List.head?_cons, Option.toList_some]
    constructor
    · rintro ⟨i, h1, h2⟩
      have hi : i + 1 < (x :: l).length + 1 := by
        have := (List.getElem?_eq_some_iff.1 h2).1
        simpa using this
      rw [List.getElem?_append_left (by omega)] at h1
      by_cases h : i + 1 < (x :: l).length
      · rw [List.getElem?_append_left h] at h2
        exact .inl ⟨i, h1, h2⟩
      · right
        have hi : i + 1 = (x :: l).length := by omega
        rw [List.getElem?_append_right (by omega), hi] at h2
        simp only [Nat.sub_self, List.getElem?_cons_zero] at h2
        refine ⟨?_, h2⟩
        rw [List.getLast?_eq_getElem?, ← hi]
        simpa using h1
    · rintro (⟨i, h1, h2⟩ | ⟨h1, h2⟩)
      · refine ⟨i, ?_, ?_⟩
        · rw [List.getElem?_append_left (List.getElem?_eq_some_iff.1 h1).1]
          exact h1
        · rw [List.getElem?_append_left (List.getElem?_eq_some_iff.1 h2).1]
          exact h2
      · rw [List.getLast?_eq_getElem?] at h1
        refine ⟨(x :: l).length - 1, ?_, ?_⟩
        · rw [List.getElem?_append_left (by simp)]
          exact h1
        · rw [List.getElem?_append_right (by simp)]
          simpa using h2

theorem showId_injective {u v : VertexId} (h : Text.showId u = Text.showId v) : u = v := by
  have h1 := denotes_showId u
  rw [h] at h1
  have := Numeral.unique h1 (denotes_showId v)
  have := UInt64.toNat_inj.1 this
  cases u; cases v; simp_all

theorem digits_append {A B r s : List Char} {x y : Char} (hA : ∀ c ∈ A, Text.isAsciiDigit c = true) (hB : ∀ c ∈ B, Text.isAsciiDigit c = true)
    (hx : Text.isAsciiDigit x = false) (hy : Text.isAsciiDigit y = false) (h : A ++ x :: r = B ++ y :: s) : A = B ∧ x = y ∧ r = s := by
  induction A generalizing B with
  | nil =>
    rcases B with _ | ⟨b, B⟩
    · simpa using h
    · simp only [List.nil_append, List.cons_append, List.cons.injEq] at h
      have := hB b (by simp)
      rw [← h.1, hx] at this
      cases this
  | cons a A ih =>
    rcases B with _ | ⟨b, B⟩
    · simp only [List.nil_append, List.cons_append, List.cons.injEq] at h
      have := hA a (by simp)
      rw [h.1, hy] at this
      cases this
    · simp only [List.cons_append, List.cons.injEq] at h
      obtain ⟨e1, e2⟩ := h
      obtain ⟨e3, e4⟩ := ih (fun c hc => hA c (by simp [hc])) (fun c hc => hB c (by simp [hc])) e2
      exact ⟨by rw [e1, e3], e4⟩

/-- `showList` after the first id. -/
theorem showList_cons (v : VertexId) (l : List VertexId) :
    ∃ t, GcCycle.showList (v :: l) ++ [']'] = Text.showId v ++ t ∧
      ((l = [] ∧ t = [']']) ∨ (l ≠ [] ∧ t = ',' :: ' ' :: (GcCycle.showList l ++ [']']))) := by
  rcases l with _ | ⟨w, l⟩
  · exact ⟨_, rfl, .inl ⟨rfl, rfl⟩⟩
  · exact ⟨_, by simp [GcCycle.showList], .inr ⟨by simp, rfl⟩⟩

theorem showId_ascii (v : VertexId) : ∀ c ∈ Text.showId v, Text.isAsciiDigit c = true := Numeral.ascii (denotes_showId v)

theorem showList_injective {l m : List VertexId} (h : GcCycle.showList l ++ [']'] = GcCycle.showList m ++ [']']) : l = m := by
  induction l generalizing m with
  | nil =>
    rcases m with _ | ⟨w, m⟩
    · rfl
    · exfalso
      obtain ⟨t, e, _⟩ := showList_cons w m
      rw [e] at h
      have hn := Numeral.ne_nil (denotes_showId w)
      obtain ⟨c, cs, hc⟩ := List.exists_cons_of_ne_nil hn
      have h2 := showId_ascii w c (by rw [hc]; simp)
      rw [hc] at h
      simp [GcCycle.showList] at h
      rw [← h.1] at h2
      exact absurd h2 (by decide)
  | cons v l ih =>
    obtain ⟨t, e, ht⟩ := showList_cons v l
    rcases m with _ | ⟨w, m⟩
    · exfalso
      rw [e] at h
      obtain ⟨c, cs, hc⟩ := List.exists_cons_of_ne_nil (Numeral.ne_nil (denotes_showId v))
      have h2 := showId_ascii v c (by rw [hc]; simp)
      rw [hc] at h
      simp [GcCycle.showList] at h
      rw [h.1] at h2
      exact absurd h2 (by decide)
    · obtain ⟨t', e', ht'⟩ := showList_cons w m
      rw [e, e'] at h
      rcases ht with ⟨h1, rfl⟩ | ⟨h1, rfl⟩ <;> rcases ht' with ⟨h2, rfl⟩ | ⟨h2, rfl⟩
      · have := digits_append (showId_ascii v) (showId_ascii w) (by decide) (by decide) h
        rw [h1, h2, showId_injective this.1]
      · have := (digits_append (showId_ascii v) (showId_ascii w) (by decide) (by decide) h).2.1
        exact absurd this (by decide)
      · have := (digits_append (showId_ascii v) (showId_ascii w) (by decide) (by decide) h).2.1
        exact absurd this (by decide)
      · obtain ⟨h3, _, h4⟩ := digits_append (showId_ascii v) (showId_ascii w) (by decide) (by decide) h
        rw [showId_injective h3, ih (List.cons.inj h4).2]

end GC
