/-
The algorithm of std `BinaryHeap` meets the contract of the abstract heap.
-/
import Verif.Model.StdHeap
namespace GC
namespace StdHeap
variable {T : Type} {le : T → T → Bool}

theorem swap_eq {a : List T} {i j : Nat} {x y : T} (hi : a[i]? = some x) (hj : a[j]? = some y) : swap a i j = (a.set i y).set j x := by
  unfold swap; rw [hi, hj]

theorem length_swap (a : List T) (i j : Nat) : (swap a i j).length = a.length := by
  unfold swap; split <;> simp

theorem swap_perm (a : List T) (i j : Nat) : (swap a i j).Perm a := by
  unfold swap
  split
  · rename_i x y hi hj
    obtain ⟨h1, rfl⟩ := List.getElem?_eq_some_iff.1 hi
    obtain ⟨h2, rfl⟩ := List.getElem?_eq_some_iff.1 hj
    exact List.set_set_perm h1 h2
  · exact .refl _

theorem getElem?_swap {a : List T} {i j : Nat} {x y : T} (hi : a[i]? = some x) (hj : a[j]? = some y) (k : Nat) :
    (swap a i j)[k]? = if k = j then some x else if k = i then some y else a[k]? := by
  rw [swap_eq hi hj]
  obtain ⟨h1, _⟩ := List.getElem?_eq_some_iff.1 hi
  obtain ⟨h2, _⟩ := List.getElem?_eq_some_iff.1 hj
  by_cases hk : k = j
  · subst hk; rw [if_pos rfl, List.getElem?_set_self (by simpa using h2)]
  · rw [if_neg hk, List.getElem?_set_ne (fun h => hk h.symm)]
    by_cases hk' : k = i
    · subst hk'; rw [if_pos rfl, List.getElem?_set_self h1]
    · rw [if_neg hk', List.getElem?_set_ne (fun h => hk' h.symm)]

/-- The item at `i` is at most the item at `j`. -/
def Le (le : T → T → Bool) (a : List T) (i j : Nat) : Prop := ∀ x y, a[i]? = some x → a[j]? = some y → le x y = true

/-- Every item is at most its parent. -/
def IsHeap (le : T → T → Bool) (a : List T) : Prop := ∀ i, 0 < i → Le le a i ((i - 1) / 2)

/-- Every item but the one at `pos` is at most its parent, and the children of `pos` are at most its parent. -/
structure UpTo (le : T → T → Bool) (a : List T) (pos : Nat) : Prop where
  other : ∀ i, 0 < i → i ≠ pos → Le le a i ((i - 1) / 2)
  over : ∀ i, 0 < i → (i - 1) / 2 = pos → 0 < pos → Le le a i ((pos - 1) / 2)

/-- Every item but the one at `pos` and its children is at most its parent, and the children of `pos` are at most its parent. -/
structure DownTo (le : T → T → Bool) (a : List T) (pos : Nat) : Prop where
  other : ∀ i, 0 < i → i ≠ pos → (i - 1) / 2 ≠ pos → Le le a i ((i - 1) / 2)
  over : ∀ i, 0 < i → (i - 1) / 2 = pos → 0 < pos → Le le a i ((pos - 1) / 2)

theorem getElem?_lt {a : List T} {i : Nat} (h : i < a.length) : ∃ x, a[i]? = some x := ⟨a[i], List.getElem?_eq_getElem h⟩

theorem leAt_iff {a : List T} {i j : Nat} : leAt le a i j = true ↔ Le le a i j := by
  unfold leAt Le
  cases a[i]? with
  | none => simp
  | some x => cases a[j]? with
    | none => simp
    | some y => simp

section
variable (total : ∀ a b, le a b = true ∨ le b a = true) (trans : ∀ a b c, le a b = true → le b c = true → le a c = true)
include total trans

theorem upTo_step {a : List T} {pos : Nat} (hp : 0 < pos) (hlt : pos < a.length) (h : UpTo le a pos) (hnot : ¬ Le le a pos ((pos - 1) / 2)) :
    UpTo le (swap a pos ((pos - 1) / 2)) ((pos - 1) / 2) := by
  obtain ⟨x, hx⟩ := getElem?_lt hlt
  obtain ⟨y, hy⟩ := getElem?_lt (show (pos - 1) / 2 < a.length by omega)
  have hyx : le y x = true := by
    rcases total x y with h' | h'
    · exfalso
      apply hnot
      intro x' y' hx' hy'
      rw [hx] at hx'; rw [hy] at hy'
      cases hx'; cases hy'; exact h'
    · exact h'
  have hg := getElem?_swap hx hy
  constructor
  · intro i hi hne u v hu hv
    rw [hg] at hu hv
    by_cases h1 : i = pos
    · subst h1
      rw [if_neg (by omega), if_pos rfl] at hu
      rw [if_pos rfl] at hv
      cases hu; cases hv; exact hyx
    · rw [if_neg hne, if_neg h1] at hu
      by_cases h2 : (i - 1) / 2 = (pos - 1) / 2
      · rw [if_pos h2] at hv
        cases hv
        exact trans _ _ _ (h.other i hi h1 u y hu (by rw [h2]; exact hy)) hyx
      · rw [if_neg h2] at hv
        by_cases h3 : (i - 1) / 2 = pos
        · rw [if_pos h3] at hv
          cases hv
          exact h.over i hi h3 hp u y hu hy
        · rw [if_neg h3] at hv
          exact h.other i hi h1 u v hu hv
  · intro i hi hpar hpp u v hu hv
    rw [hg] at hu hv
    rw [if_neg (by omega), if_neg (by omega)] at hv
    have hyv : le y v = true := h.other ((pos - 1) / 2) hpp (by omega) y v hy hv
    by_cases h1 : i = pos
    · subst h1
      rw [if_neg (by omega), if_pos rfl] at hu
      cases hu
      exact hyv
    · rw [if_neg (by omega), if_neg h1] at hu
      exact trans _ _ _ (h.other i hi h1 u y hu (by rw [hpar]; exact hy)) hyv

theorem siftUp_heap (fuel : Nat) {a : List T} {pos : Nat} (hf : pos ≤ fuel) (hlt : pos < a.length ∨ pos = 0) (h : UpTo le a pos) :
    IsHeap le (siftUp le fuel a pos) := by
  induction fuel generalizing a pos with
  | zero =>
    intro i hi
    exact h.other i hi (by omega)
  | succ fuel ih =>
    rw [siftUp]
    split
    · rename_i h0
      intro i hi
      exact h.other i hi (by omega)
    · rename_i h0
      split
      · rename_i hle
        intro i hi
        by_cases hip : i = pos
        · subst hip; exact leAt_iff.1 hle
        · exact h.other i hi hip
      · rename_i hle
        apply ih (by omega)
        · left; rw [length_swap]; omega
        · exact upTo_step total trans (by omega) (by omega) h (fun h' => hle (leAt_iff.2 h'))

omit total trans in
theorem downTo_step {a : List T} {pos child : Nat} (hc : 0 < child) (hpar : (child - 1) / 2 = pos) (hlt : child < a.length)
    (h : DownTo le a pos) (hbest : ∀ i, 0 < i → (i - 1) / 2 = pos → i ≠ child → Le le a i child) :
    DownTo le (swap a pos child) child := by
  obtain ⟨x, hx⟩ := getElem?_lt (show pos < a.length by omega)
  obtain ⟨y, hy⟩ := getElem?_lt hlt
  have hg := getElem?_swap hx hy
  constructor
  · intro i hi hne hpne u v hu hv
    rw [hg] at hu hv
    rw [if_neg hne] at hu
    rw [if_neg hpne] at hv
    by_cases h1 : i = pos
    · rw [if_pos h1] at hu
      rw [if_neg (by omega)] at hv
      cases hu
      exact h.over child hc hpar (by omega) y v hy (by rw [← h1]; exact hv)
    · rw [if_neg h1] at hu
      by_cases h2 : (i - 1) / 2 = pos
      · rw [if_pos h2] at hv
        cases hv
        exact hbest i hi h2 hne u y hu hy
      · rw [if_neg h2] at hv
        exact h.other i hi h1 h2 u v hu hv
  · intro i hi hpar' hcp u v hu hv
    rw [hg] at hu hv
    rw [if_neg (by omega), if_neg (by omega)] at hu
    rw [if_neg (by omega), if_pos hpar] at hv
    cases hv
    exact h.other i hi (by omega) (by omega) u y hu (by rw [hpar']; exact hy)

omit trans in
theorem siftDown_upTo (fuel : Nat) {a : List T} {pos : Nat} (hf : a.length ≤ pos + fuel) (hlt : pos < a.length) (h : DownTo le a pos) :
    UpTo le (siftDown le fuel a pos).1 (siftDown le fuel a pos).2 ∧ (siftDown le fuel a pos).2 < (siftDown le fuel a pos).1.length := by
  induction fuel generalizing a pos with
  | zero => omega
  | succ fuel ih =>
    rw [siftDown]
    dsimp only
    split
    · rename_i hlen
      have key : ∀ child, child = 2 * pos + 1 ∨ child = 2 * pos + 2 → (∀ i, 0 < i → (i - 1) / 2 = pos → i ≠ child → Le le a i child) →
          UpTo le (siftDown le fuel (swap a pos child) child).1 (siftDown le fuel (swap a pos child) child).2 ∧
          (siftDown le fuel (swap a pos child) child).2 < (siftDown le fuel (swap a pos child) child).1.length := by
        intro child hch hbest
        exact ih (by rw [length_swap]; omega) (by rw [length_swap]; omega)
          (downTo_step (by omega) (by omega) (by omega) h hbest)
      split
      · rename_i hle
        apply key _ (Or.inr rfl)
        intro i hi hpar hne
        have : i = 2 * pos + 1 := by omega
        subst this
        exact leAt_iff.1 hle
      · rename_i hle
        apply key _ (Or.inl rfl)
        intro i hi hpar hne
        have : i = 2 * pos + 1 + 1 := by omega
        subst this
        intro u v hu hv
        rcases total u v with h' | h'
        · exact h'
        · exfalso
          apply hle
          rw [leAt_iff]
          intro u' v' hu' hv'
          rw [hv] at hu'; rw [hu] at hv'
          cases hu'; cases hv'; exact h'
    · rename_i hlen
      split
      · rename_i hlen'
        have hd : DownTo le (swap a pos (2 * pos + 1)) (2 * pos + 1) := by
          refine downTo_step (by omega) (by omega) (by omega) h ?_
          intro i hi hpar hne u v hu hv
          have : i < a.length := (List.getElem?_eq_some_iff.1 hu).1
          omega
        refine ⟨⟨fun i hi hne => ?_, fun i hi hpar hp => ?_⟩, by rw [length_swap]; omega⟩
        · intro u v hu hv
          have : i < (swap a pos (2 * pos + 1)).length := (List.getElem?_eq_some_iff.1 hu).1
          rw [length_swap] at this
          exact hd.other i hi hne (by omega) u v hu hv
        · intro u v hu hv
          have : i < (swap a pos (2 * pos + 1)).length := (List.getElem?_eq_some_iff.1 hu).1
          rw [length_swap] at this
          omega
      · rename_i hlen'
        refine ⟨⟨fun i hi hne => ?_, fun i hi hpar hp => ?_⟩, hlt⟩
        · intro u v hu hv
          have : i < a.length := (List.getElem?_eq_some_iff.1 hu).1
          exact h.other i hi hne (by omega) u v hu hv
        · intro u v hu hv
          have : i < a.length := (List.getElem?_eq_some_iff.1 hu).1
          omega

theorem heap_max {a : List T} (h : IsHeap le a) {x : T} (hx : a[0]? = some x) : ∀ y ∈ a, le y x = true := by
  have : ∀ (i : Nat) y, a[i]? = some y → le y x = true := by
    intro i
    induction i using Nat.strongRecOn with
    | ind i ih =>
      intro y hy
      by_cases h0 : i = 0
      · subst h0
        rw [hx] at hy
        cases hy
        exact (total x x).elim id id
      · have hlt := (List.getElem?_eq_some_iff.1 hy).1
        obtain ⟨z, hz⟩ := getElem?_lt (show (i - 1) / 2 < a.length by omega)
        exact trans _ _ _ (h i (by omega) y z hy hz) (ih _ (by omega) z hz)
  intro y hy
  obtain ⟨i, hi⟩ := List.getElem?_of_mem hy
  exact this i y hi

theorem push_heap {a : List T} (h : IsHeap le a) (x : T) : IsHeap le (push le a x) := by
  refine siftUp_heap total trans _ (Nat.le_refl _) (Or.inl (by simp)) ⟨fun i hi hne u v hu hv => ?_, fun i hi hpar hp u v hu hv => ?_⟩
  · have hlt := (List.getElem?_eq_some_iff.1 hu).1
    rw [List.length_append, List.length_singleton] at hlt
    rw [List.getElem?_append_left (by omega)] at hu hv
    exact h i hi u v hu hv
  · have hlt := (List.getElem?_eq_some_iff.1 hu).1
    rw [List.length_append, List.length_singleton] at hlt
    omega

omit total trans in
theorem siftUp_perm (fuel : Nat) (a : List T) (pos : Nat) : (siftUp le fuel a pos).Perm a := by
  induction fuel generalizing a pos with
  | zero => exact .refl _
  | succ fuel ih =>
    rw [siftUp]
    split
    · exact .refl _
    · split
      · exact .refl _
      · exact (ih _ _).trans (swap_perm _ _ _)

omit total trans in
theorem siftDown_perm (fuel : Nat) (a : List T) (pos : Nat) : (siftDown le fuel a pos).1.Perm a := by
  induction fuel generalizing a pos with
  | zero => exact .refl _
  | succ fuel ih =>
    rw [siftDown]
    dsimp only
    split
    · exact (ih _ _).trans (swap_perm _ _ _)
    · split
      · exact swap_perm _ _ _
      · exact .refl _

omit total trans in
theorem push_perm (a : List T) (x : T) : (push le a x).Perm (x :: a) :=
  (siftUp_perm _ _ _).trans (List.perm_append_singleton x a)

theorem pop_spec {a : List T} (h : IsHeap le a) {x : T} {a' : List T} (hp : pop le a = some (x, a')) :
    IsHeap le a' ∧ a.Perm (x :: a') ∧ ∀ y ∈ a, le y x = true := by
  unfold pop at hp
  rcases List.eq_nil_or_concat a with rfl | ⟨l, item, rfl⟩
  · cases hp
  · rw [List.concat_eq_append] at h hp ⊢
    simp only [List.getLast?_append, List.getLast?_singleton, Option.some_or, List.dropLast_concat] at hp
    cases l with
    | nil =>
      simp only [Option.some.injEq, Prod.mk.injEq] at hp
      obtain ⟨rfl, rfl⟩ := hp
      refine ⟨fun i hi u v hu => by simp at hu, .refl _, ?_⟩
      intro y hy
      simp only [List.nil_append, List.mem_singleton] at hy
      subst hy
      exact (total y y).elim id id
    | cons first l =>
      simp only [Option.some.injEq, Prod.mk.injEq] at hp
      obtain ⟨rfl, rfl⟩ := hp
      have hd : DownTo le (item :: l) 0 := by
        constructor
        · intro i hi hne hpar u v hu hv
          obtain ⟨i, rfl⟩ : ∃ k, i = k + 1 := ⟨i - 1, by omega⟩
          obtain ⟨j, hj⟩ : ∃ k, (i + 1 - 1) / 2 = k + 1 := ⟨(i + 1 - 1) / 2 - 1, by omega⟩
          have hlt := (List.getElem?_eq_some_iff.1 hu).1
          rw [hj] at hv
          rw [List.getElem?_cons_succ] at hu hv
          refine h (i + 1) hi u v ?_ ?_
          · rw [List.cons_append, List.getElem?_cons_succ, List.getElem?_append_left (by simpa using hlt)]; exact hu
          · simp only [List.length_cons] at hlt
            rw [hj, List.cons_append, List.getElem?_cons_succ, List.getElem?_append_left (by omega)]; exact hv
        · intro i hi hpar h0; omega
      have hs := siftDown_upTo total (l.length + 1) (a := item :: l) (pos := 0) (by simp) (by simp) hd
      refine ⟨siftUp_heap total trans _ (Nat.le_refl _) (Or.inl hs.2) hs.1, ?_, heap_max total trans h (by simp)⟩
      exact ((List.perm_append_singleton item l).trans ((siftUp_perm _ _ _).trans (siftDown_perm _ _ _)).symm).cons first

omit total trans in
theorem pop_none {a : List T} (h : pop le a = none) : a = [] := by
  rcases List.eq_nil_or_concat a with rfl | ⟨l, item, rfl⟩
  · rfl
  · unfold pop at h
    rw [List.concat_eq_append] at h
    simp only [List.getLast?_append, List.getLast?_singleton, Option.some_or, List.dropLast_concat] at h
    cases l <;> cases h

end

/-- The algorithm of the standard library as an instance of the abstract heap. -/
def stdHeap (le : T → T → Bool) (total : ∀ a b, le a b = true ∨ le b a = true)
    (trans : ∀ a b c, le a b = true → le b c = true → le a c = true) : BinaryHeap T le where
  Heap := { a : List T // IsHeap le a }
  new := ⟨[], fun i hi u v hu => by simp at hu⟩
  push h x := ⟨push le h.1 x, push_heap total trans h.2 x⟩
  pop h := match hp : pop le h.1 with
    | none => none
    | some (x, a) => some (x, ⟨a, (pop_spec total trans h.2 hp).1⟩)
  items h := h.1
  items_new := rfl
  items_push h x := push_perm h.1 x
  pop_none h hn := by
    split at hn
    · rename_i hp; exact pop_none hp
    · cases hn
  pop_some h x h' hs := by
    split at hs
    · cases hs
    · rename_i y a hp
      cases hs
      exact (pop_spec total trans h.2 hp).2

end StdHeap
end GC
