/- Lemmas about the association-list model of hash maps. -/
import Verif.Model.Graph
import Mathlib.Data.List.Nodup
import Mathlib.Data.List.Perm.Basic
namespace GC
namespace HMap
variable {K V : Type} [DecidableEq K]

@[simp] theorem get?_nil (k : K) : get? ([] : HMap K V) k = none := rfl

theorem get?_cons (p : K × V) (m : HMap K V) (k : K) :
    get? (p :: m) k = if p.1 = k then some p.2 else get? m k := rfl

theorem get?_isSome_iff {m : HMap K V} {k : K} : (get? m k).isSome = true ↔ k ∈ keys m := by
  induction m with
  | nil => simp [keys]
  | cons p m ih =>
    rw [get?_cons]
    by_cases h : p.1 = k
    · simp [h, keys]
    · simp only [h, if_false, ih, keys, List.map_cons, List.mem_cons]
      constructor
      · exact Or.inr
      · rintro (h' | h')
        · exact absurd h'.symm h
        · exact h'

theorem get?_eq_none_iff {m : HMap K V} {k : K} : get? m k = none ↔ k ∉ keys m := by
  rw [← get?_isSome_iff]; cases get? m k <;> simp

theorem containsKey_iff {m : HMap K V} {k : K} : containsKey m k = true ↔ k ∈ keys m := get?_isSome_iff

theorem get?_mem {m : HMap K V} {k : K} {v : V} (h : get? m k = some v) : (k, v) ∈ m := by
  induction m with
  | nil => simp at h
  | cons p m ih =>
    rw [get?_cons] at h
    split at h
    · rename_i e
      cases h; cases p; simp_all
    · exact List.mem_cons_of_mem _ (ih h)

theorem get?_eq_some_iff {m : HMap K V} (hm : (keys m).Nodup) {k : K} {v : V} :
    get? m k = some v ↔ (k, v) ∈ m := by
  constructor
  · exact get?_mem
  · intro h
    induction m with
    | nil => simp at h
    | cons p m ih =>
      simp only [keys, List.map_cons, List.nodup_cons] at hm
      rw [get?_cons]
      rcases List.mem_cons.1 h with h | h
      · subst h; simp
      · have : p.1 ≠ k := by
          rintro rfl
          exact hm.1 (List.mem_map.2 ⟨_, h, rfl⟩)
        simp [this, ih hm.2 h]

theorem get?_perm {m m' : HMap K V} (hm : (keys m).Nodup) (h : m.Perm m') (k : K) :
    get? m k = get? m' k := by
  have hm' : (keys m').Nodup := (h.map Prod.fst).nodup_iff.1 hm
  apply Option.ext
  intro v
  rw [get?_eq_some_iff hm, get?_eq_some_iff hm', h.mem_iff]

@[simp] theorem keys_modify (m : HMap K V) (k : K) (f : V → V) : keys (modify m k f) = keys m := by
  simp only [keys, modify, List.map_map]
  congr 1
  funext p
  simp only [Function.comp]
  split <;> rfl

theorem get?_modify (m : HMap K V) (k : K) (f : V → V) (x : K) :
    get? (modify m k f) x = if x = k then (get? m x).map f else get? m x := by
  induction m with
  | nil => simp [modify]
  | cons p m ih =>
    have e : modify (p :: m) k f = (if p.1 = k then (p.1, f p.2) else p) :: modify m k f := rfl
    rw [e, get?_cons, get?_cons, ih]
    by_cases h1 : p.1 = k <;> by_cases h2 : x = k <;> by_cases h3 : p.1 = x <;> simp_all

theorem get?_insert (m : HMap K V) (k : K) (v : V) (x : K) :
    get? (insert m k v) x = if x = k then some v else get? m x := by
  induction m with
  | nil =>
    simp only [insert, get?_cons, get?_nil]
    by_cases h : k = x
    · simp [h]
    · simp [h, Ne.symm h]
  | cons p m ih =>
    obtain ⟨k', v'⟩ := p
    simp only [insert]
    split
    · rename_i h
      subst h
      rw [get?_cons, get?_cons]
      by_cases h : k' = x
      · simp [h]
      · simp [h, Ne.symm h]
    · rename_i h
      rw [get?_cons, get?_cons, ih]
      by_cases h2 : k' = x <;> by_cases h3 : x = k <;> simp_all

theorem keys_insert (m : HMap K V) (k : K) (v : V) :
    keys (insert m k v) = if k ∈ keys m then keys m else keys m ++ [k] := by
  induction m with
  | nil => simp [insert, keys]
  | cons p m ih =>
    obtain ⟨k', v'⟩ := p
    simp only [insert]
    split
    · rename_i h; subst h; simp [keys]
    · rename_i h
      have e1 : keys ((k', v') :: insert m k v) = k' :: keys (insert m k v) := rfl
      have e2 : keys ((k', v') :: m) = k' :: keys m := rfl
      rw [e1, e2, ih]
      by_cases h2 : k ∈ keys m
      · simp [h2]
      · simp [h2, Ne.symm h]

theorem nodup_keys_insert {m : HMap K V} (hm : (keys m).Nodup) (k : K) (v : V) :
    (keys (insert m k v)).Nodup := by
  rw [keys_insert]
  split
  · exact hm
  · rename_i h
    rw [List.nodup_append]
    refine ⟨hm, by simp, ?_⟩
    intro a ha b hb
    simp only [List.mem_singleton] at hb
    subst hb
    rintro rfl
    exact h ha

theorem mem_keys_insert {m : HMap K V} {k x : K} {v : V} : x ∈ keys (insert m k v) ↔ x = k ∨ x ∈ keys m := by
  rw [← get?_isSome_iff, get?_insert, ← get?_isSome_iff]
  by_cases h : x = k <;> simp [h]

theorem get?_remove (m : HMap K V) (k x : K) :
    get? (remove m k) x = if x = k then none else get? m x := by
  induction m with
  | nil => simp [remove]
  | cons p m ih =>
    simp only [remove] at ih
    simp only [remove, List.filter_cons]
    by_cases h : p.1 = k
    · simp only [h, ne_eq, not_true, decide_false, Bool.false_eq_true, if_false, ih, get?_cons]
      by_cases h2 : x = k
      · simp [h2]
      · simp [h2, Ne.symm h2]
    · simp only [h, ne_eq, not_false_iff, decide_true, if_true, get?_cons, ih]
      by_cases h2 : x = k <;> by_cases h3 : p.1 = x <;> simp_all

theorem keys_remove (m : HMap K V) (k : K) : keys (remove m k) = (keys m).filter (fun x => x ≠ k) := by
  simp only [keys, remove, List.filter_map]
  rfl

theorem nodup_keys_remove {m : HMap K V} (hm : (keys m).Nodup) (k : K) : (keys (remove m k)).Nodup := by
  rw [keys_remove]; exact hm.filter _

end HMap
end GC
