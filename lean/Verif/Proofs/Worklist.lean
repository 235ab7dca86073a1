/-
Generic lemmas about worklist searches: with a visited set (`SearchInv`), and over a tree (`TreeInv`).
-/
import Verif.Proofs.Prog
import Verif.Model.Iter
import Mathlib.Logic.Relation
import Mathlib.Data.List.Perm.Basic
import Mathlib.Data.List.Perm.Subperm
import Mathlib.Data.List.Nodup
import Mathlib.Tactic.Tauto
namespace GC
variable {T V : Type}

/-! ### Searches with a visited set -/

/-- Reachability through a successor function. -/
def ReachBy (outs : V → List V) : V → V → Prop := Relation.ReflTransGen fun u v => v ∈ outs u

/-- Invariant of a search with a visited set: `done` was yielded, `items` are waiting. -/
structure SearchInv (outs : V → List V) (start : V) (key : T → V) (done items : List T) (visited : List V) : Prop where
  nodup : ((done ++ items).map key).Nodup
  mem : ∀ v, v ∈ visited ↔ v ∈ (done ++ items).map key
  vnodup : visited.Nodup
  reach : ∀ v ∈ visited, ReachBy outs start v
  start : start ∈ visited
  closed : ∀ x ∈ done, ∀ v ∈ outs (key x), v ∈ visited

set_option linter.unusedSectionVars false
variable [DecidableEq V]

theorem SearchInv.init {outs : V → List V} {start : V} {key : T → V} {x : T} {items : List T} (hk : key x = start) (hi : items = [x]) :
    SearchInv outs start key [] items [start] := by
  subst hi
  exact ⟨by simp, by intro v; simp [hk], by simp, by intro v hv; simp at hv; subst hv; exact .refl, by simp, by simp⟩

theorem SearchInv.perm {outs : V → List V} {start : V} {key : T → V} {done items items' : List T} {visited : List V}
    (h : SearchInv outs start key done items visited) (hp : items.Perm items') : SearchInv outs start key done items' visited :=
  ⟨(((hp.append_left done).map key).nodup_iff).1 h.nodup,
    fun v => (h.mem v).trans (((hp.append_left done).map key).mem_iff), h.vnodup, h.reach, h.start, h.closed⟩

/-- The out-neighbours that are not yet visited. -/
def fresh (outs : V → List V) (u : V) (visited : List V) : List V := (outs u).filter fun v => decide (v ∉ visited)

theorem mem_fresh {outs : V → List V} {u v : V} {visited : List V} : v ∈ fresh outs u visited ↔ v ∈ outs u ∧ v ∉ visited := by
  simp [fresh]

theorem SearchInv.step {outs : V → List V} (hn : ∀ u, (outs u).Nodup) {start : V} {key : T → V} {child : T → V → T}
    (hk : ∀ x v, key (child x v) = v) {done items l items' : List T} {visited : List V} {x : T}
    (h : SearchInv outs start key done items visited) (hp : items.Perm (x :: l))
    (hp' : items'.Perm (l ++ (fresh outs (key x) visited).map (child x))) :
    SearchInv outs start key (done ++ [x]) items' ((fresh outs (key x) visited).reverse ++ visited) := by
  have h := h.perm hp
  refine SearchInv.perm (items := l ++ (fresh outs (key x) visited).map (child x)) ?_ hp'.symm
  have e : (done ++ [x] ++ (l ++ (fresh outs (key x) visited).map (child x))).map key =
      (done ++ x :: l).map key ++ fresh outs (key x) visited := by
    simp [List.map_append, Function.comp_def, hk]
  refine ⟨?_, ?_, ?_, ?_, ?_, ?_⟩
  · rw [e, List.nodup_append]
    refine ⟨h.nodup, (hn _).filter _, ?_⟩
    rintro a ha b hb rfl
    exact (mem_fresh.1 hb).2 ((h.mem a).2 ha)
  · intro v
    rw [e, List.mem_append, List.mem_append, h.mem v, List.mem_reverse]
    tauto
  · rw [List.nodup_append]
    refine ⟨List.nodup_reverse.2 ((hn _).filter _), h.vnodup, ?_⟩
    rintro a ha b hb rfl
    exact (mem_fresh.1 (List.mem_reverse.1 ha)).2 hb
  · intro v hv
    rcases List.mem_append.1 hv with hv | hv
    · have hx : key x ∈ visited := (h.mem _).2 (by simp)
      exact (h.reach _ hx).tail (mem_fresh.1 (List.mem_reverse.1 hv)).1
    · exact h.reach v hv
  · exact List.mem_append_right _ h.start
  · intro y hy v hv
    rcases List.mem_append.1 hy with hy | hy
    · exact List.mem_append_right _ (h.closed y hy v hv)
    · simp only [List.mem_singleton] at hy
      subst hy
      by_cases hvis : v ∈ visited
      · exact List.mem_append_right _ hvis
      · exact List.mem_append_left _ (List.mem_reverse.2 (mem_fresh.2 ⟨hv, hvis⟩))

theorem SearchInv.finished {outs : V → List V} {start : V} {key : T → V} {done : List T} {visited : List V}
    (h : SearchInv outs start key done [] visited) :
    (done.map key).Nodup ∧ ∀ v, v ∈ done.map key ↔ ReachBy outs start v := by
  refine ⟨by simpa using h.nodup, fun v => ⟨fun hv => h.reach v ((h.mem v).2 (by simpa using hv)), fun hr => ?_⟩⟩
  have : v ∈ visited := by
    induction hr with
    | refl => exact h.start
    | tail _ hb ih =>
      obtain ⟨x, hx, rfl⟩ := List.mem_map.1 ((h.mem _).1 ih)
      exact h.closed x (by simpa using hx) _ hb
  simpa using (h.mem v).1 this

/-- A measure that decreases with every item taken. -/
theorem SearchInv.measure {outs : V → List V} {start : V} {key : T → V} {child : T → V → T}
    {done items l items' : List T} {visited : List V} {x : T} (all : List V) (hall : ∀ v, ReachBy outs start v → v ∈ all)
    (h' : SearchInv outs start key (done ++ [x]) items' ((fresh outs (key x) visited).reverse ++ visited)) (hp : items.Perm (x :: l))
    (hp' : items'.Perm (l ++ (fresh outs (key x) visited).map (child x))) :
    2 * (all.length - ((fresh outs (key x) visited).reverse ++ visited).length) + items'.length <
      2 * (all.length - visited.length) + items.length := by
  have hle : ((fresh outs (key x) visited).reverse ++ visited).length ≤ all.length :=
    (List.subperm_of_subset h'.vnodup fun v hv => hall v (h'.reach v hv)).length_le
  have e1 := hp.length_eq
  have e2 := hp'.length_eq
  simp only [List.length_append, List.length_reverse, List.length_cons, List.length_map] at *
  omega

/-- The generic search theorem: every iterator that takes an item, yields it and adds its unvisited out-neighbours, visits every
reachable vertex once. `P` holds for all items. -/
theorem search_drains {σ : Type} {outs : V → List V} (hn : ∀ u, (outs u).Nodup) {start : V} {key : T → V} {child : T → V → T}
    (hk : ∀ x v, key (child x v) = v) (all : List V) (hall : ∀ v, ReachBy outs start v → v ∈ all)
    (next : σ → Prog (Option (T × σ))) (items : σ → List T) (visited : σ → List V) (P : T → Prop)
    (J : List T → σ → Prop)
    (hnone : ∀ s, items s = [] → Returns (next s) none)
    (hsome : ∀ done s, SearchInv outs start key done (items s) (visited s) → J done s → items s ≠ [] →
      (∀ x ∈ items s, P x) → (∀ x ∈ done, P x) →
      ∃ x l s', Returns (next s) (some (x, s')) ∧ (items s).Perm (x :: l) ∧
        (items s').Perm (l ++ (fresh outs (key x) (visited s)).map (child x)) ∧
        visited s' = (fresh outs (key x) (visited s)).reverse ++ visited s ∧
        (∀ v ∈ fresh outs (key x) (visited s), P (child x v)) ∧ J (done ++ [x]) s')
    (s : σ) (h0 : SearchInv outs start key [] (items s) (visited s)) (hJ : J [] s) (hP : ∀ x ∈ items s, P x) :
    ∃ xs s', Drains next s xs ∧ IterRun next s xs s' ∧ items s' = [] ∧ J xs s' ∧ (∀ x ∈ xs, P x) ∧ (xs.map key).Nodup ∧
      ∀ v, v ∈ xs.map key ↔ ReachBy outs start v := by
  have key' := drains_of_measure (next := next)
    (I := fun done t => SearchInv outs start key done (items t) (visited t) ∧ J done t ∧ (∀ x ∈ items t, P x) ∧ (∀ x ∈ done, P x) ∧
      IterRun next s done t)
    (Q := fun xs => ∃ s', IterRun next s xs s' ∧ items s' = [] ∧ J xs s' ∧ (∀ x ∈ xs, P x) ∧ (xs.map key).Nodup ∧
      ∀ v, v ∈ xs.map key ↔ ReachBy outs start v)
    (μ := fun s => 2 * (all.length - (visited s).length) + (items s).length) ?_ s ⟨h0, hJ, hP, by simp, .refl⟩
  · obtain ⟨xs, h1, s', h2⟩ := key'
    exact ⟨xs, s', h1, h2⟩
  · rintro done t ⟨h1, h2, h3, h4, h5⟩
    by_cases he : items t = []
    · right
      refine ⟨hnone t he, t, h5, he, h2, h4, ?_⟩
      rw [he] at h1
      exact h1.finished
    · left
      obtain ⟨x, l, t', r1, r2, r3, r4, r5, r6⟩ := hsome done t h1 h2 he h3 h4
      have hs := h1.step hn hk r2 r3
      have hPx : P x := h3 x (r2.mem_iff.2 (by simp))
      refine ⟨x, t', r1, ⟨?_, r6, ?_, ?_, .step h5 r1⟩, ?_⟩
      · rw [r4]; exact hs
      · intro y hy
        rcases List.mem_append.1 (r3.mem_iff.1 hy) with hy | hy
        · exact h3 y (r2.mem_iff.2 (List.mem_cons_of_mem _ hy))
        · obtain ⟨v, hv, rfl⟩ := List.mem_map.1 hy
          exact r5 v hv
      · intro y hy
        rcases List.mem_append.1 hy with hy | hy
        · exact h4 y hy
        · simp only [List.mem_singleton] at hy; subst hy; exact hPx
      · simp only [r4]
        exact SearchInv.measure all hall hs r2 r3

/-! ### Searches over a tree -/

section Tree

variable {T : Type}

/-- The nodes of the subtree of `x`, cut at a depth. -/
def nodesAux (children : T → List T) : Nat → T → List T
  | 0, x => [x]
  | n + 1, x => x :: (children x).flatMap (nodesAux children n)

/-- Descendants (including the node itself). -/
def Descends (children : T → List T) : T → T → Prop := Relation.ReflTransGen fun x y => y ∈ children x

theorem nodesAux_stable {children : T → List T} {P : T → Prop} {rank : T → Nat} (hP : ∀ x, P x → ∀ y ∈ children x, P y ∧ rank y < rank x)
    (n m : Nat) (x : T) (hx : P x) (hn : rank x ≤ n) (hm : rank x ≤ m) : nodesAux children n x = nodesAux children m x := by
  induction n generalizing m x with
  | zero =>
    have hc : children x = [] := by
      rw [List.eq_nil_iff_forall_not_mem]
      intro y hy
      have := (hP x hx y hy).2
      omega
    cases m with
    | zero => rfl
    | succ m => simp [nodesAux, hc]
  | succ n ih =>
    cases m with
    | zero =>
      have hc : children x = [] := by
        rw [List.eq_nil_iff_forall_not_mem]
        intro y hy
        have := (hP x hx y hy).2
        omega
      simp [nodesAux, hc]
    | succ m =>
      simp only [nodesAux, List.cons.injEq, true_and]
      rw [List.flatMap_congr]
      intro y hy
      have := hP x hx y hy
      exact ih m y this.1 (by omega) (by omega)

theorem nodesAux_unfold {children : T → List T} {P : T → Prop} {rank : T → Nat} (hP : ∀ x, P x → ∀ y ∈ children x, P y ∧ rank y < rank x)
    (x : T) (hx : P x) : nodesAux children (rank x) x = x :: (children x).flatMap fun y => nodesAux children (rank y) y := by
  rw [nodesAux_stable hP (rank x) (rank x + 1) x hx (Nat.le_refl _) (by omega)]
  simp only [nodesAux, List.cons.injEq, true_and]
  rw [List.flatMap_congr]
  intro y hy
  have := hP x hx y hy
  exact nodesAux_stable hP _ _ y this.1 (by omega) (by omega)

theorem mem_nodesAux {children : T → List T} {P : T → Prop} {rank : T → Nat} (hP : ∀ x, P x → ∀ y ∈ children x, P y ∧ rank y < rank x)
    (x y : T) (hx : P x) : y ∈ nodesAux children (rank x) x ↔ Descends children x y := by
  generalize hn : rank x = n
  induction n using Nat.strongRecOn generalizing x with
  | _ n ih =>
    rw [← hn, nodesAux_unfold hP x hx, List.mem_cons, List.mem_flatMap]
    constructor
    · rintro (rfl | ⟨z, hz, hy⟩)
      · exact .refl
      · have := hP x hx z hz
        exact .head hz ((ih _ (by omega) z this.1 rfl).1 hy)
    · intro h
      rcases Relation.ReflTransGen.cases_head h with rfl | ⟨z, hz, hy⟩
      · exact .inl rfl
      · have := hP x hx z hz
        exact .inr ⟨z, hz, (ih _ (by omega) z this.1 rfl).2 hy⟩

theorem flatMap_perm_cons {α β : Type} {f : α → List β} {l l' : List α} (h : l.Perm l') : (l.flatMap f).Perm (l'.flatMap f) :=
  List.Perm.flatMap_right f h

/-- The generic tree search: every iterator that takes an item, yields it and adds its children, yields every node of a finite
tree once. -/
theorem tree_drains {σ : Type} {children : T → List T} {P : T → Prop} {rank : T → Nat}
    (hP : ∀ x, P x → ∀ y ∈ children x, P y ∧ rank y < rank x)
    (next : σ → Prog (Option (T × σ))) (items : σ → List T) (J : List T → σ → Prop)
    (hnone : ∀ s, items s = [] → Returns (next s) none)
    (hsome : ∀ done s, J done s → items s ≠ [] → (∀ x ∈ items s, P x) →
      ∃ x l s', Returns (next s) (some (x, s')) ∧ (items s).Perm (x :: l) ∧ (items s').Perm (l ++ children x) ∧ J (done ++ [x]) s')
    (s : σ) (root : T) (hroot : P root) (h0 : items s = [root]) (hJ : J [] s) :
    ∃ xs s', Drains next s xs ∧ xs.Perm (nodesAux children (rank root) root) ∧ J xs s' ∧ items s' = [] := by
  have key' := drains_of_measure (next := next)
    (I := fun done t => (done ++ (items t).flatMap fun y => nodesAux children (rank y) y).Perm (nodesAux children (rank root) root) ∧
      (∀ x ∈ items t, P x) ∧ J done t)
    (Q := fun xs => ∃ s', xs.Perm (nodesAux children (rank root) root) ∧ J xs s' ∧ items s' = [])
    (μ := fun s => ((items s).flatMap fun y => nodesAux children (rank y) y).length) ?_ s ?_
  · obtain ⟨xs, h1, s', h2⟩ := key'
    exact ⟨xs, s', h1, h2⟩
  · rintro done t ⟨h1, h2, h3⟩
    by_cases he : items t = []
    · right
      refine ⟨hnone t he, t, ?_, h3, he⟩
      simpa [he] using h1
    · left
      obtain ⟨x, l, t', r1, r2, r3, r4⟩ := hsome done t h3 he h2
      have hPx : P x := h2 x (r2.mem_iff.2 (by simp))
      have e1 := flatMap_perm_cons (f := fun y => nodesAux children (rank y) y) r2
      have e2 := flatMap_perm_cons (f := fun y => nodesAux children (rank y) y) r3
      rw [List.flatMap_cons, nodesAux_unfold hP x hPx] at e1
      rw [List.flatMap_append] at e2
      have e3 : ((items t).flatMap fun y => nodesAux children (rank y) y).Perm
          (x :: (items t').flatMap fun y => nodesAux children (rank y) y) := by
        refine e1.trans (List.Perm.cons x ?_)
        exact List.perm_append_comm.trans e2.symm
      refine ⟨x, t', r1, ⟨?_, ?_, r4⟩, ?_⟩
      · refine List.Perm.trans ?_ h1
        rw [List.append_assoc]
        exact List.Perm.append_left done e3.symm
      · intro y hy
        rcases List.mem_append.1 (r3.mem_iff.1 hy) with hy | hy
        · exact h2 y (r2.mem_iff.2 (List.mem_cons_of_mem _ hy))
        · exact (hP x hPx y hy).1
      · have := e3.length_eq
        simp only [List.length_cons] at this
        omega
  · refine ⟨?_, ?_, hJ⟩
    · simp [h0]
    · intro x hx
      rw [h0] at hx
      simp only [List.mem_singleton] at hx
      subst hx; exact hroot

end Tree

end GC
