/-
Lemmas about the constrained best-first iterator.
-/
import Verif.Proofs.Iter
import Verif.Model.Search
import Mathlib.Data.Set.Finite.List
import Verif.Proofs.Finite
namespace GC
open DirectedGraph

/-- What one out-neighbour contributes to the queue. -/
def childOf (g : DirectedGraph) (scorefn : ScoreFn) (cs : List Constraint) (wp : ScoredPath) (v : VertexId) : Option ScoredPath :=
  match scorefn g (wp.path.append v) with
  | .done s => if ConstrainedBestFirstIter.checkAllPartial ⟨wp.path.append v, s⟩ cs then some ⟨wp.path.append v, s⟩ else none
  | _ => none

theorem childOf_eq_some {g : DirectedGraph} {scorefn : ScoreFn} {cs : List Constraint} {wp : ScoredPath} {v : VertexId} {sp : ScoredPath} :
    childOf g scorefn cs wp v = some sp ↔ sp.path = wp.path.append v ∧ scorefn g sp.path = .done sp.score ∧
      ∀ c ∈ cs, c.checkPartial sp = true := by
  unfold childOf
  obtain ⟨p, sc⟩ := sp
  constructor
  · intro h
    split at h
    · rename_i s hs
      split at h
      · rename_i hc
        cases h
        refine ⟨rfl, hs, ?_⟩
        simpa [ConstrainedBestFirstIter.checkAllPartial] using hc
      · cases h
    · cases h
  · rintro ⟨h1, h2, h3⟩
    simp only at h1 h2
    subst h1
    rw [h2]
    simp only
    rw [if_pos]
    simpa [ConstrainedBestFirstIter.checkAllPartial] using h3

namespace ConstrainedBestFirstIter
variable {H : ScoredHeap} {g : DirectedGraph} {scorefn : ScoreFn} {cs : List Constraint}

theorem forEach_inv (wp : ScoredPath) (l : List VertexId) (s s' : ConstrainedBestFirstIter H)
    (h : Run.forEach (visit g scorefn cs wp) s l = .done s') :
    (∀ v ∈ l, ∃ sc, scorefn g (wp.path.append v) = .done sc) ∧
    s'.queue.items.Perm (s.queue.items ++ l.filterMap (childOf g scorefn cs wp)) := by
  induction l generalizing s with
  | nil => cases h; simp
  | cons a l ih =>
    rw [Run.forEach] at h
    obtain ⟨s1, h1, h2⟩ := Run.bind_eq_done.1 h
    obtain ⟨i1, i2⟩ := ih s1 h2
    unfold visit at h1
    obtain ⟨sc, h3, h4⟩ := Run.bind_eq_done.1 h1
    refine ⟨?_, ?_⟩
    · intro v hv
      rcases List.mem_cons.1 hv with rfl | hv
      · exact ⟨sc, h3⟩
      · exact i1 v hv
    · rw [List.filterMap_cons]
      unfold childOf at *
      rw [h3]
      simp only
      by_cases hc : checkAllPartial ⟨wp.path.append a, sc⟩ cs = true
      · rw [if_pos hc] at h4 ⊢
        simp only
        cases h4
        refine i2.trans ?_
        refine ((MinPriorityQueue.items_push _ _).append_right _).trans ?_
        rw [List.cons_append]
        exact List.perm_middle.symm
      · rw [if_neg hc] at h4 ⊢
        simp only
        cases h4
        exact i2

theorem forEach_done (wp : ScoredPath) (l : List VertexId) (s : ConstrainedBestFirstIter H)
    (h : ∀ v ∈ l, ∃ sc, scorefn g (wp.path.append v) = .done sc) : ∃ s', Run.forEach (visit g scorefn cs wp) s l = .done s' := by
  induction l generalizing s with
  | nil => exact ⟨s, rfl⟩
  | cons a l ih =>
    obtain ⟨sc, hsc⟩ := h a (by simp)
    rw [Run.forEach]
    unfold visit
    rw [hsc, Run.bind_done]
    split
    · rw [Run.bind_done]; exact ih _ fun v hv => h v (by simp [hv])
    · rw [Run.bind_done]; exact ih _ fun v hv => h v (by simp [hv])

theorem mono_next (s : ConstrainedBestFirstIter H) : Mono (next g scorefn cs s) := by
  unfold next
  split
  · exact Mono.ret _
  · exact Mono.lift _

theorem next_none_inv {s : ConstrainedBestFirstIter H} (h : Returns (next g scorefn cs s) none) : s.queue.items = [] := by
  rw [← MinPriorityQueue.pop_none]
  unfold next at h
  cases hp : s.queue.pop with
  | none => rfl
  | some r =>
    rw [hp] at h
    obtain ⟨n, h⟩ := h
    have h := h n (Nat.le_refl _)
    simp only [Prog.lift] at h
    obtain ⟨_, _, h⟩ := Run.bind_eq_done.1 h
    obtain ⟨_, _, h⟩ := Run.bind_eq_done.1 h
    cases h

theorem next_some_inv {s s' : ConstrainedBestFirstIter H} {x : ScoredPath} (h : Returns (next g scorefn cs s) (some (x, s'))) :
    ∃ l u, s.queue.items.Perm (x :: l) ∧ (∀ y ∈ s.queue.items, x.score ≤ y.score) ∧ x.path.vertices.getLast? = some u ∧
      (∀ v ∈ g.outs u, ∃ sc, scorefn g (x.path.append v) = .done sc) ∧
      s'.queue.items.Perm (l ++ (g.outs u).filterMap (childOf g scorefn cs x)) := by
  unfold next at h
  cases hp : s.queue.pop with
  | none => rw [hp] at h; exact absurd (h.unique (Returns.ret _)) (by simp)
  | some r =>
    obtain ⟨y, q⟩ := r
    rw [hp] at h
    obtain ⟨n, h⟩ := h
    have h := h n (Nat.le_refl _)
    simp only [Prog.lift] at h
    obtain ⟨u, hu, h⟩ := Run.bind_eq_done.1 h
    obtain ⟨s1, h1, h⟩ := Run.bind_eq_done.1 h
    cases h
    obtain ⟨h2, h3⟩ := MinPriorityQueue.pop_some hp
    obtain ⟨h4, h5⟩ := forEach_inv _ _ _ _ h1
    refine ⟨q.items, u, h2, ?_, ?_, h4, h5⟩
    · intro y hy
      have := h3 y hy
      simpa [ScoredPath.le] using this
    · unfold Path.last at hu
      cases hl : x.path.vertices.getLast? with
      | none => rw [hl] at hu; cases hu
      | some w => rw [hl] at hu; cases hu; rfl

theorem next_some {s : ConstrainedBestFirstIter H} (hne : s.queue.items ≠ [])
    (h : ∀ x ∈ s.queue.items, (∀ y ∈ s.queue.items, x.score ≤ y.score) →
      ∃ u, x.path.vertices.getLast? = some u ∧ ∀ v ∈ g.outs u, ∃ sc, scorefn g (x.path.append v) = .done sc) :
    ∃ x s', x ∈ s.queue.items ∧ Returns (next g scorefn cs s) (some (x, s')) := by
  obtain ⟨x, q, hp⟩ := MinPriorityQueue.exists_pop hne
  obtain ⟨h2, h3⟩ := MinPriorityQueue.pop_some hp
  have hx : x ∈ s.queue.items := h2.mem_iff.2 (by simp)
  obtain ⟨u, hu, hs⟩ := h x hx (fun y hy => by simpa [ScoredPath.le] using h3 y hy)
  obtain ⟨s', hs'⟩ := forEach_done (H := H) (cs := cs) x (g.outs u) ⟨q⟩ hs
  refine ⟨x, s', hx, ?_⟩
  unfold next
  rw [hp]
  simp only
  have : x.path.last = some u := hu
  rw [this, Run.unwrap_some, Run.bind_done, hs', Run.bind_done]
  exact Returns.lift_done _

theorem next_none {s : ConstrainedBestFirstIter H} (h : s.queue.items = []) : Returns (next g scorefn cs s) none := by
  unfold next
  rw [MinPriorityQueue.pop_none.2 h]
  exact Returns.ret _

end ConstrainedBestFirstIter

/-- The invariant of constrained best-first iteration. -/
structure CInv (g : DirectedGraph) (scorefn : ScoreFn) (cs : List Constraint) (start : VertexId) (done items : List ScoredPath) : Prop where
  nodup : (done ++ items).Nodup
  node : ∀ x ∈ done ++ items, Unpruned g scorefn cs start x
  root : ∃ s, scorefn g ⟨[start]⟩ = .done s ∧ ⟨⟨[start]⟩, s⟩ ∈ done ++ items
  closed : ∀ x ∈ done, ∀ u v, x.path.vertices.getLast? = some u → Adj g u v →
    ∃ s, scorefn g (x.path.append v) = .done s ∧
      ((∀ c ∈ cs, c.checkPartial ⟨x.path.append v, s⟩ = true) → ⟨x.path.append v, s⟩ ∈ done ++ items)
  parent : ∀ x ∈ done ++ items, x.path.vertices = [start] ∨ ∃ y ∈ done, ∃ v, x.path = y.path.append v

theorem Unpruned.ext {g : DirectedGraph} {scorefn : ScoreFn} {cs : List Constraint} {start : VertexId} {x y : ScoredPath}
    (hx : Unpruned g scorefn cs start x) (hy : Unpruned g scorefn cs start y) (h : x.path = y.path) : x = y := by
  obtain ⟨p, a⟩ := x
  obtain ⟨q, b⟩ := y
  have h1 := hx.2.1
  have h2 := hy.2.1
  simp only at h h1 h2
  subst h
  rw [h1] at h2
  cases h2
  rfl

theorem Unpruned.child {g : DirectedGraph} {scorefn : ScoreFn} {cs : List Constraint} {start u v : VertexId} {x : ScoredPath} {s : Int}
    (hx : Unpruned g scorefn cs start x) (hl : x.path.vertices.getLast? = some u) (ha : Adj g u v)
    (hs : scorefn g (x.path.append v) = .done s) (hc : ∀ c ∈ cs, c.checkPartial ⟨x.path.append v, s⟩ = true) :
    Unpruned g scorefn cs start ⟨x.path.append v, s⟩ := by
  obtain ⟨⟨h1, h2⟩, h3, h4⟩ := hx
  refine ⟨⟨?_, ?_⟩, hs, ?_⟩
  · simp only [Path.append]
    rw [List.isChain_append]
    refine ⟨h1, by simp, ?_⟩
    intro a ha' b hb
    rw [hl] at ha'
    simp only [List.head?_cons, Option.mem_def, Option.some.injEq] at ha' hb
    subst ha' hb
    exact ha
  · simp only [Path.append, List.head?_append, h2, Option.some_or]
  · intro q hq hlen
    rcases List.prefix_concat_iff.1 hq with e | hq
    · have : q = x.path.append v := by
        obtain ⟨l⟩ := q
        simp only at e
        simp [Path.append, e]
      subst this
      exact ⟨s, hs, (checkPartial_all _ _).1 hc⟩
    · exact h4 q hq hlen

/-- A queue state reached after yielding `done`. -/
theorem CInv.init {H : ScoredHeap} {g : DirectedGraph} {scorefn : ScoreFn} (cs : List Constraint) {start : VertexId}
    {s : ConstrainedBestFirstIter H} (h : ConstrainedBestFirstIter.from_ g scorefn start = .done s) :
    CInv g scorefn cs start [] s.queue.items := by
  unfold ConstrainedBestFirstIter.from_ at h
  obtain ⟨sc, h1, h2⟩ := Run.bind_eq_done.1 h
  cases h2
  have h1 : scorefn g ⟨[start]⟩ = .done sc := h1
  have hi : (MinPriorityQueue.new.push ⟨Path.empty.append start, sc⟩ : MinPriorityQueue ScoredPath ScoredPath.le H).items =
      [⟨⟨[start]⟩, sc⟩] := by
    have := MinPriorityQueue.items_push (MinPriorityQueue.new : MinPriorityQueue ScoredPath ScoredPath.le H)
      ⟨Path.empty.append start, sc⟩
    rw [MinPriorityQueue.items_new] at this
    exact List.perm_singleton.1 this
  simp only [hi]
  constructor
  · simp
  · intro x hx
    simp only [List.nil_append, List.mem_singleton] at hx
    subst hx
    refine ⟨⟨by simp, rfl⟩, h1, ?_⟩
    intro q hq hlen
    have := hq.length_le
    simp only [List.length_singleton] at this
    omega
  · exact ⟨sc, h1, by simp⟩
  · simp
  · simp

theorem CInv.perm {g : DirectedGraph} {scorefn : ScoreFn} {cs : List Constraint} {start : VertexId} {done items items' : List ScoredPath}
    (h : CInv g scorefn cs start done items) (hp : items.Perm items') : CInv g scorefn cs start done items' := by
  have hp' : (done ++ items).Perm (done ++ items') := hp.append_left _
  constructor
  · exact hp'.nodup_iff.1 h.nodup
  · intro x hx; exact h.node x (hp'.mem_iff.2 hx)
  · obtain ⟨s, h1, h2⟩ := h.root
    exact ⟨s, h1, hp'.mem_iff.1 h2⟩
  · intro x hx u v hu ha
    obtain ⟨s, h1, h2⟩ := h.closed x hx u v hu ha
    exact ⟨s, h1, fun hc => hp'.mem_iff.1 (h2 hc)⟩
  · intro x hx; exact h.parent x (hp'.mem_iff.2 hx)

theorem CInv.step {g : DirectedGraph} (hw : WF g) {scorefn : ScoreFn} {cs : List Constraint} {start u : VertexId}
    {done items l items' : List ScoredPath} {x : ScoredPath} (h : CInv g scorefn cs start done items) (hp : items.Perm (x :: l))
    (hu : x.path.vertices.getLast? = some u) (hs : ∀ v ∈ g.outs u, ∃ sc, scorefn g (x.path.append v) = .done sc)
    (hp' : items'.Perm (l ++ (g.outs u).filterMap (childOf g scorefn cs x))) :
    CInv g scorefn cs start (done ++ [x]) items' := by
  have h := h.perm hp
  refine CInv.perm ?_ hp'.symm
  have hmem : ∀ y, y ∈ done ++ [x] ++ (l ++ (g.outs u).filterMap (childOf g scorefn cs x)) ↔
      y ∈ done ++ x :: l ∨ ∃ v, Adj g u v ∧ childOf g scorefn cs x v = some y := by
    intro y
    simp only [List.mem_append, List.mem_cons, List.mem_filterMap, List.not_mem_nil, or_false, hw.mem_outs']
    tauto
  have hxn : Unpruned g scorefn cs start x := h.node x (by simp)
  have hxd : x ∉ done := fun hx => by
    have := h.nodup
    rw [List.nodup_append] at this
    exact this.2.2 x hx x (by simp) rfl
  have hchild : ∀ v y, Adj g u v → childOf g scorefn cs x v = some y → Unpruned g scorefn cs start y := by
    intro v y ha hy
    obtain ⟨h1, h2, h3⟩ := childOf_eq_some.1 hy
    obtain ⟨p, sc⟩ := y
    simp only at h1 h2
    subst h1
    exact hxn.child hu ha h2 h3
  have hnew : ∀ v y, Adj g u v → childOf g scorefn cs x v = some y → y ∉ done ++ x :: l := by
    intro v y ha hy hm
    obtain ⟨h1, h2, h3⟩ := childOf_eq_some.1 hy
    rcases h.parent y hm with h4 | ⟨z, hz, w, h4⟩
    · rw [h1] at h4
      simp only [Path.append] at h4
      have := congrArg List.length h4
      simp only [List.length_append, List.length_singleton] at this
      have : x.path.vertices = [] := List.length_eq_zero_iff.1 (by omega)
      rw [this] at hu
      cases hu
    · rw [h1] at h4
      simp only [Path.append, Path.mk.injEq] at h4
      have h5 := List.append_inj_left' h4 rfl
      have : x.path = z.path := by
        obtain ⟨⟨a⟩, _⟩ := x
        obtain ⟨⟨b⟩, _⟩ := z
        simp only at h5
        rw [h5]
      have hzn := h.node z (by simp [hz])
      exact hxd (hxn.ext hzn this ▸ hz)
  constructor
  · have e : done ++ [x] ++ (l ++ (g.outs u).filterMap (childOf g scorefn cs x)) =
        (done ++ x :: l) ++ (g.outs u).filterMap (childOf g scorefn cs x) := by simp
    rw [e, List.nodup_append]
    refine ⟨h.nodup, ?_, ?_⟩
    · refine (hw.nodup_outs' u).filterMap ?_
      intro a b y ha hb
      have h1 := (childOf_eq_some.1 ha).1
      have h2 := (childOf_eq_some.1 hb).1
      rw [h1] at h2
      simpa [Path.append] using h2
    · rintro a ha b hb rfl
      obtain ⟨v, hv, hy⟩ := List.mem_filterMap.1 hb
      exact hnew v a (hw.mem_outs'.1 hv) hy ha
  · intro y hy
    rcases (hmem y).1 hy with hy | ⟨v, ha, hy⟩
    · exact h.node y hy
    · exact hchild v y ha hy
  · obtain ⟨s, h1, h2⟩ := h.root
    exact ⟨s, h1, (hmem _).2 (.inl h2)⟩
  · intro y hy a v hl ha
    rcases List.mem_append.1 hy with hy | hy
    · obtain ⟨s, h1, h2⟩ := h.closed y hy a v hl ha
      exact ⟨s, h1, fun hc => (hmem _).2 (.inl (h2 hc))⟩
    · rw [List.mem_singleton] at hy
      subst hy
      rw [hu] at hl
      cases hl
      obtain ⟨s, h1⟩ := hs v (hw.mem_outs'.2 ha)
      exact ⟨s, h1, fun hc => (hmem _).2 (.inr ⟨v, ha, childOf_eq_some.2 ⟨rfl, h1, hc⟩⟩)⟩
  · intro y hy
    rcases (hmem y).1 hy with hy | ⟨v, ha, hy⟩
    · rcases h.parent y hy with h1 | ⟨z, hz, w, h1⟩
      · exact .inl h1
      · exact .inr ⟨z, by simp [hz], w, h1⟩
    · exact .inr ⟨x, by simp, v, (childOf_eq_some.1 hy).1⟩

/-- Score order, for monotone scores. -/
structure SortedInv (done items : List ScoredPath) : Prop where
  sorted : done.Pairwise fun a b => a.score ≤ b.score
  below : ∀ a ∈ done, ∀ b ∈ items, a.score ≤ b.score

theorem cinv_run {H : ScoredHeap} {g : DirectedGraph} (hw : WF g) {scorefn : ScoreFn} {cs : List Constraint} {start : VertexId}
    {s s' : ConstrainedBestFirstIter H} {outs : List ScoredPath} (h : ConstrainedBestFirstIter.from_ g scorefn start = .done s)
    (hr : IterRun (ConstrainedBestFirstIter.next g scorefn cs) s outs s') : CInv g scorefn cs start outs s'.queue.items := by
  induction hr with
  | refl => exact CInv.init cs h
  | step _ h2 ih =>
    obtain ⟨l, u, h3, _, h5, h6, h7⟩ := ConstrainedBestFirstIter.next_some_inv h2
    exact ih.step hw h3 h5 h6 h7

theorem sorted_step {g : DirectedGraph} (hw : WF g) {scorefn : ScoreFn} {cs : List Constraint} {start u : VertexId}
    (hm : MonotoneScore g scorefn start)
    {done items l items' : List ScoredPath} {x : ScoredPath} (h : CInv g scorefn cs start done items) (ho : SortedInv done items)
    (hp : items.Perm (x :: l)) (hmin : ∀ y ∈ items, x.score ≤ y.score)
    (hu : x.path.vertices.getLast? = some u) 
    (hp' : items'.Perm (l ++ (g.outs u).filterMap (childOf g scorefn cs x))) : SortedInv (done ++ [x]) items' := by
  have hx : x ∈ items := hp.mem_iff.2 (by simp)
  have hxn : Unpruned g scorefn cs start x := h.node x (by simp [hx])
  have hxge : ∀ b ∈ items', x.score ≤ b.score := by
    intro b hb
    rcases List.mem_append.1 (hp'.mem_iff.1 hb) with hb | hb
    · exact hmin b (hp.mem_iff.2 (by simp [hb]))
    · obtain ⟨v, hv, hy⟩ := List.mem_filterMap.1 hb
      obtain ⟨h1, h2, h3⟩ := childOf_eq_some.1 hy
      rw [h1] at h2
      have hwalk : Unpruned g scorefn cs start ⟨x.path.append v, b.score⟩ :=
        hxn.child hu (hw.mem_outs'.1 hv) h2 (by
          obtain ⟨p, sc⟩ := b
          simp only at h1
          subst h1
          exact h3)
      obtain ⟨a, ha, hle⟩ := hm x.path v b.score (by intro e; rw [e] at hu; cases hu) hwalk.1 h2
      rw [hxn.2.1] at ha
      cases ha
      exact hle
  constructor
  · rw [List.pairwise_append]
    refine ⟨ho.sorted, by simp, ?_⟩
    intro a ha b hb
    rw [List.mem_singleton] at hb
    subst hb
    exact ho.below a ha b hx
  · intro a ha b hb
    rcases List.mem_append.1 ha with ha | ha
    · exact Int.le_trans (ho.below a ha x hx) (hxge b hb)
    · rw [List.mem_singleton] at ha
      subst ha
      exact hxge b hb

theorem sorted_run {H : ScoredHeap} {g : DirectedGraph} (hw : WF g) {scorefn : ScoreFn} {cs : List Constraint} {start : VertexId}
    (hm : MonotoneScore g scorefn start)
    {s s' : ConstrainedBestFirstIter H} {outs : List ScoredPath} (h : ConstrainedBestFirstIter.from_ g scorefn start = .done s)
    (hr : IterRun (ConstrainedBestFirstIter.next g scorefn cs) s outs s') : SortedInv outs s'.queue.items := by
  induction hr with
  | refl => exact ⟨.nil, by simp⟩
  | step h1 h2 ih =>
    obtain ⟨l, u, h3, h4, h5, h6, h7⟩ := ConstrainedBestFirstIter.next_some_inv h2
    exact sorted_step hw hm (cinv_run hw h h1) ih h3 h4 h5 h7

/-- Every unpruned walk has been yielded or has a prefix waiting in the queue. -/
theorem CInv.ancestor {g : DirectedGraph} {scorefn : ScoreFn} {cs : List Constraint} {start : VertexId} {done items : List ScoredPath}
    (h : CInv g scorefn cs start done items) {q : ScoredPath} (hq : Unpruned g scorefn cs start q) :
    q ∈ done ∨ ∃ y ∈ items, y.path.vertices <+: q.path.vertices := by
  obtain ⟨⟨l⟩, sc⟩ := q
  induction l using List.reverseRecOn generalizing sc with
  | nil => cases hq.1.2
  | append_singleton l w ih =>
    obtain ⟨⟨h1, h2⟩, h3, h4⟩ := hq
    simp only at h1 h2 h3 h4
    obtain ⟨r, hr1, hr2⟩ := h.root
    rcases List.eq_nil_or_concat l with rfl | ⟨l', x, hlx⟩
    · simp only [List.nil_append, List.head?_cons, Option.some.injEq] at h2
      subst h2
      simp only [List.nil_append] at *
      rw [hr1] at h3
      cases h3
      rcases List.mem_append.1 hr2 with h5 | h5
      · exact .inl h5
      · exact .inr ⟨_, h5, List.prefix_refl _⟩
    · rw [List.concat_eq_append] at hlx
      subst hlx
      rw [List.isChain_append] at h1
      have hpn : ∃ s, Unpruned g scorefn cs start ⟨⟨l' ++ [x]⟩, s⟩ := by
        have hwf : WalkFrom g start (l' ++ [x]) := by
          refine ⟨h1.1, ?_⟩
          rw [List.head?_append] at h2
          rw [← h2]
          cases l' <;> simp
        have hpre : ∀ q : Path, q.vertices <+: l' ++ [x] → 2 ≤ q.vertices.length →
            ∃ s, scorefn g q = .done s ∧ ∀ c ∈ cs, NotYetBroken ⟨q, s⟩ c :=
          fun q hq hl => h4 q (hq.trans (List.prefix_append _ _)) hl
        cases l' with
        | nil =>
          have := hwf.2
          simp only [List.nil_append, List.head?_cons, Option.some.injEq] at this
          subst this
          exact ⟨r, hwf, hr1, hpre⟩
        | cons a l' =>
          obtain ⟨s, hs, _⟩ := hpre ⟨a :: l' ++ [x]⟩ (List.prefix_refl _) (by simp)
          exact ⟨s, hwf, hs, hpre⟩
      obtain ⟨s, hs⟩ := hpn
      rcases ih s hs with h5 | ⟨y, hy, h5⟩
      · obtain ⟨t, h6, h7⟩ := h.closed _ h5 x w (by simp) (h1.2.2 x (by simp) w (by simp))
        have h6' : scorefn g ⟨l' ++ [x] ++ [w]⟩ = .done t := h6
        have ht : t = sc := by
          rw [h3] at h6'; cases h6'; rfl
        subst ht
        obtain ⟨t', h8, h9⟩ := h4 ⟨l' ++ [x] ++ [w]⟩ (List.prefix_refl _) (by simp)
        have : t' = t := by
          rw [h8] at h6'; cases h6'; rfl
        subst this
        have := h7 ((checkPartial_all _ _).2 h9)
        rcases List.mem_append.1 this with h10 | h10
        · exact .inl h10
        · exact .inr ⟨_, h10, List.prefix_refl _⟩
      · exact .inr ⟨y, hy, h5.trans (List.prefix_append _ _)⟩

/-- Scores grow along prefixes. -/
theorem MonotoneScore.prefix {g : DirectedGraph} {scorefn : ScoreFn} {start : VertexId} (hm : MonotoneScore g scorefn start)
    {p : Path} (hp : p.vertices ≠ []) (l : List VertexId) (hl : p.vertices <+: l) (hwalk : WalkFrom g start l) {b : Int}
    (hb : scorefn g ⟨l⟩ = .done b) : ∃ a, scorefn g p = .done a ∧ a ≤ b := by
  induction l using List.reverseRecOn generalizing b with
  | nil => exact absurd (List.prefix_nil.1 hl) hp
  | append_singleton l w ih =>
    rcases List.prefix_concat_iff.1 hl with e | hl
    · refine ⟨b, ?_, Int.le_refl _⟩
      obtain ⟨pv⟩ := p
      simp only at e
      subst e
      exact hb
    · have hne : l ≠ [] := fun e => by
        subst e; exact hp (List.prefix_nil.1 hl)
      obtain ⟨a, h1, h2⟩ := hm ⟨l⟩ w b hne hwalk hb
      have hwl : WalkFrom g start l := by
        obtain ⟨h3, h4⟩ := hwalk
        rw [List.isChain_append] at h3
        refine ⟨h3.1, ?_⟩
        cases l with
        | nil => exact absurd rfl hne
        | cons a l => simpa using h4
      obtain ⟨c, h5, h6⟩ := ih hl hwl h1
      exact ⟨c, h5, Int.le_trans h6 h2⟩

/-- A walk that satisfies all constraints is not pruned. -/
theorem unpruned_of_satisfies {g : DirectedGraph} {scorefn : ScoreFn} {cs : List Constraint} {start : VertexId}
    (hm : MonotoneScore g scorefn start) {q : ScoredPath} (hq : WalkFrom g start q.path.vertices)
    (hs : scorefn g q.path = .done q.score) (hc : ∀ c ∈ cs, Satisfies q c) : Unpruned g scorefn cs start q := by
  refine ⟨hq, hs, ?_⟩
  intro p hp hlen
  obtain ⟨a, h1, h2⟩ := hm.prefix (p := p) (by intro e; rw [e] at hlen; simp at hlen) _ hp hq hs
  exact ⟨a, h1, fun c hcm => (checkPartial_iff c _).1 (checkPartial_of_satisfies c (p := ⟨p, a⟩) hp h2 (hc c hcm))⟩

/-- If a yielded-or-waiting structure does not contain `q`, everything yielded so far scores at most `q`. -/
theorem done_le_of_missing {g : DirectedGraph} {scorefn : ScoreFn} {cs : List Constraint} {start : VertexId}
    (hm : MonotoneScore g scorefn start) {done items : List ScoredPath} (h : CInv g scorefn cs start done items)
    (ho : SortedInv done items) {q : ScoredPath} (hq : Unpruned g scorefn cs start q) (hn : q ∉ done) :
    ∃ y ∈ items, y.score ≤ q.score ∧ ∀ x ∈ done, x.score ≤ q.score := by
  rcases h.ancestor hq with h1 | ⟨y, hy, h1⟩
  · exact absurd h1 hn
  · have hyn := h.node y (by simp [hy])
    have hne : y.path.vertices ≠ [] := fun e => by
      have := hyn.1.2
      rw [e] at this
      cases this
    obtain ⟨a, h2, h3⟩ := hm.prefix hne _ h1 hq.1 hq.2.1
    rw [hyn.2.1] at h2
    cases h2
    exact ⟨y, hy, h3, fun x hx => Int.le_trans (ho.below x hx y hy) h3⟩

/-- There are finitely many scored walks of bounded length when scores are determined by the walk. -/
theorem exists_bound (g : DirectedGraph) (scorefn : ScoreFn) (B : Nat) :
    ∃ N, ∀ l : List ScoredPath, l.Nodup → (∀ x ∈ l, x.path.vertices.length ≤ B ∧ scorefn g x.path = .done x.score) → l.length ≤ N := by
  obtain ⟨N, hN⟩ : ∃ N, ∀ l : List (List VertexId), l.Nodup → (∀ x ∈ l, x.length ≤ B) → l.length ≤ N := by
    have hfin := List.finite_length_le VertexId B
    refine ⟨hfin.toFinset.card, ?_⟩
    intro l hl hx
    classical
    rw [← List.toFinset_card_of_nodup hl]
    refine Finset.card_le_card ?_
    intro x hx'
    rw [List.mem_toFinset] at hx'
    rw [Set.Finite.mem_toFinset]
    exact hx x hx'
  refine ⟨N, ?_⟩
  intro l hl hx
  have := hN (l.map fun x => x.path.vertices) (by
    refine List.Nodup.map_on ?_ hl
    intro x hx1 y hy1 e
    obtain ⟨⟨p⟩, a⟩ := x
    obtain ⟨⟨q⟩, b⟩ := y
    simp only at e
    subst e
    have h1 := (hx _ hx1).2
    have h2 := (hx _ hy1).2
    simp only at h1 h2
    rw [h1] at h2
    cases h2
    rfl) (by
      intro x hx1
      obtain ⟨y, hy, rfl⟩ := List.mem_map.1 hx1
      exact (hx y hy).1)
  simpa using this

end GC
