/-
The order of constrained best-first iteration (C125).
-/
import Verif.Proofs.Constrained
import Verif.Spec.BestOrder
namespace GC
open DirectedGraph

theorem path_ext {p q : Path} (h : p.vertices = q.vertices) : p = q := by
  cases p; cases q; exact congrArg Path.mk h

/-- What waits after `done` is what is in the queue. -/
theorem CInv.waits {g : DirectedGraph} {scorefn : ScoreFn} {cs : List Constraint} {start : VertexId} {done items : List ScoredPath}
    (h : CInv g scorefn cs start done items) (y : ScoredPath) : WaitsAfter g scorefn cs start done y ↔ y ∈ items := by
  constructor
  · rintro ⟨h1, h2, h3⟩
    suffices hm : y ∈ done ++ items from (List.mem_append.1 hm).resolve_left h2
    rcases h3 with h3 | ⟨x, hx, v, h3⟩
    · obtain ⟨s, h4, h5⟩ := h.root
      have : y = ⟨⟨[start]⟩, s⟩ := h1.ext (h.node _ h5) (path_ext h3)
      rw [this]
      exact h5
    · have hxn := h.node x (List.mem_append_left _ hx)
      have hne : x.path.vertices ≠ [] := fun e => by have := hxn.1.2; rw [e] at this; cases this
      obtain ⟨u, hu⟩ : ∃ u, x.path.vertices.getLast? = some u := by
        cases hl : x.path.vertices.getLast? with
        | none => exact absurd (List.getLast?_eq_none_iff.1 hl) hne
        | some u => exact ⟨u, rfl⟩
      have hyp : y.path = x.path.append v := path_ext h3
      have ha : Adj g u v := by
        have hc := h1.1.1
        rw [h3, List.isChain_append] at hc
        exact hc.2.2 u hu v (by simp)
      obtain ⟨s, h4, h5⟩ := h.closed x hx u v hu ha
      have hs := h1.2.1
      rw [hyp, h4] at hs
      have hys : y = ⟨x.path.append v, s⟩ := by
        obtain ⟨p, sc⟩ := y
        simp only at hyp hs
        cases hs
        rw [hyp]
      rw [hys]
      refine h5 ?_
      obtain ⟨s', h6, h7⟩ := h1.2.2 y.path (List.prefix_refl _) (by
        rw [h3, List.length_append, List.length_singleton]
        have := List.length_pos_of_ne_nil hne
        omega)
      rw [hyp, h4] at h6
      cases h6
      rw [hyp] at h7
      exact (checkPartial_all _ _).2 h7
  · intro hy
    refine ⟨h.node y (List.mem_append_right _ hy), fun hd => (List.nodup_append.1 h.nodup).2.2 y hd y hy rfl, ?_⟩
    rcases h.parent y (List.mem_append_right _ hy) with h1 | ⟨x, hx, v, h1⟩
    · exact .inl h1
    · exact .inr ⟨x, hx, v, by rw [h1]; rfl⟩

theorem constrained_order {H : ScoredHeap} {g : DirectedGraph} (hw : WF g) {scorefn : ScoreFn} {cs : List Constraint} {start : VertexId}
    {s s' : ConstrainedBestFirstIter H} {out : List ScoredPath} (h : ConstrainedBestFirstIter.from_ g scorefn start = .done s)
    (hr : IterRun (ConstrainedBestFirstIter.next g scorefn cs) s out s') (i : Nat) (sp : ScoredPath) (hi : out[i]? = some sp) :
    WaitsAfter g scorefn cs start (out.take i) sp ∧ ∀ y, WaitsAfter g scorefn cs start (out.take i) y → sp.score ≤ y.score := by
  induction hr with
  | refl => simp at hi
  | @step outs s1 x s2 h1 h2 ih =>
    rcases Nat.lt_or_ge i outs.length with hlt | hge
    · rw [List.getElem?_append_left hlt] at hi
      rw [List.take_append_of_le_length (by omega)]
      exact ih hi
    · have hi' : i = outs.length := by
        have := (List.getElem?_eq_some_iff.1 hi).1
        simp only [List.length_append, List.length_cons, List.length_nil] at this
        omega
      subst hi'
      simp only [List.getElem?_concat_length, Option.some.injEq] at hi
      subst hi
      rw [List.take_left' rfl]
      obtain ⟨l, u, h3, h4, _⟩ := ConstrainedBestFirstIter.next_some_inv h2
      have hc := cinv_run hw h h1
      exact ⟨(hc.waits _).2 (h3.mem_iff.2 (by simp)), fun y hy => h4 y ((hc.waits y).1 hy)⟩

/-- What two graphs and closures must share for their streams to agree. -/
structure Agree (g g' : DirectedGraph) (scorefn scorefn' : ScoreFn) (start : VertexId) : Prop where
  adj : ∀ u v, Adj g u v ↔ Adj g' u v
  score : ∀ p : Path, WalkFrom g start p.vertices → scorefn' g' p = scorefn g p

theorem Agree.walk {g g' : DirectedGraph} {scorefn scorefn' : ScoreFn} {start : VertexId} (h : Agree g g' scorefn scorefn' start)
    {l : List VertexId} : WalkFrom g start l ↔ WalkFrom g' start l :=
  ⟨fun hl => ⟨hl.1.imp fun u v => (h.adj u v).1, hl.2⟩, fun hl => ⟨hl.1.imp fun u v => (h.adj u v).2, hl.2⟩⟩

theorem Agree.symm {g g' : DirectedGraph} {scorefn scorefn' : ScoreFn} {start : VertexId} (h : Agree g g' scorefn scorefn' start) :
    Agree g' g scorefn' scorefn start :=
  ⟨fun u v => (h.adj u v).symm, fun p hp => (h.score p (h.walk.2 hp)).symm⟩

theorem Agree.unpruned {g g' : DirectedGraph} {scorefn scorefn' : ScoreFn} {start : VertexId} (h : Agree g g' scorefn scorefn' start)
    {cs : List Constraint} {y : ScoredPath} (hy : Unpruned g scorefn cs start y) : Unpruned g' scorefn' cs start y := by
  obtain ⟨h1, h2, h3⟩ := hy
  refine ⟨h.walk.1 h1, by rw [h.score _ h1]; exact h2, fun q hq hl => ?_⟩
  obtain ⟨s, h4, h5⟩ := h3 q hq hl
  refine ⟨s, ?_, h5⟩
  have hw : WalkFrom g start q.vertices := by
    refine ⟨h1.1.prefix hq, ?_⟩
    obtain ⟨t, ht⟩ := hq
    have h6 := h1.2
    rw [← ht, List.head?_append] at h6
    cases hh : q.vertices.head? with
    | none =>
      rw [List.head?_eq_none_iff] at hh
      rw [hh] at hl
      simp at hl
    | some a => rw [hh] at h6; exact h6
  rw [h.score _ hw]
  exact h4

theorem Agree.waits {g g' : DirectedGraph} {scorefn scorefn' : ScoreFn} {start : VertexId} (h : Agree g g' scorefn scorefn' start)
    {cs : List Constraint} {ys : List ScoredPath} {y : ScoredPath} :
    WaitsAfter g scorefn cs start ys y ↔ WaitsAfter g' scorefn' cs start ys y :=
  ⟨fun ⟨h1, h2⟩ => ⟨h.unpruned h1, h2⟩, fun ⟨h1, h2⟩ => ⟨h.symm.unpruned h1, h2⟩⟩

/-- The stream of one iterator is also the stream of the other, when no two waiting walks have the same score. -/
theorem constrained_lockstep {H H' : ScoredHeap} {g g' : DirectedGraph} (hw : WF g) (hw' : WF g') {scorefn scorefn' : ScoreFn}
    {cs : List Constraint} {start : VertexId} (ha : Agree g g' scorefn scorefn' start)
    (hinj : ∀ x y, Unpruned g scorefn cs start x → Unpruned g scorefn cs start y → x.score = y.score → x = y)
    {s s1 : ConstrainedBestFirstIter H} {out : List ScoredPath} (h : ConstrainedBestFirstIter.from_ g scorefn start = .done s)
    (hr : IterRun (ConstrainedBestFirstIter.next g scorefn cs) s out s1) :
    ∃ s' s1' : ConstrainedBestFirstIter H', ConstrainedBestFirstIter.from_ g' scorefn' start = .done s' ∧
      IterRun (ConstrainedBestFirstIter.next g' scorefn' cs) s' out s1' ∧
      (Returns (ConstrainedBestFirstIter.next g scorefn cs s1) none → Returns (ConstrainedBestFirstIter.next g' scorefn' cs s1') none) ∧
      ∀ x s2, Returns (ConstrainedBestFirstIter.next g scorefn cs s1) (some (x, s2)) →
        ∃ s2', Returns (ConstrainedBestFirstIter.next g' scorefn' cs s1') (some (x, s2')) := by
  have hstart : ∃ s' : ConstrainedBestFirstIter H', ConstrainedBestFirstIter.from_ g' scorefn' start = .done s' := by
    unfold ConstrainedBestFirstIter.from_ at h ⊢
    obtain ⟨sc, h1, h2⟩ := Run.bind_eq_done.1 h
    have h3 : scorefn' g' (Path.empty.append start) = .done sc := by
      rw [ha.score _ ⟨by simp [Path.empty, Path.append], rfl⟩]
      exact h1
    rw [h3, Run.bind_done]
    exact ⟨_, rfl⟩
  obtain ⟨s', hs'⟩ := hstart
  -- one step
  have hstep : ∀ {out s1 s1'}, IterRun (ConstrainedBestFirstIter.next g scorefn cs) s out s1 →
      IterRun (ConstrainedBestFirstIter.next g' scorefn' cs) s' out s1' →
      (Returns (ConstrainedBestFirstIter.next g scorefn cs s1) none → Returns (ConstrainedBestFirstIter.next g' scorefn' cs s1') none) ∧
      ∀ x s2, Returns (ConstrainedBestFirstIter.next g scorefn cs s1) (some (x, s2)) →
        ∃ s2', Returns (ConstrainedBestFirstIter.next g' scorefn' cs s1') (some (x, s2')) := by
    intro out s1 s1' hr hr'
    have hc := cinv_run hw h hr
    have hc' := cinv_run hw' hs' hr'
    have hmem : ∀ y, y ∈ s1.queue.items ↔ y ∈ s1'.queue.items := fun y => by rw [← hc.waits, ← hc'.waits, ha.waits]
    constructor
    · intro hn
      refine ConstrainedBestFirstIter.next_none ?_
      have he := ConstrainedBestFirstIter.next_none_inv hn
      rw [List.eq_nil_iff_forall_not_mem]
      intro y hy
      rw [← hmem, he] at hy
      cases hy
    · intro x s2 hx
      obtain ⟨l, u, h3, h4, h5, h6, _⟩ := ConstrainedBestFirstIter.next_some_inv hx
      have hxm : x ∈ s1.queue.items := h3.mem_iff.2 (by simp)
      have huniq : ∀ y ∈ s1'.queue.items, (∀ z ∈ s1'.queue.items, y.score ≤ z.score) → y = x := by
        intro y hy hmin
        have hy' := (hmem y).2 hy
        have e1 := hmin x ((hmem x).1 hxm)
        have e2 := h4 y hy'
        exact hinj y x (hc.node y (List.mem_append_right _ hy')) (hc.node x (List.mem_append_right _ hxm)) (by omega)
      obtain ⟨y, s2', hy, hn⟩ := ConstrainedBestFirstIter.next_some (g := g') (scorefn := scorefn') (cs := cs) (s := s1')
        (fun he => by have := (hmem x).1 hxm; rw [he] at this; cases this) (by
          intro y hy hmin
          rw [huniq y hy hmin]
          refine ⟨u, h5, fun v hv => ?_⟩
          have hadj : Adj g u v := (ha.adj u v).2 (hw'.mem_outs'.1 hv)
          obtain ⟨sc, hsc⟩ := h6 v (hw.mem_outs'.2 hadj)
          refine ⟨sc, ?_⟩
          rw [ha.score]
          · exact hsc
          · have hxw := (hc.node x (List.mem_append_right _ hxm)).1
            refine ⟨?_, ?_⟩
            · simp only [Path.append]
              rw [List.isChain_append]
              refine ⟨hxw.1, by simp, ?_⟩
              intro a ha' b hb
              rw [h5] at ha'
              simp only [List.head?_cons, Option.mem_def, Option.some.injEq] at ha' hb
              subst ha' hb
              exact hadj
            · simp only [Path.append, List.head?_append, hxw.2, Option.some_or])
      obtain ⟨l', u', h3', h4', _⟩ := ConstrainedBestFirstIter.next_some_inv hn
      rw [huniq y hy h4'] at hn
      exact ⟨s2', hn⟩
  have hrun : ∃ s1', IterRun (ConstrainedBestFirstIter.next g' scorefn' cs) s' out s1' := by
    induction hr with
    | refl => exact ⟨s', .refl⟩
    | step h1 h2 ih =>
      obtain ⟨t, ht⟩ := ih
      obtain ⟨t', ht'⟩ := (hstep h1 ht).2 _ _ h2
      exact ⟨t', ht.step ht'⟩
  obtain ⟨s1', hs1'⟩ := hrun
  exact ⟨s', s1', hs', hs1', hstep hr hs1'⟩

end GC
