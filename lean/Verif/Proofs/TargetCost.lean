/-
Best-first search when the cost of an extension by a vertex has a bound that is the same from everywhere.
-/
import Verif.Proofs.Iter
namespace GC
open DirectedGraph

/-- What holds between the items already yielded and those in the queue. -/
structure TargetInv (g : DirectedGraph) (start : VertexId) (c : VertexId → Int) (done items : List ScoredPath) : Prop where
  sorted : ∀ d ∈ done, ∀ y ∈ items, d.score ≤ y.score
  parent : ∀ y ∈ done ++ items, lastOf y = start ∨ ∃ d ∈ done, y.score ≤ d.score + c (lastOf y)
  edge : ∀ d ∈ done, ∀ v, Adj g (lastOf d) v → ∃ y ∈ done ++ items, lastOf y = v ∧ (v = start ∨ y.score ≤ d.score + c v)

theorem best_drains_target {H : ScoredHeap} {g : DirectedGraph} (hw : WF g) {scorefn : ScoreFn} {f : Path → Int} {start : VertexId}
    {c : VertexId → Int} (hf : ScoresBy g start scorefn f)
    (hext : ∀ (p : Path) u v, SimplePathFrom g start p.vertices → p.last = some u → Adj g u v → v ∉ p.vertices →
      f p ≤ f (p.append v) ∧ f (p.append v) ≤ f p + c v) :
    ∃ s xs, BestFirstIter.from_ (H := H) g scorefn start = .done s ∧ Drains (BestFirstIter.next g scorefn) s xs ∧
      (∀ sp ∈ xs, SimplePathFrom g start sp.path.vertices ∧ sp.score = f sp.path) ∧ (xs.map lastOf).Nodup ∧
      (∀ v, v ∈ xs.map lastOf ↔ ReachBy g.outs start v) ∧
      ∀ d ∈ xs, ∀ v, Adj g (lastOf d) v → ∃ y ∈ xs, lastOf y = v ∧ (v = start ∨ y.score ≤ d.score + c v) := by
  have h0 : SimplePathFrom g start [start] := ⟨by simp, rfl, by simp⟩
  have hfrom : BestFirstIter.from_ (H := H) g scorefn start =
      .done ⟨(MinPriorityQueue.new).push ⟨⟨[start]⟩, f ⟨[start]⟩⟩, [start]⟩ := by
    have := hf ⟨[start]⟩ h0
    simp [BestFirstIter.from_, BestFirstIter.empty, Path.empty, Path.append, this]
  have hitems : ((MinPriorityQueue.new).push ⟨⟨[start]⟩, f ⟨[start]⟩⟩ : MinPriorityQueue ScoredPath ScoredPath.le H).items =
      [⟨⟨[start]⟩, f ⟨[start]⟩⟩] := by
    have := MinPriorityQueue.items_push (MinPriorityQueue.new : MinPriorityQueue ScoredPath ScoredPath.le H) ⟨⟨[start]⟩, f ⟨[start]⟩⟩
    rw [MinPriorityQueue.items_new] at this
    exact List.perm_singleton.1 this
  obtain ⟨xs, s', h1, h2, h3, h4, h5, h6, h7⟩ := search_drains (outs := g.outs) (hw.nodup_outs') (start := start) (key := lastOf)
    (child := extend f) (lastOf_extend f) (start :: g.vertices) (fun v hv => hw.reach_mem hv)
    (BestFirstIter.next g scorefn) (fun s : BestFirstIter H => s.queue.items) (fun s => s.visited)
    (fun sp => SimplePathFrom g start sp.path.vertices ∧ sp.score = f sp.path)
    (fun done s => (∀ sp ∈ s.queue.items, ∀ u ∈ sp.path.vertices, u ∈ s.visited) ∧ TargetInv g start c done s.queue.items)
    (by
      intro s hs
      unfold BestFirstIter.next
      rw [MinPriorityQueue.pop_none.2 hs]
      exact Returns.ret _)
    (by
      rintro done s hi ⟨hJ1, hJ2⟩ hne hP _
      obtain ⟨x, q, hq⟩ := MinPriorityQueue.exists_pop hne
      obtain ⟨p1, p2⟩ := MinPriorityQueue.pop_some hq
      have hx : x ∈ s.queue.items := p1.mem_iff.2 (by simp)
      obtain ⟨hx1, hx2⟩ := hP x hx
      obtain ⟨u, hu⟩ := hx1.last
      have hul : x.path.last = some u := hu
      have hlast : lastOf x = u := by simp [lastOf, hul]
      have hsimple : ∀ v ∈ fresh g.outs u s.visited, SimplePathFrom g start (x.path.append v).vertices := by
        intro v hv
        obtain ⟨h1, h2⟩ := mem_fresh.1 hv
        exact hx1.append hu (hw.mem_outs'.1 h1) (fun h => h2 (hJ1 x hx v h))
      have hscore : ∀ v ∈ fresh g.outs u s.visited, x.score ≤ (extend f x v).score ∧ (extend f x v).score ≤ x.score + c v := by
        intro v hv
        obtain ⟨h1, h2⟩ := mem_fresh.1 hv
        have ha := hw.mem_outs'.1 h1
        rw [hx2]
        exact hext _ _ _ hx1 hul ha (fun h => h2 (hJ1 x hx v h))
      obtain ⟨q', r1, r2⟩ := BestFirstIter.forEach_visit (f := f) (scorefn := scorefn) (g := g) x (g.outs u) (hw.nodup_outs' u) q s.visited
        (fun v hv hn => hf _ (hsimple v (mem_fresh.2 ⟨hv, hn⟩)))
      have r2 : q'.items.Perm (q.items ++ (fresh g.outs u s.visited).map (extend f x)) := r2
      have hle : ∀ y ∈ s.queue.items, x.score ≤ y.score := fun y hy => by
        have := p2 y hy
        simpa only [ScoredPath.le, decide_eq_true_eq] using this
      -- an item that was there before the step is there after it
      have hkeep : ∀ y ∈ done ++ s.queue.items, y ∈ (done ++ [x]) ++ q'.items := by
        intro y hy
        rcases List.mem_append.1 hy with hy | hy
        · exact List.mem_append_left _ (List.mem_append_left _ hy)
        · rcases List.mem_cons.1 (p1.mem_iff.1 hy) with rfl | hy
          · simp
          · exact List.mem_append_right _ (r2.mem_iff.2 (List.mem_append_left _ hy))
      refine ⟨x, q.items, ⟨q', (fresh g.outs (lastOf x) s.visited).reverse ++ s.visited⟩, ?_, p1, ?_, rfl, ?_, ?_, ?_⟩
      · unfold BestFirstIter.next
        rw [hq]
        simp only
        rw [hul, Run.unwrap_some, Run.bind_done, r1, Run.bind_done, hlast]
        exact Returns.lift_done _
      · rw [hlast]; exact r2
      · intro v hv
        rw [hlast] at hv
        exact ⟨hsimple v hv, rfl⟩
      · intro sp hsp w hw'
        rcases List.mem_append.1 (r2.mem_iff.1 hsp) with hsp | hsp
        · exact List.mem_append_right _ (hJ1 sp (p1.mem_iff.2 (List.mem_cons_of_mem _ hsp)) w hw')
        · obtain ⟨v, hv, rfl⟩ := List.mem_map.1 hsp
          rw [hlast]
          have hw'' : w ∈ x.path.vertices ++ [v] := hw'
          rcases List.mem_append.1 hw'' with hw' | hw'
          · exact List.mem_append_right _ (hJ1 x hx w hw')
          · simp only [List.mem_singleton] at hw'
            subst hw'
            exact List.mem_append_left _ (List.mem_reverse.2 hv)
      · constructor
        · intro d hd y hy
          have hdx : d.score ≤ x.score := by
            rcases List.mem_append.1 hd with hd | hd
            · exact hJ2.sorted d hd x hx
            · rw [List.mem_singleton.1 hd]
          rcases List.mem_append.1 (r2.mem_iff.1 hy) with hy | hy
          · exact hdx.trans (hle y (p1.mem_iff.2 (List.mem_cons_of_mem _ hy)))
          · obtain ⟨v, hv, rfl⟩ := List.mem_map.1 hy
            obtain ⟨e, e'⟩ := hscore v hv
            omega
        · intro y hy
          have hold : y ∈ done ++ s.queue.items → lastOf y = start ∨ ∃ d ∈ done ++ [x], y.score ≤ d.score + c (lastOf y) := by
            intro hy
            rcases hJ2.parent y hy with h | ⟨d, hd, h⟩
            · exact .inl h
            · exact .inr ⟨d, List.mem_append_left _ hd, h⟩
          rcases List.mem_append.1 hy with hy | hy
          · rcases List.mem_append.1 hy with hy | hy
            · exact hold (List.mem_append_left _ hy)
            · rw [List.mem_singleton.1 hy] at hold ⊢
              exact hold (List.mem_append_right _ hx)
          · rcases List.mem_append.1 (r2.mem_iff.1 hy) with hy | hy
            · exact hold (List.mem_append_right _ (p1.mem_iff.2 (List.mem_cons_of_mem _ hy)))
            · obtain ⟨v, hv, rfl⟩ := List.mem_map.1 hy
              exact .inr ⟨x, by simp, by rw [lastOf_extend]; exact (hscore v hv).2⟩
        · intro d hd v hv
          rcases List.mem_append.1 hd with hd | hd
          · obtain ⟨y, hy, h⟩ := hJ2.edge d hd v hv
            exact ⟨y, hkeep y hy, h⟩
          · rw [List.mem_singleton.1 hd] at hv ⊢
            rw [hlast] at hv
            have hvo := hw.mem_outs'.2 hv
            by_cases hvis : v ∈ s.visited
            · obtain ⟨y, hy, hyl⟩ := List.mem_map.1 ((hi.mem v).1 hvis)
              refine ⟨y, hkeep y hy, hyl, ?_⟩
              rcases hJ2.parent y hy with h | ⟨d', hd', h⟩
              · exact .inl (hyl.symm.trans h)
              · right
                have := hJ2.sorted d' hd' x hx
                rw [hyl] at h
                omega
            · have hfr : v ∈ fresh g.outs u s.visited := mem_fresh.2 ⟨hvo, hvis⟩
              refine ⟨extend f x v, List.mem_append_right _ (r2.mem_iff.2 (List.mem_append_right _ (List.mem_map_of_mem hfr))),
                lastOf_extend f x v, .inr (hscore v hfr).2⟩)
    ⟨(MinPriorityQueue.new).push ⟨⟨[start]⟩, f ⟨[start]⟩⟩, [start]⟩
    (.init (x := ⟨⟨[start]⟩, f ⟨[start]⟩⟩) rfl hitems)
    ⟨by
        intro sp hsp u hu
        rw [hitems] at hsp
        simp only [List.mem_singleton] at hsp
        subst hsp
        simpa using hu,
      ⟨fun _ h => absurd h (by simp), by
        intro y hy
        rw [hitems] at hy
        simp only [List.nil_append, List.mem_singleton] at hy
        subst hy
        exact .inl rfl, fun _ h => absurd h (by simp)⟩⟩
    (by
      intro sp hsp
      rw [hitems] at hsp
      simp only [List.mem_singleton] at hsp
      subst hsp
      exact ⟨h0, rfl⟩)
  refine ⟨_, xs, hfrom, h1, h5, h6, h7, fun d hd v hv => ?_⟩
  obtain ⟨y, hy, h⟩ := h4.2.edge d hd v hv
  rw [h3, List.append_nil] at hy
  exact ⟨y, hy, h⟩

/-- The item of a vertex is at most as expensive as every walk to it. -/
theorem target_le {g : DirectedGraph} {start : VertexId} {c : VertexId → Int} {f : Path → Int} {xs : List ScoredPath} {k : Int}
    (hk : k = f ⟨[start]⟩) (hc : ∀ u v, Adj g u v → 0 ≤ c v)
    (hP : ∀ sp ∈ xs, SimplePathFrom g start sp.path.vertices ∧ sp.score = f sp.path)
    (hs : ∃ y ∈ xs, lastOf y = start)
    (he : ∀ d ∈ xs, ∀ v, Adj g (lastOf d) v → ∃ y ∈ xs, lastOf y = v ∧ (v = start ∨ y.score ≤ d.score + c v))
    (l : List VertexId) : ∀ v, WalkFromTo g start v l →
      k ≤ k + (l.tail.map c).sum ∧ ∃ y ∈ xs, lastOf y = v ∧ y.score ≤ k + (l.tail.map c).sum := by
  have hstart : ∀ y ∈ xs, lastOf y = start → y.score = k := by
    intro y hy hl
    obtain ⟨h1, h2⟩ := hP y hy
    obtain ⟨u, hu⟩ := h1.last
    have hlast : lastOf y = u := by simp [lastOf, Path.last, hu]
    have h3 : y.path.vertices.getLast? = some start := by rw [hu, ← hlast, hl]
    have : y.path.vertices = [start] := by
      obtain ⟨_, h4, h5⟩ := h1
      rcases hv : y.path.vertices with _ | ⟨a, t⟩
      · rw [hv] at h4; cases h4
      · rw [hv] at h3 h4 h5
        cases h4
        rcases t with _ | ⟨b, t⟩
        · rfl
        · rw [List.getLast?_cons_cons] at h3
          exact absurd (List.mem_of_getLast? h3) (List.nodup_cons.1 h5).1
    rw [h2, hk]
    congr 1
    exact congrArg Path.mk this
  induction l using List.reverseRecOn with
  | nil => rintro v ⟨_, h, _⟩; cases h
  | append_singleton l b ih =>
    rintro v ⟨h1, h2, h3⟩
    have hvb : b = v := by simpa using h3
    subst hvb
    rcases List.eq_nil_or_concat l with rfl | ⟨l', u, rfl⟩
    · have : b = start := by simpa using h2
      subst this
      obtain ⟨y, hy, hl⟩ := hs
      refine ⟨by simp, y, hy, hl, ?_⟩
      rw [hstart y hy hl]
      simp
    · rw [List.concat_eq_append] at h1 h2 ih ⊢
      rw [List.isChain_append] at h1
      have ha : Adj g u b := h1.2.2 u (by simp) b (by simp)
      obtain ⟨i1, y, hy, hyl, i2⟩ := ih u ⟨h1.1, by
        rw [List.head?_append] at h2
        cases h : (l' ++ [u]).head? with
        | none => simp at h
        | some a => rw [h] at h2; exact h2, by simp⟩
      have htail : (l' ++ [u] ++ [b]).tail = (l' ++ [u]).tail ++ [b] := by cases l' <;> rfl
      rw [htail, List.map_append, List.sum_append]
      simp only [List.map_cons, List.map_nil, List.sum_cons, List.sum_nil, Int.add_zero]
      have hb := hc u b ha
      refine ⟨by omega, ?_⟩
      obtain ⟨z, hz, hzl, h⟩ := he y hy b (by rw [hyl]; exact ha)
      refine ⟨z, hz, hzl, ?_⟩
      rcases h with h | h
      · rw [hstart z hz (hzl.trans h)]
        omega
      · omega

end GC
