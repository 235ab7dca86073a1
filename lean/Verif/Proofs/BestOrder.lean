/-
The order of best-first iteration (C124).
-/
import Verif.Proofs.Iter
import Verif.Spec.BestOrder
namespace GC
open DirectedGraph

theorem found_snoc {g : DirectedGraph} {s : VertexId} {ps : List (List VertexId)} {x : List VertexId} {u : VertexId}
    (hu : x.getLast? = some u) (l : List VertexId) :
    Found g s (ps ++ [x]) l ↔ Found g s ps l ∨
      ∃ v, Adj g u v ∧ v ≠ s ∧ (∀ q ∈ ps, ∀ w, q.getLast? = some w → ¬ Adj g w v) ∧ l = x ++ [v] := by
  constructor
  · rintro (h | ⟨i, p, a, v, h1, h2, h3, h4, h5, h6⟩)
    · exact .inl (.inl h)
    · rcases Nat.lt_or_ge i ps.length with hi | hi
      · refine .inl (.inr ⟨i, p, a, v, ?_, h2, h3, h4, ?_, h6⟩)
        · rwa [List.getElem?_append_left hi] at h1
        · intro j q w hj hq
          exact h5 j q w hj (by rwa [List.getElem?_append_left (by omega)])
      · have hi' : i = ps.length := by
          have := (List.getElem?_eq_some_iff.1 h1).1
          simp only [List.length_append, List.length_cons, List.length_nil] at this
          omega
        subst hi'
        simp only [List.getElem?_concat_length, Option.some.injEq] at h1
        subst h1
        rw [hu] at h2
        cases h2
        refine .inr ⟨v, h3, h4, ?_, h6⟩
        intro q hq w hw
        obtain ⟨j, hj, rfl⟩ := List.mem_iff_getElem.1 hq
        exact h5 j _ w hj (by rw [List.getElem?_append_left hj, List.getElem?_eq_getElem hj]) hw
  · rintro ((h | ⟨i, p, a, v, h1, h2, h3, h4, h5, h6⟩) | ⟨v, h1, h2, h3, h4⟩)
    · exact .inl h
    · have hi := (List.getElem?_eq_some_iff.1 h1).1
      refine .inr ⟨i, p, a, v, by rwa [List.getElem?_append_left hi], h2, h3, h4, ?_, h6⟩
      intro j q w hj hq
      exact h5 j q w hj (by rwa [List.getElem?_append_left (by omega)] at hq)
    · refine .inr ⟨ps.length, x, u, v, by simp, hu, h1, h2, ?_, h4⟩
      intro j q w hj hq
      rw [List.getElem?_append_left hj] at hq
      exact h3 q (List.mem_of_getElem? hq) w

/-- The vertices of the paths of a list of scored paths. -/
def pathsOf (xs : List ScoredPath) : List (List VertexId) := xs.map fun sp => sp.path.vertices

/-- What holds between the items already yielded, those in the queue and the visited set. -/
structure OrderInv (g : DirectedGraph) (start : VertexId) (f : Path → Int) (done items : List ScoredPath) (visited : List VertexId) :
    Prop where
  vis : ∀ v, v ∈ visited ↔ v = start ∨ ∃ d ∈ done, Adj g (lastOf d) v
  found : ∀ l, Found g start (pathsOf done) l ↔ l ∈ pathsOf (done ++ items)
  best : ∀ i sp, done[i]? = some sp → Found g start (pathsOf (done.take i)) sp.path.vertices ∧
    ∀ l, Found g start (pathsOf (done.take i)) l → l ∉ pathsOf (done.take i) → sp.score ≤ f ⟨l⟩

theorem best_drains_order {H : ScoredHeap} {g : DirectedGraph} (hw : WF g) {scorefn : ScoreFn} {f : Path → Int} {start : VertexId}
    (hf : ScoresBy g start scorefn f) :
    ∃ s xs, BestFirstIter.from_ (H := H) g scorefn start = .done s ∧ Drains (BestFirstIter.next g scorefn) s xs ∧
      (∀ sp ∈ xs, SimplePathFrom g start sp.path.vertices ∧ sp.score = f sp.path) ∧ (xs.map lastOf).Nodup ∧
      ∃ vis, OrderInv g start f xs [] vis := by
  have h0 : SimplePathFrom g start [start] := ⟨by simp, rfl, by simp⟩
  have hfrom : BestFirstIter.from_ (H := H) g scorefn start =
      .done ⟨(MinPriorityQueue.new).push ⟨⟨[start]⟩, f ⟨[start]⟩⟩, [start]⟩ := by
    have := hf ⟨[start]⟩ h0
    simp [BestFirstIter.from_, BestFirstIter.empty, Path.empty, Path.append, this]
  have hitems : ((MinPriorityQueue.new).push ⟨⟨[start]⟩, f ⟨[start]⟩⟩ : MinPriorityQueue ScoredPath ScoredPath.le H).items =
      [⟨⟨[start]⟩, f ⟨[start]⟩⟩] := by
    have := MinPriorityQueue.items_push (MinPriorityQueue.new : MinPriorityQueue ScoredPath ScoredPath.le H) ⟨⟨[start]⟩, f ⟨[start]⟩⟩
    rw [MinPriorityQueue.items_new] at this
    exact List.perm_singleton.1 this
  obtain ⟨xs, s', h1, h2, h3, h4, h5, h6, h7⟩ := search_drains (outs := g.outs) (hw.nodup_outs') (start := start) (key := lastOf)
    (child := extend f) (lastOf_extend f) (start :: g.vertices) (fun v hv => hw.reach_mem hv)
    (BestFirstIter.next g scorefn) (fun s : BestFirstIter H => s.queue.items) (fun s => s.visited)
    (fun sp => SimplePathFrom g start sp.path.vertices ∧ sp.score = f sp.path)
    (fun done s => (∀ sp ∈ s.queue.items, ∀ u ∈ sp.path.vertices, u ∈ s.visited) ∧
      OrderInv g start f done s.queue.items s.visited)
    (by
      intro s hs
      unfold BestFirstIter.next
      rw [MinPriorityQueue.pop_none.2 hs]
      exact Returns.ret _)
    (by
      rintro done s hi ⟨hJ1, hJ2⟩ hne hP hD
      obtain ⟨x, q, hq⟩ := MinPriorityQueue.exists_pop hne
      obtain ⟨p1, p2⟩ := MinPriorityQueue.pop_some hq
      have hx : x ∈ s.queue.items := p1.mem_iff.2 (by simp)
      obtain ⟨hx1, hx2⟩ := hP x hx
      obtain ⟨u, hu⟩ := hx1.last
      have hul : x.path.last = some u := hu
      have hlast : lastOf x = u := by simp [lastOf, hul]
      have hsimple : ∀ v ∈ fresh g.outs u s.visited, SimplePathFrom g start (x.path.append v).vertices := by
        intro v hv
        obtain ⟨h1, h2⟩ := mem_fresh.1 hv
        exact hx1.append hu (hw.mem_outs'.1 h1) (fun h => h2 (hJ1 x hx v h))
      obtain ⟨q', r1, r2⟩ := BestFirstIter.forEach_visit (f := f) (scorefn := scorefn) (g := g) x (g.outs u) (hw.nodup_outs' u) q s.visited
        (fun v hv hn => hf _ (hsimple v (mem_fresh.2 ⟨hv, hn⟩)))
      have r2 : q'.items.Perm (q.items ++ (fresh g.outs u s.visited).map (extend f x)) := r2
      have hle : ∀ y ∈ s.queue.items, x.score ≤ y.score := fun y hy => by
        have := p2 y hy
        simpa only [ScoredPath.le, decide_eq_true_eq] using this
      refine ⟨x, q.items, ⟨q', (fresh g.outs (lastOf x) s.visited).reverse ++ s.visited⟩, ?_, p1, ?_, rfl, ?_, ?_, ?_⟩
      · unfold BestFirstIter.next
        rw [hq]
        simp only
        rw [hul, Run.unwrap_some, Run.bind_done, r1, Run.bind_done, hlast]
        exact Returns.lift_done _
      · rw [hlast]; exact r2
      · intro v hv
        rw [hlast] at hv
        exact ⟨hsimple v hv, rfl⟩
      · intro sp hsp w hw'
        rcases List.mem_append.1 (r2.mem_iff.1 hsp) with hsp | hsp
        · exact List.mem_append_right _ (hJ1 sp (p1.mem_iff.2 (List.mem_cons_of_mem _ hsp)) w hw')
        · obtain ⟨v, hv, rfl⟩ := List.mem_map.1 hsp
          rw [hlast]
          have hw'' : w ∈ x.path.vertices ++ [v] := hw'
          rcases List.mem_append.1 hw'' with hw' | hw'
          · exact List.mem_append_right _ (hJ1 x hx w hw')
          · simp only [List.mem_singleton] at hw'
            subst hw'
            exact List.mem_append_left _ (List.mem_reverse.2 hv)
      · have hlastd : ∀ d ∈ done, d.path.vertices.getLast? = some (lastOf d) := by
          intro d hd
          obtain ⟨a, ha⟩ := (hD d hd).1.last
          rw [ha]
          simp [lastOf, Path.last, ha]
        -- a vertex is fresh if it is a new out-neighbour
        have hfresh : ∀ v, v ∈ fresh g.outs u s.visited ↔
            Adj g u v ∧ v ≠ start ∧ ∀ p ∈ pathsOf done, ∀ w, p.getLast? = some w → ¬ Adj g w v := by
          intro v
          rw [mem_fresh, hw.mem_outs', hJ2.vis]
          refine and_congr_right fun _ => ?_
          rw [not_or]
          refine and_congr_right fun _ => ?_
          constructor
          · intro h p hp w hw' ha
            obtain ⟨d, hd, rfl⟩ := List.mem_map.1 hp
            rw [hlastd d hd] at hw'
            cases hw'
            exact h ⟨d, hd, ha⟩
          · rintro h ⟨d, hd, ha⟩
            exact h _ (List.mem_map_of_mem hd) _ (hlastd d hd) ha
        constructor
        · intro v
          simp only [List.mem_append, List.mem_reverse, hlast, mem_fresh, hw.mem_outs', List.mem_singleton]
          constructor
          · rintro (⟨h, _⟩ | h)
            · exact .inr ⟨x, .inr rfl, by rwa [hlast]⟩
            · rcases (hJ2.vis v).1 h with h | ⟨d, hd, h⟩
              · exact .inl h
              · exact .inr ⟨d, .inl hd, h⟩
          · rintro (h | ⟨d, hd | rfl, h⟩)
            · exact .inr ((hJ2.vis v).2 (.inl h))
            · exact .inr ((hJ2.vis v).2 (.inr ⟨d, hd, h⟩))
            · by_cases hv : v ∈ s.visited
              · exact .inr hv
              · exact .inl ⟨by rwa [hlast] at h, hv⟩
        · intro l
          have e : pathsOf (done ++ [x]) = pathsOf done ++ [x.path.vertices] := by simp [pathsOf]
          rw [e, found_snoc hu, hJ2.found]
          have e1 : l ∈ pathsOf (done ++ s.queue.items) ↔ l ∈ pathsOf (done ++ [x] ++ q.items) := by
            unfold pathsOf
            refine List.Perm.mem_iff (List.Perm.map _ ?_)
            rw [List.append_assoc]
            exact p1.append_left _
          have e2 : l ∈ pathsOf (done ++ [x] ++ q'.items) ↔
              l ∈ pathsOf (done ++ [x] ++ (q.items ++ (fresh g.outs u s.visited).map (extend f x))) := by
            unfold pathsOf
            exact List.Perm.mem_iff (List.Perm.map _ (r2.append_left _))
          rw [e1, e2, ← List.append_assoc]
          unfold pathsOf
          rw [List.map_append (l₂ := (fresh g.outs u s.visited).map (extend f x)), List.mem_append]
          refine or_congr_right ?_
          rw [List.map_map, List.mem_map]
          constructor
          · rintro ⟨v, h1, h2, h3, rfl⟩
            exact ⟨v, (hfresh v).2 ⟨h1, h2, h3⟩, rfl⟩
          · rintro ⟨v, hv, rfl⟩
            obtain ⟨h1, h2, h3⟩ := (hfresh v).1 hv
            exact ⟨v, h1, h2, h3, rfl⟩
        · intro i sp hsp
          rcases Nat.lt_or_ge i done.length with hlt | hge
          · rw [List.getElem?_append_left hlt] at hsp
            rw [List.take_append_of_le_length (by omega)]
            exact hJ2.best i sp hsp
          · have hi' : i = done.length := by
              have := (List.getElem?_eq_some_iff.1 hsp).1
              simp only [List.length_append, List.length_cons, List.length_nil] at this
              omega
            subst hi'
            simp only [List.getElem?_concat_length, Option.some.injEq] at hsp
            subst hsp
            rw [List.take_left']
            refine ⟨(hJ2.found _).2 (List.mem_map_of_mem (List.mem_append_right _ hx)), ?_⟩
            intro l hl hn
            obtain ⟨y, hy, rfl⟩ := List.mem_map.1 ((hJ2.found l).1 hl)
            rcases List.mem_append.1 hy with hy | hy
            · exact absurd (List.mem_map_of_mem hy) hn
            · have := hle y hy
              rwa [(hP y hy).2] at this
            rfl)
    ⟨(MinPriorityQueue.new).push ⟨⟨[start]⟩, f ⟨[start]⟩⟩, [start]⟩
    (.init (x := ⟨⟨[start]⟩, f ⟨[start]⟩⟩) rfl hitems)
    ⟨by
        intro sp hsp u hu
        rw [hitems] at hsp
        simp only [List.mem_singleton] at hsp
        subst hsp
        simpa using hu,
      ⟨by simp, by
        intro l
        rw [hitems]
        simp [Found, pathsOf], by simp⟩⟩
    (by
      intro sp hsp
      rw [hitems] at hsp
      simp only [List.mem_singleton] at hsp
      subst hsp
      exact ⟨h0, rfl⟩)
  have h8 := h4.2
  rw [h3] at h8
  exact ⟨_, xs, hfrom, h1, h5, h6, _, h8⟩

theorem OrderInv.order {g : DirectedGraph} {start : VertexId} {f : Path → Int} {xs : List ScoredPath} {vis : List VertexId}
    (h : OrderInv g start f xs [] vis) (hP : ∀ sp ∈ xs, SimplePathFrom g start sp.path.vertices ∧ sp.score = f sp.path)
    (hn : (xs.map lastOf).Nodup) : BestFirstOrder g start (fun l => f ⟨l⟩) (pathsOf xs) := by
  constructor
  · intro i p hp
    unfold pathsOf at hp
    rw [List.getElem?_map, Option.map_eq_some_iff] at hp
    obtain ⟨sp, hsp, rfl⟩ := hp
    have e : (pathsOf xs).take i = pathsOf (xs.take i) := by unfold pathsOf; rw [List.map_take]
    rw [e]
    obtain ⟨h1, h2⟩ := h.best i sp hsp
    refine ⟨h1, ?_, ?_⟩
    · intro hm
      obtain ⟨y, hy, he⟩ := List.mem_map.1 hm
      obtain ⟨j, hj, rfl⟩ := List.mem_take_iff_getElem.1 hy
      obtain ⟨hi, rfl⟩ := List.getElem?_eq_some_iff.1 hsp
      have hlt : j < i := by omega
      have hij : (xs.map lastOf)[j]'(by simp; omega) = (xs.map lastOf)[i]'(by simp; omega) := by
        simp only [List.getElem_map, lastOf, Path.last]
        rw [he]
      have := (List.Nodup.getElem_inj_iff hn).1 hij
      omega
    · intro l hl hm
      have := h2 l hl hm
      rwa [(hP sp (List.mem_of_getElem? hsp)).2] at this
  · intro p hp
    have := (h.found p).1 hp
    rwa [List.append_nil] at this

/-- `Found` depends on the edges only. -/
theorem found_congr {g g' : DirectedGraph} (ha : ∀ u v, Adj g u v ↔ Adj g' u v) {s : VertexId} {ps : List (List VertexId)}
    {l : List VertexId} : Found g s ps l ↔ Found g' s ps l := by
  unfold Found
  simp only [ha]

theorem BestFirstOrder.congr {g g' : DirectedGraph} (ha : ∀ u v, Adj g u v ↔ Adj g' u v) {s : VertexId} {f : List VertexId → Int}
    {ps : List (List VertexId)} (h : BestFirstOrder g s f ps) : BestFirstOrder g' s f ps :=
  ⟨fun i p hp => by
    have := h.best i p hp
    exact ⟨(found_congr ha).1 this.1, this.2.1, fun q hq => this.2.2 q ((found_congr ha).2 hq)⟩,
   fun p hp => h.all p ((found_congr ha).2 hp)⟩

theorem Found.mono {g : DirectedGraph} {s : VertexId} {ps qs : List (List VertexId)} {l : List VertexId} (h : Found g s ps l) :
    Found g s (ps ++ qs) l := by
  rcases h with h | ⟨i, p, a, v, h1, h2, h3, h4, h5, h6⟩
  · exact .inl h
  · have hi := (List.getElem?_eq_some_iff.1 h1).1
    refine .inr ⟨i, p, a, v, by rwa [List.getElem?_append_left hi], h2, h3, h4, ?_, h6⟩
    intro j q w hj hq
    exact h5 j q w hj (by rwa [List.getElem?_append_left (by omega)] at hq)

/-- Without ties among the paths that are found there is only one order. -/
theorem BestFirstOrder.unique {g : DirectedGraph} {s : VertexId} {f : List VertexId → Int} {ps qs : List (List VertexId)}
    (hf : ∀ p ∈ ps, ∀ q ∈ qs, f p = f q → p = q) (hp : BestFirstOrder g s f ps) (hq : BestFirstOrder g s f qs) : ps = qs := by
  have key : ∀ n, ps.take n = qs.take n := by
    intro n
    induction n with
    | zero => simp
    | succ n ih =>
      rw [List.take_add_one, List.take_add_one, ih]
      congr 1
      have hall : ∀ {as bs : List (List VertexId)}, BestFirstOrder g s f as → BestFirstOrder g s f bs → as.take n = bs.take n →
          as[n]? = none → bs[n]? = none := by
        intro as bs ha hb he hn
        cases hb' : bs[n]? with
        | none => rfl
        | some b =>
          obtain ⟨h1, h2, _⟩ := hb.best n b hb'
          have hle := List.getElem?_eq_none_iff.1 hn
          rw [← he, List.take_of_length_le hle] at h1 h2
          exact absurd (ha.all b h1) h2
      cases h1 : ps[n]? with
      | none => rw [hall hp hq ih h1]
      | some p =>
        cases h2 : qs[n]? with
        | none => rw [hall hq hp ih.symm h2] at h1; cases h1
        | some q =>
          obtain ⟨a1, a2, a3⟩ := hp.best n p h1
          obtain ⟨b1, b2, b3⟩ := hq.best n q h2
          have e1 := a3 q (ih ▸ b1) (ih ▸ b2)
          have e2 := b3 p (ih ▸ a1) (ih ▸ a2)
          rw [hf p (List.mem_of_getElem? h1) q (List.mem_of_getElem? h2) (by omega)]
  have := key (max ps.length qs.length)
  rwa [List.take_of_length_le (by omega), List.take_of_length_le (by omega)] at this

end GC
