/- Proofs about shortest paths in acyclic graphs. -/
import Verif.Proofs.Relax
import Verif.Proofs.Topo
import Mathlib.Data.List.TakeWhile
namespace GC
open DirectedGraph HMap
namespace ShortestPath

variable {g : DirectedGraph} {w : WeightFn} {s u v x : VertexId} {sc sc' : Scores}

theorem dagRelax_cases {e : Edge} (h : dagRelax (pureFn w) v sc e = .done sc') :
    ∃ sp, get? sc v = some sp ∧
      ((sc' = HMap.insert sc e.dst (newEntry w sp e) ∧ ∀ cur, get? sc e.dst = some cur → sp.score + w e < cur.score) ∨
       (sc' = sc ∧ ∃ cur, get? sc e.dst = some cur ∧ cur.score ≤ sp.score + w e)) := by
  unfold dagRelax at h
  rw [Run.bind_eq_done] at h
  obtain ⟨sp, h1, h⟩ := h
  rw [pureFn, Run.bind_done, Run.bind_eq_done] at h
  obtain ⟨ns, h2, h⟩ := h
  have hsp : get? sc v = some sp := by
    cases hg : get? sc v with
    | none => rw [hg] at h1; cases h1
    | some q => rw [hg] at h1; cases h1; rfl
  rw [addI64_eq h2] at h
  refine ⟨sp, hsp, ?_⟩
  cases hd : get? sc e.dst with
  | none =>
    simp only [hd, Option.map_none] at h
    cases h
    exact .inl ⟨rfl, by simp⟩
  | some cur =>
    simp only [hd, Option.map_some] at h
    split at h
    · rename_i hlt
      cases h
      refine .inl ⟨rfl, ?_⟩
      intro c hc
      cases hc
      exact hlt
    · rename_i hlt
      cases h
      exact .inr ⟨rfl, cur, rfl, by omega⟩

/-- What processing (part of) the outgoing edges of `x` does. -/
theorem dag_edges (es : List Edge) (hes : ∀ e ∈ es, e.src = x ∧ g.containsEdge e = true ∧ e.dst ≠ x) (hg : Gen g w s sc)
    (h : Run.forEach (dagRelax (pureFn w) x) sc es = .done sc') :
    Gen g w s sc' ∧ Le sc sc' ∧ (∀ y, (∀ e ∈ es, e.dst ≠ y) → get? sc' y = get? sc y) ∧
      (∀ e ∈ es, ∃ sp, get? sc x = some sp ∧ ∃ sv, get? sc' e.dst = some sv ∧ sv.score ≤ sp.score + w e) ∧
      (¬ NegativeCycle g w s → Simple sc → Simple sc') := by
  induction es generalizing sc with
  | nil =>
    cases h
    exact ⟨hg, Le.refl _, fun _ _ => rfl, by simp, fun _ h => h⟩
  | cons e es ih =>
    rw [Run.forEach, Run.bind_eq_done] at h
    obtain ⟨sc1, h1, h2⟩ := h
    obtain ⟨he1, he2, he3⟩ := hes e (by simp)
    obtain ⟨sp, hsp, hcase⟩ := dagRelax_cases h1
    have hsrc : get? sc e.src = some sp := by rw [he1]; exact hsp
    have step : Gen g w s sc1 ∧ Le sc sc1 ∧ (∀ y, e.dst ≠ y → get? sc1 y = get? sc y) ∧
        (∃ sv, get? sc1 e.dst = some sv ∧ sv.score ≤ sp.score + w e) ∧ (¬ NegativeCycle g w s → Simple sc → Simple sc1) := by
      rcases hcase with ⟨rfl, hlt⟩ | ⟨rfl, cur, hc, hle⟩
      · refine ⟨hg.insert hsrc hlt he2, Le.insert hlt, ?_, ?_, fun hn hs => Simple.insert hg hsrc hlt hn he2 hs⟩
        · intro y hy
          rw [get?_insert, if_neg (Ne.symm hy)]
        · exact ⟨_, by rw [get?_insert, if_pos rfl], Int.le_refl _⟩
      · exact ⟨hg, Le.refl _, fun _ _ => rfl, ⟨cur, hc, hle⟩, fun _ h => h⟩
    obtain ⟨g1, l1, o1, r1, s1⟩ := step
    obtain ⟨g2, l2, o2, r2, s2⟩ := ih (fun e he => hes e (by simp [he])) g1 h2
    refine ⟨g2, l1.trans l2, ?_, ?_, fun hn hs => s2 hn (s1 hn hs)⟩
    · intro y hy
      rw [o2 y (fun e he => hy e (by simp [he])), o1 y (hy e (by simp))]
    · intro e' he'
      rcases List.mem_cons.1 he' with rfl | he'
      · obtain ⟨sv, h3, h4⟩ := r1
        obtain ⟨sv', h5, h6⟩ := l2 _ _ h3
        exact ⟨sp, hsp, sv', h5, Int.le_trans h6 h4⟩
      · obtain ⟨sp', h3, h4⟩ := r2 e' he'
        rw [o1 x he3] at h3
        exact ⟨sp', h3, h4⟩

theorem dag_visit (hw : WF g) (hl : ¬ Adj g x x) (hg : Gen g w s sc) (h : dagVisit g (pureFn w) sc x = .done sc') :
    Gen g w s sc' ∧ Le sc sc' ∧ (∀ y, ¬ Adj g x y → get? sc' y = get? sc y) ∧
      Rel g w sc' x ∧ (¬ NegativeCycle g w s → Simple sc → Simple sc') ∧
      ((∃ y, Adj g x y) → ∃ sp, get? sc x = some sp) := by
  have hes : ∀ e ∈ g.outboundEdges x, e.src = x ∧ g.containsEdge e = true ∧ e.dst ≠ x := by
    intro e he
    obtain ⟨h1, h2⟩ := hw.mem_outbound.1 he
    refine ⟨h2, h1, ?_⟩
    intro c
    apply hl
    unfold Adj
    cases e
    simp_all
  obtain ⟨h1, h2, h3, h4, h5⟩ := dag_edges _ hes hg h
  have hx : get? sc' x = get? sc x := h3 x (fun e he => (hes e he).2.2)
  refine ⟨h1, h2, ?_, ?_, h5, ?_⟩
  · intro y hy
    refine h3 y ?_
    intro e he
    obtain ⟨c1, c2, _⟩ := hes e he
    rintro rfl
    apply hy
    unfold Adj
    rw [← c1]
    exact c2
  · intro sp y hsp hy
    obtain ⟨sp', h6, h7⟩ := h4 ⟨x, y⟩ (hw.mem_outbound.2 ⟨hy, rfl⟩)
    rw [hx, h6] at hsp
    cases hsp
    exact h7
  · rintro ⟨y, hy⟩
    obtain ⟨sp', h6, _⟩ := h4 ⟨x, y⟩ (hw.mem_outbound.2 ⟨hy, rfl⟩)
    exact ⟨sp', h6⟩

/-- Processing vertices in an order in which no edge goes backwards. -/
theorem dag_vertices (hw : WF g) (done todo : List VertexId) (hp : (done ++ todo).Pairwise (fun a b => ¬ Adj g b a))
    (hl : ∀ v, ¬ Adj g v v) (hg : Gen g w s sc) (hr : ∀ u ∈ done, Rel g w sc u)
    (h : Run.forEach (dagVisit g (pureFn w)) sc todo = .done sc') :
    Gen g w s sc' ∧ (∀ u ∈ done ++ todo, Rel g w sc' u) ∧ ∀ u ∈ todo, (∃ y, Adj g u y) → Reach g s u := by
  induction todo generalizing sc done with
  | nil =>
    cases h
    exact ⟨hg, by simpa using hr, by simp⟩
  | cons x todo ih =>
    rw [Run.forEach, Run.bind_eq_done] at h
    obtain ⟨sc1, h1, h2⟩ := h
    obtain ⟨g1, l1, o1, r1, _, k1⟩ := dag_visit hw (hl x) hg h1
    have hr' : ∀ u ∈ done ++ [x], Rel g w sc1 u := by
      intro u hu
      rcases List.mem_append.1 hu with hu | hu
      · have hxu : ¬ Adj g x u := (List.pairwise_append.1 hp).2.2 u hu x (by simp)
        intro sp v hsp huv
        rw [o1 u hxu] at hsp
        obtain ⟨sv, h3, h4⟩ := hr u hu sp v hsp huv
        obtain ⟨sv', h5, h6⟩ := l1 _ _ h3
        exact ⟨sv', h5, Int.le_trans h6 h4⟩
      · rw [List.mem_singleton] at hu
        subst hu
        exact r1
    obtain ⟨g2, r2, k2⟩ := ih (done ++ [x]) (by simpa using hp) g1 hr' h2
    refine ⟨g2, by simpa using r2, ?_⟩
    intro u hu huy
    rcases List.mem_cons.1 hu with rfl | hu
    · obtain ⟨sp, hsp⟩ := k1 huy
      exact hg.key_reach hsp
    · exact k2 u hu huy

/-- Processing vertices does not panic if those with outgoing edges are reachable and weights are small. -/
theorem dag_vertices_done (hw : WF g) {M : Int} (hM0 : 0 ≤ M) (hM : ∀ e, g.containsEdge e = true → |w e| ≤ M)
    (hV : M * g.vertexCount < 2 ^ 63 - 1) (hn : ¬ NegativeCycle g w s)
    (done todo : List VertexId) (hp : (done ++ todo).Pairwise (fun a b => ¬ Adj g b a))
    (hl : ∀ v, ¬ Adj g v v) (hg : Gen g w s sc) (hs : Simple sc) (hr : ∀ u ∈ done, Rel g w sc u)
    (hk : ∀ u ∈ done, Reach g s u → ∃ sp, get? sc u = some sp)
    (hall : ∀ u, Reach g s u → (∃ y, Adj g u y) → u ∈ done ++ todo)
    (ht : ∀ u ∈ todo, (∃ y, Adj g u y) → Reach g s u) :
    ∃ sc', Run.forEach (dagVisit g (pureFn w)) sc todo = .done sc' := by
  induction todo generalizing sc done with
  | nil => exact ⟨sc, rfl⟩
  | cons x todo ih =>
    have hkx : Reach g s x → ∃ sp, get? sc x = some sp := by
      intro hx
      rcases Reach.cases_tail hx with rfl | ⟨u, hu, hux⟩
      · obtain ⟨sp, h1, _⟩ := hg.start
        exact ⟨sp, h1⟩
      · have hmem := hall u hu ⟨x, hux⟩
        have hdone : u ∈ done := by
          rcases List.mem_append.1 hmem with h1 | h1
          · exact h1
          · exfalso
            rcases List.mem_cons.1 h1 with rfl | h1
            · exact hl _ hux
            · have h2 := (List.pairwise_append.1 hp).2.1
              rw [List.pairwise_cons] at h2
              exact h2.1 u h1 hux
        obtain ⟨sp, h1⟩ := hk u hdone hu
        obtain ⟨sv, h2, _⟩ := hr u hdone sp x h1 hux
        exact ⟨sv, h2⟩
    have hedges : ∀ es : List Edge, (∀ e ∈ es, e.src = x ∧ g.containsEdge e = true ∧ e.dst ≠ x) → ∀ sc, Gen g w s sc → Simple sc →
        (es ≠ [] → ∃ sp, get? sc x = some sp) → ∃ sc', Run.forEach (dagRelax (pureFn w) x) sc es = .done sc' := by
      intro es
      induction es with
      | nil => intro _ sc _ _ _; exact ⟨sc, rfl⟩
      | cons e es ihe =>
        intro hes sc hg hs hne
        obtain ⟨sp, hsp⟩ := hne (by simp)
        obtain ⟨he1, he2, he3⟩ := hes e (by simp)
        have hsum := hg.sum_small hw hs hM0 hM hV (by rw [he1]; exact hsp) he2
        rw [abs_lt] at hsum
        have hd : ∃ sc1, dagRelax (pureFn w) x sc e = .done sc1 := by
          unfold dagRelax
          rw [hsp, Run.unwrap_some, Run.bind_done, pureFn, Run.bind_done, addI64_done (by omega) (by omega), Run.bind_done]
          split
          · split
            · exact ⟨_, rfl⟩
            · exact ⟨_, rfl⟩
          · exact ⟨_, rfl⟩
        obtain ⟨sc1, hd⟩ := hd
        have hd' : Run.forEach (dagRelax (pureFn w) x) sc [e] = .done sc1 := by
          rw [Run.forEach, hd]; rfl
        obtain ⟨g1, l1, _, _, s1⟩ := dag_edges [e] (by intro e' h'; rw [List.mem_singleton] at h'; subst h'; exact ⟨he1, he2, he3⟩) hg hd'
        obtain ⟨sc', hsc'⟩ := ihe (fun e he => hes e (by simp [he])) sc1 g1 (s1 hn hs) (fun _ => by
          obtain ⟨sp', h1, _⟩ := l1 _ _ hsp
          exact ⟨sp', h1⟩)
        exact ⟨sc', by rw [Run.forEach, hd]; exact hsc'⟩
    have hes : ∀ e ∈ g.outboundEdges x, e.src = x ∧ g.containsEdge e = true ∧ e.dst ≠ x := by
      intro e he
      obtain ⟨h1, h2⟩ := hw.mem_outbound.1 he
      refine ⟨h2, h1, ?_⟩
      intro c
      apply hl x
      unfold Adj
      cases e
      simp_all
    obtain ⟨sc1, h1⟩ := hedges _ hes sc hg hs (by
      intro hne
      obtain ⟨e, he⟩ := List.exists_mem_of_ne_nil _ hne
      obtain ⟨c1, c2, _⟩ := hes e he
      refine hkx (ht x (by simp) ⟨e.dst, ?_⟩)
      unfold Adj
      rw [← c1]
      exact c2)
    obtain ⟨g1, l1, o1, r1, s1, _⟩ := dag_visit hw (hl x) hg h1
    have hx1 : get? sc1 x = get? sc x := o1 x (hl x)
    obtain ⟨sc', hsc'⟩ := ih (done ++ [x]) (by simpa using hp) g1 (s1 hn hs) (by
      intro u hu
      rcases List.mem_append.1 hu with hu | hu
      · have hxu : ¬ Adj g x u := (List.pairwise_append.1 hp).2.2 u hu x (by simp)
        intro sp v hsp huv
        rw [o1 u hxu] at hsp
        obtain ⟨sv, h3, h4⟩ := hr u hu sp v hsp huv
        obtain ⟨sv', h5, h6⟩ := l1 _ _ h3
        exact ⟨sv', h5, Int.le_trans h6 h4⟩
      · rw [List.mem_singleton] at hu
        subst hu
        exact r1) (by
      intro u hu hru
      rcases List.mem_append.1 hu with hu | hu
      · obtain ⟨sp, h3⟩ := hk u hu hru
        obtain ⟨sp', h4, _⟩ := l1 _ _ h3
        exact ⟨sp', h4⟩
      · rw [List.mem_singleton] at hu
        subst hu
        rw [hx1]
        exact hkx hru) (by simpa using hall) (fun u hu => ht u (by simp [hu]))
    refine ⟨sc', ?_⟩
    rw [Run.forEach]
    have : dagVisit g (pureFn w) sc x = .done sc1 := h1
    rw [this]
    exact hsc'

/-- The vertices after (and including) the start in a topological order. -/
theorem order_suffix (hw : WF g) {l : List VertexId} (hl : TopologicalOrder g l) (s : VertexId) :
    (l.dropWhile (fun v => v ≠ s)).Pairwise (fun a b => ¬ Adj g b a) ∧
    (∀ u, Reach g s u → (∃ y, Adj g u y) → u ∈ l.dropWhile (fun v => v ≠ s)) ∧
    (∀ u, u ∈ l.dropWhile (fun v => v ≠ s) ↔ g.containsVertex s = true ∧ (u = s ∨ Before l s u)) := by
  obtain ⟨hnd, hmem, hord⟩ := hl
  have hpw : l.Pairwise (fun a b => ¬ Adj g b a) := by
    rw [List.pairwise_iff_getElem]
    intro i j hi hj hij hadj
    have h1 : Before l l[i] l[j] := ⟨i, j, hij, List.getElem?_eq_getElem hi, List.getElem?_eq_getElem hj⟩
    exact ((hord _ _ hadj).trans hnd h1).ne hnd rfl
  have hiff : ∀ u, u ∈ l.dropWhile (fun v => v ≠ s) ↔ g.containsVertex s = true ∧ (u = s ∨ Before l s u) := by
    intro u
    by_cases hs : s ∈ l
    · obtain ⟨a, b, hab⟩ := List.append_of_mem hs
      have hna : s ∉ a := by
        intro c
        rw [hab, List.nodup_append] at hnd
        exact hnd.2.2 s c s (by simp) rfl
      have hd : l.dropWhile (fun v => v ≠ s) = s :: b := by
        have h1 : ∀ y ∈ a, (fun v => decide (v ≠ s)) y = true := by
          intro y hy
          simp only [decide_eq_true_eq]
          rintro rfl
          exact hna hy
        rw [hab, List.dropWhile_append_of_pos h1]
        simp
      rw [hd]
      constructor
      · intro hu
        refine ⟨(hmem s).1 hs, ?_⟩
        rcases List.mem_cons.1 hu with rfl | hu
        · exact .inl rfl
        · right
          obtain ⟨b1, b2, rfl⟩ := List.append_of_mem hu
          exact TopoSort.before_of_split (a := a ++ s :: b1) (b := b2) (by rw [hab]; simp) (by simp)
      · rintro ⟨_, rfl | hu⟩
        · simp
        · have hul : u ∈ l := by
            obtain ⟨i, j, _, _, h2⟩ := hu
            exact List.mem_of_getElem? h2
          rw [hab] at hul
          rcases List.mem_append.1 hul with h1 | h1
          · exfalso
            obtain ⟨a1, a2, rfl⟩ := List.append_of_mem h1
            have : Before l u s := TopoSort.before_of_split (a := a1 ++ u :: a2) hab (by simp)
            exact (this.trans hnd hu).ne hnd rfl
          · exact h1
    · have hd : l.dropWhile (fun v => v ≠ s) = [] := by
        rw [List.dropWhile_eq_nil_iff]
        intro y hy
        simp only [decide_eq_true_eq]
        rintro rfl
        exact hs hy
      rw [hd]
      constructor
      · simp
      · rintro ⟨h1, _⟩
        exact absurd ((hmem s).2 h1) hs
  refine ⟨hpw.sublist (List.dropWhile_sublist _), ?_, hiff⟩
  intro u hu ⟨y, huy⟩
  rw [hiff]
  have hs : g.containsVertex s = true := reach_vertex hw hu huy .refl
  refine ⟨hs, ?_⟩
  rcases Relation.reflTransGen_iff_eq_or_transGen.1 hu with h1 | h1
  · exact .inl h1
  · exact .inr (TopoSort.before_transGen hnd hord h1)

theorem noNegativeCycle_of_acyclic (ha : Acyclic g) : ¬ NegativeCycle g w s := by
  rintro ⟨v, c, _, h, hneg⟩
  rcases h.snoc_cases with ⟨rfl, _⟩ | ⟨u, l, _, h1, h2⟩
  · simp [walkWeight] at hneg
  · exact ha v (Relation.TransGen.tail' h1.reach h2)

theorem dagRun_correct (hw : WF g) {l : List VertexId} (hl : TopologicalOrder g l) (h : dagRun g (pureFn w) s l = .done sc) :
    LightestWalks g w s sc ∧ ∀ u, (u = s ∨ Before l s u) → (∃ y, Adj g u y) → g.containsVertex s = true → Reach g s u := by
  obtain ⟨h1, h2, h3⟩ := order_suffix hw hl s
  have hlf : ∀ v, ¬ Adj g v v := fun v hv => TopoSort.acyclic_of_order hl v (.single hv)
  obtain ⟨h4, h5, h6⟩ := dag_vertices hw [] _ h1 hlf Gen.initial (by simp) h
  refine ⟨(h4.lightest ?_).1, ?_⟩
  · intro u sp v hsp huv
    exact h5 u (h2 u (h4.key_reach hsp) ⟨v, huv⟩) sp v hsp huv
  · intro u hu hy hs
    exact h6 u ((h3 u).2 ⟨hs, hu⟩) hy

theorem dagRun_done (hw : WF g) {l : List VertexId} (hl : TopologicalOrder g l) (hsm : SmallWeights g w)
    (h : ∀ u, Before l s u → (∃ y, Adj g u y) → Reach g s u) : ∃ sc, dagRun g (pureFn w) s l = .done sc := by
  obtain ⟨h1, h2, h3⟩ := order_suffix hw hl s
  have ha := TopoSort.acyclic_of_order hl
  obtain ⟨M, hM0, hM, hV⟩ := SmallWeights.bound hsm
  refine dag_vertices_done hw hM0 hM hV (noNegativeCycle_of_acyclic ha) [] _ h1 (fun v hv => ha v (.single hv)) Gen.initial
    Simple.initial (by simp) (by simp) h2 ?_
  intro u hu hy
  obtain ⟨_, h4⟩ := (h3 u).1 hu
  rcases h4 with rfl | h4
  · exact .refl
  · exact h u h4 hy

theorem forEach_not_running {σ α : Type} {body : σ → α → Run σ} (hb : ∀ s a, body s a ≠ .running) (l : List α) (s : σ) :
    Run.forEach body s l ≠ .running := by
  induction l generalizing s with
  | nil => simp [Run.forEach]
  | cons a l ih =>
    rw [Run.forEach]
    cases h : body s a with
    | running => exact absurd h (hb s a)
    | panicked => simp
    | done s' => exact ih s'

theorem dagRun_not_running {f : PartialWeightFn} (hf : ∀ e, f e ≠ .running) (l : List VertexId) : dagRun g f s l ≠ .running := by
  refine forEach_not_running (fun sc v => forEach_not_running (fun sc e => ?_) _ _) _ _
  unfold dagRelax
  cases get? sc v with
  | none => simp [Run.unwrap]
  | some sp =>
    rw [Run.unwrap_some, Run.bind_done]
    cases h : f e with
    | running => exact absurd h (hf e)
    | panicked => simp
    | done wt =>
      rw [Run.bind_done]
      unfold addI64
      split
      · rw [Run.bind_done]
        split
        · split <;> simp
        · simp
      · simp

theorem forEach_congr {σ α : Type} {b b' : σ → α → Run σ} {l : List α} (h : ∀ a ∈ l, ∀ s, b s a = b' s a) (s : σ) :
    Run.forEach b s l = Run.forEach b' s l := by
  induction l generalizing s with
  | nil => rfl
  | cons a l ih =>
    rw [Run.forEach, Run.forEach, h a (by simp)]
    congr 1
    funext s'
    exact ih (fun a ha => h a (by simp [ha])) s'

/-- If every step that returns is a step of `b'` and satisfies `P`, then so are those of the loop. -/
theorem forEach_weaken {σ α : Type} {b b' : σ → α → Run σ} {P : α → Prop} {l : List α}
    (h : ∀ a ∈ l, ∀ s s', b s a = .done s' → b' s a = .done s' ∧ P a) {s s' : σ} (hd : Run.forEach b s l = .done s') :
    Run.forEach b' s l = .done s' ∧ ∀ a ∈ l, P a := by
  induction l generalizing s with
  | nil => exact ⟨hd, by simp⟩
  | cons a l ih =>
    rw [Run.forEach, Run.bind_eq_done] at hd
    obtain ⟨s1, h1, h2⟩ := hd
    obtain ⟨h3, h4⟩ := h a (by simp) s s1 h1
    obtain ⟨h5, h6⟩ := ih (fun a ha => h a (by simp [ha])) h2
    refine ⟨by rw [Run.forEach, h3]; exact h5, ?_⟩
    intro x hx
    rcases List.mem_cons.1 hx with rfl | hx
    · exact h4
    · exact h6 x hx

/-- The run depends on the weights of the edges of the graph only. -/
theorem dagRun_congr (hw : WF g) {f f' : PartialWeightFn} (h : ∀ e, g.containsEdge e = true → f e = f' e) (l : List VertexId) :
    dagRun g f s l = dagRun g f' s l := by
  refine forEach_congr (fun v _ sc => forEach_congr (fun e he sc => ?_) _) _
  unfold dagRelax
  rw [h e (hw.mem_outbound.1 he).1]

/-- A run that returns used the weights `w`, and evaluated the closure on all edges that leave a visited vertex. -/
theorem dagRun_weaken {f : PartialWeightFn} (h : ∀ e x, f e = .done x → x = w e) {l : List VertexId} (hd : dagRun g f s l = .done sc) :
    dagRun g (pureFn w) s l = .done sc ∧
      ∀ v ∈ l.dropWhile (fun v => v ≠ s), ∀ e ∈ g.outboundEdges v, f e = .done (w e) := by
  refine forEach_weaken (P := fun v => ∀ e ∈ g.outboundEdges v, f e = .done (w e)) (fun v _ s1 s2 h1 => ?_) hd
  refine forEach_weaken (P := fun e => f e = .done (w e)) (fun e _ s3 s4 h2 => ?_) h1
  unfold dagRelax at *
  rw [Run.bind_eq_done] at h2
  obtain ⟨sp, h3, h2⟩ := h2
  rw [Run.bind_eq_done] at h2
  obtain ⟨x, h4, h2⟩ := h2
  have hx := h e x h4
  subst hx
  exact ⟨by rw [h3, Run.bind_done, pureFn, Run.bind_done]; exact h2, h4⟩

end ShortestPath
end GC
