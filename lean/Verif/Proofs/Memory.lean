/-
How many entries the queues and stacks of the iterators hold.
-/
import Verif.Spec.Memory
import Verif.Proofs.Work
import Verif.Proofs.SearchOrder
import Verif.Proofs.Dfs
namespace GC
namespace Memory
open DirectedGraph

theorem once_item {σ α : Type} {next : σ → Prog (Option (α × σ))} {s : σ} {r : Option (α × σ)} (h : Returns (once next s) (.inr r)) :
    Returns (next s) r := by
  obtain ⟨n, hn⟩ := h
  refine ⟨n, fun m hm => ?_⟩
  have := hn m hm
  unfold once Prog.bind Prog.ret at this
  cases e : next s m with
  | done a => rw [e] at this; cases this; rfl
  | panicked => rw [e] at this; cases this
  | running => rw [e] at this; cases this

theorem once_round {σ α : Type} {next : σ → Prog (Option (α × σ))} {s t : σ} (h : Returns (once next s) (.inl t)) : False := by
  obtain ⟨n, hn⟩ := h
  have := hn n (Nat.le_refl _)
  unfold once Prog.bind Prog.ret at this
  cases e : next s n with
  | done a => rw [e] at this; cases this
  | panicked => rw [e] at this; cases this
  | running => rw [e] at this; cases this

/-- An invariant of an iterator without loop. -/
theorem passes_once {σ α : Type} {next : σ → Prog (Option (α × σ))} {s t : σ} (h : Passes (once next) s t) (P : σ → Prop) (h0 : P s)
    (hP : ∀ t t' x, P t → Returns (next t) (some (x, t')) → P t') : P t := by
  induction h with
  | start => exact h0
  | round _ h _ => exact (once_round h).elim
  | item _ h ih => exact hP _ _ _ ih (once_item h)

/-! ### Vertices -/

variable {g : DirectedGraph}

theorem outs_nil (hw : WF g) {v : VertexId} (h : v ∉ g.vertices) : g.outs v = [] := by
  rw [List.eq_nil_iff_forall_not_mem]
  intro w hw'
  exact h (hw.adj_vertex (hw.mem_outs'.1 hw')).1

theorem reach_only (hw : WF g) {s v : VertexId} (h : s ∉ g.vertices) (hr : ReachBy g.outs s v) : v = s := by
  induction hr with
  | refl => rfl
  | tail _ hb ih => subst ih; rw [outs_nil hw h] at hb; cases hb

/-- A search with a visited set keeps at most as many vertices as there are. -/
theorem search_small (hw : WF g) {T : Type} {key : T → VertexId} {start : VertexId} {done items : List T} {visited : List VertexId}
    (h : SearchInv g.outs start key done items visited) : items.length ≤ max 1 g.vertexCount ∧ visited.length ≤ max 1 g.vertexCount := by
  have hv : visited.length ≤ max 1 g.vertexCount := by
    by_cases hs : start ∈ g.vertices
    · refine Nat.le_trans (List.Nodup.length_le_of_subset (l₂ := g.vertices) h.vnodup fun v hv => ?_) ?_
      · rcases List.mem_cons.1 (hw.reach_mem (h.reach v hv)) with rfl | h
        · exact hs
        · exact h
      · rw [Work.vertexCount_eq]; exact Nat.le_max_right _ _
    · refine Nat.le_trans (List.Nodup.length_le_of_subset (l₂ := [start]) h.vnodup fun v hv => ?_) (Nat.le_max_left _ _)
      rw [reach_only hw hs (h.reach v hv)]
      exact List.mem_singleton_self _
  refine ⟨?_, hv⟩
  have h1 : ((done ++ items).map key).length ≤ visited.length := List.Nodup.length_le_of_subset h.nodup fun v hv => (h.mem v).2 hv
  rw [List.length_map, List.length_append] at h1
  omega

theorem dfs_small (hw : WF g) {start : VertexId} {t : DepthFirstIter} (h : Passes (once (DepthFirstIter.next g)) (DepthFirstIter.from_ start) t) :
    ∃ done, SearchInv g.outs start id done t.stack.stack t.visited := by
  refine passes_once h (fun t => ∃ done, SearchInv g.outs start id done t.stack.stack t.visited) ⟨[], .init (x := start) rfl rfl⟩ ?_
  rintro s s' x ⟨done, hi⟩ hn
  by_cases hne : s.stack.stack = []
  · have := hn.unique (DepthFirstIter.next_none hne)
    cases this
  · obtain ⟨st, y, hst⟩ : ∃ st y, s.stack.stack = st ++ [y] := ⟨_, _, (List.dropLast_concat_getLast hne).symm⟩
    have := hn.unique (DepthFirstIter.next_some hw hst)
    cases this
    exact ⟨_, hi.step (child := fun _ v => v) hw.nodup_outs' (fun _ _ => rfl) (l := st) (by rw [hst]; exact List.perm_append_comm) (by simp)⟩

theorem bfs_small (hw : WF g) {start : VertexId} {t : BreadthFirstIter}
    (h : Passes (once (BreadthFirstIter.next g)) (BreadthFirstIter.from_ start) t) :
    ∃ done, SearchInv g.outs start id done t.queue.queue t.visited := by
  refine passes_once h (fun t => ∃ done, SearchInv g.outs start id done t.queue.queue t.visited) ⟨[], .init (x := start) rfl rfl⟩ ?_
  rintro s s' x ⟨done, hi⟩ hn
  cases hq : s.queue.queue with
  | nil =>
    have := hn.unique (BreadthFirstIter.next_none hq)
    cases this
  | cons y q =>
    have := hn.unique (BreadthFirstIter.next_some hw hq)
    cases this
    exact ⟨_, hi.step (child := fun _ v => v) hw.nodup_outs' (fun _ _ => rfl) (l := q) (by rw [hq]) (by simp)⟩

/-! ### Paths -/

theorem outs_length (v : VertexId) : (g.outs v).length = (g.outboundEdges v).length := by
  unfold DirectedGraph.outs
  rw [List.length_map]

/-- Edges that leave the vertices of a list. -/
def degrees (g : DirectedGraph) (l : List VertexId) : Nat := (l.map fun v => (g.outs v).length).sum

theorem degrees_concat (l : List VertexId) (v : VertexId) : degrees g (l ++ [v]) = degrees g l + (g.outs v).length := by
  simp [degrees]

theorem degrees_le (hw : WF g) {l : List VertexId} (hl : l.Nodup) : degrees g l ≤ g.edges.length := by
  have e : degrees g l = (l.flatMap fun v => (g.outs v).map fun w => (⟨v, w⟩ : Edge)).length := by
    rw [List.length_flatMap]
    simp [degrees]
  rw [e]
  refine List.Nodup.length_le_of_subset ?_ ?_
  · rw [List.nodup_flatMap]
    refine ⟨fun v _ => (hw.nodup_outs' v).map fun a b h => by cases h; rfl, ?_⟩
    refine hl.imp fun {a b} hab => ?_
    rw [Function.onFun, List.disjoint_left]
    intro x hx hx'
    obtain ⟨_, _, rfl⟩ := List.mem_map.1 hx
    obtain ⟨_, _, h⟩ := List.mem_map.1 hx'
    cases h
    exact hab rfl
  · intro x hx
    obtain ⟨v, _, hx⟩ := List.mem_flatMap.1 hx
    obtain ⟨w, hw', rfl⟩ := List.mem_map.1 hx
    exact hw.mem_edges.2 (hw.mem_outs'.1 hw')

/-- Below an entry of the stack there are at most `k` entries and one for each edge leaving the path before its last vertex. -/
def Stacked (g : DirectedGraph) (k : Nat) (st : List Path) : Prop :=
  ∀ (i : Nat) (q : Path), st[i]? = some q → i ≤ k + degrees g q.vertices.dropLast

theorem Stacked.step {k : Nat} {st cs : List Path} {l : List VertexId} {v : VertexId} (h : Stacked g k (st ++ [⟨l ++ [v]⟩]))
    (hc : cs.length ≤ (g.outs v).length) (hd : ∀ c ∈ cs, c.vertices.dropLast = l ++ [v]) : Stacked g k (st ++ cs) := by
  have h0 := h st.length ⟨l ++ [v]⟩ (by simp)
  simp only [List.dropLast_concat] at h0
  intro i q hi
  by_cases hlt : i < st.length
  · rw [List.getElem?_append_left hlt] at hi
    exact h i q (by rw [List.getElem?_append_left hlt]; exact hi)
  · rw [List.getElem?_append_right (by omega)] at hi
    have h1 := (List.getElem?_eq_some_iff.1 hi).1
    rw [hd q (List.mem_of_getElem? hi), degrees_concat]
    omega

theorem Stacked.drop {k : Nat} {st : List Path} {p : Path} (h : Stacked g k (st ++ [p])) : Stacked g k st := by
  intro i q hi
  have hlt := (List.getElem?_eq_some_iff.1 hi).1
  exact h i q (by rw [List.getElem?_append_left hlt]; exact hi)

theorem Stacked.length (hw : WF g) {k : Nat} {st : List Path} (h : Stacked g k st) (hn : ∀ q ∈ st, q.vertices.dropLast.Nodup) :
    st.length ≤ k + g.edges.length + 1 := by
  rcases List.eq_nil_or_concat st with rfl | ⟨st, q, e⟩
  · simp
  · rw [List.concat_eq_append] at e
    subst e
    have h1 := h st.length q (by simp)
    have h2 := degrees_le hw (hn q (by simp))
    rw [List.length_append, List.length_singleton]
    omega

theorem simple_length (hw : WF g) {s : VertexId} {l : List VertexId} (h : SimplePathFrom g s l) : l.length ≤ max 1 g.vertexCount := by
  by_cases hs : s ∈ g.vertices
  · refine Nat.le_trans (List.Nodup.length_le_of_subset (l₂ := g.vertices) h.2.2 fun v hv => ?_) ?_
    · rcases List.mem_cons.1 (h.subset hw hv) with rfl | h
      · exact hs
      · exact h
    · rw [Work.vertexCount_eq]; exact Nat.le_max_right _ _
  · obtain ⟨h1, h2, h3⟩ := h
    cases l with
    | nil => simp
    | cons a l =>
      cases l with
      | nil => exact Nat.le_max_left _ _
      | cons b l =>
        simp only [List.head?_cons, Option.some.injEq] at h2
        subst h2
        exact absurd (hw.adj_vertex (List.isChain_cons_cons.1 h1).1).1 hs

/-- Invariant of depth-first path iteration. -/
def PathsOk (g : DirectedGraph) (start : VertexId) (st : List Path) : Prop := Stacked g 0 st ∧ ∀ q ∈ st, SimplePathFrom g start q.vertices

theorem PathsOk.init (start : VertexId) : PathsOk g start (DepthFirstPathIter.from_ start).stack.stack := by
  have e : (DepthFirstPathIter.from_ start).stack.stack = [⟨[start]⟩] := rfl
  rw [e]
  constructor
  · intro i q hi
    have := (List.getElem?_eq_some_iff.1 hi).1
    simp only [List.length_singleton] at this
    omega
  · intro q hq
    rw [List.mem_singleton.1 hq]
    exact ⟨by simp, rfl, by simp⟩

theorem PathsOk.next (hw : WF g) {start : VertexId} {s s' : DepthFirstPathIter} {x : Path} (h : PathsOk g start s.stack.stack)
    (hn : Returns (DepthFirstPathIter.next g s) (some (x, s'))) : PathsOk g start s'.stack.stack := by
  obtain ⟨st, h1, h2⟩ := DepthFirstPathIter.next_inv hn
  rw [h1] at h
  obtain ⟨ha, hb⟩ := h
  rw [h2]
  have hx := hb x (by simp)
  obtain ⟨u, hu⟩ := hx.last
  obtain ⟨xs⟩ := x
  rcases List.eq_nil_or_concat xs with rfl | ⟨l, v, e⟩
  · cases hu
  rw [List.concat_eq_append] at e
  subst e
  refine ⟨ha.step ?_ ?_, ?_⟩
  · have : (⟨l ++ [v]⟩ : Path).last = some v := by simp [Path.last]
    unfold pathChildren
    rw [this]
    simp only [List.length_map]
    exact List.length_filter_le _ _
  · intro c hc
    obtain ⟨_, w, _, _, _, rfl⟩ := (mem_pathChildren hw).1 hc
    simp [Path.append]
  · intro q hq
    rcases List.mem_append.1 hq with hq | hq
    · exact hb q (by simp [hq])
    · exact ((pathChildren_rank hw start _ hx) q hq).1

theorem PathsOk.small (hw : WF g) {start : VertexId} {st : List Path} (h : PathsOk g start st) :
    st.length ≤ g.edges.length + 1 ∧ ∀ q ∈ st, q.vertices.length ≤ max 1 g.vertexCount := by
  refine ⟨?_, fun q hq => simple_length hw (h.2 q hq)⟩
  have := h.1.length hw fun q hq => ((List.dropLast_sublist _).nodup (h.2 q hq).2.2)
  omega

/-! ### Best-first iteration -/

/-- The scores of a closure where it returns. -/
def scores (g : DirectedGraph) (scorefn : ScoreFn) (p : Path) : Int :=
  match scorefn g p with
  | .done x => x
  | _ => 0

theorem forEach_scored {H : ScoredHeap} {scorefn : ScoreFn} (wp : ScoredPath) (l : List VertexId) :
    ∀ s s' : BestFirstIter H, Run.forEach (BestFirstIter.visit g scorefn wp) s l = .done s' →
      l.Nodup → ∀ v ∈ l, v ∉ s.visited → scorefn g (wp.path.append v) = .done (scores g scorefn (wp.path.append v)) := by
  induction l with
  | nil => intro s s' _ _ v hv; cases hv
  | cons a l ih =>
    intro s s' h hl v hv hvis
    rw [List.nodup_cons] at hl
    unfold Run.forEach at h
    cases hs : BestFirstIter.visit g scorefn wp s a with
    | running => rw [hs] at h; cases h
    | panicked => rw [hs] at h; cases h
    | done s1 =>
      rw [hs, Run.bind_done] at h
      unfold BestFirstIter.visit at hs
      by_cases ha : a ∈ s.visited
      · rw [if_pos (by simpa using ha)] at hs
        cases hs
        rcases List.mem_cons.1 hv with rfl | hv
        · exact absurd ha hvis
        · exact ih _ _ h hl.2 v hv hvis
      · rw [if_neg (by simpa using ha)] at hs
        cases hc : scorefn g (wp.path.append a) with
        | running => rw [hc] at hs; cases hs
        | panicked => rw [hc] at hs; cases hs
        | done c =>
          rw [hc, Run.bind_done] at hs
          cases hs
          rcases List.mem_cons.1 hv with rfl | hv
          · unfold scores; rw [hc]
          · refine ih _ _ h hl.2 v hv ?_
            intro h'
            rcases List.mem_cons.1 h' with h' | h'
            · exact hl.1 (h' ▸ hv)
            · exact hvis h'

theorem best_small {H : ScoredHeap} (hw : WF g) {scorefn : ScoreFn} {start : VertexId} {s t : BestFirstIter H}
    (hs : BestFirstIter.from_ (H := H) g scorefn start = .done s) (h : Passes (once (BestFirstIter.next g scorefn)) s t) :
    ∃ done, SearchInv g.outs start lastOf done t.queue.items t.visited := by
  refine passes_once h (fun t => ∃ done, SearchInv g.outs start lastOf done t.queue.items t.visited) ?_ ?_
  · unfold BestFirstIter.from_ at hs
    cases hc : scorefn g (Path.empty.append start) with
    | running => rw [hc] at hs; cases hs
    | panicked => rw [hc] at hs; cases hs
    | done c =>
      rw [hc, Run.bind_done] at hs
      cases hs
      refine ⟨[], .init (x := ⟨Path.empty.append start, c⟩) ?_ ?_⟩
      · simp [lastOf, Path.last, Path.append, Path.empty]
      · have := MinPriorityQueue.items_push (MinPriorityQueue.new : MinPriorityQueue ScoredPath ScoredPath.le H) ⟨Path.empty.append start, c⟩
        rw [MinPriorityQueue.items_new] at this
        exact List.perm_singleton.1 this
  · rintro s s' x ⟨done, hi⟩ ⟨n, hn⟩
    have hn := hn n (Nat.le_refl _)
    unfold BestFirstIter.next at hn
    cases hp : s.queue.pop with
    | none => rw [hp] at hn; cases hn
    | some r =>
      obtain ⟨y, q⟩ := r
      obtain ⟨p1, _⟩ := MinPriorityQueue.pop_some hp
      rw [hp] at hn
      simp only [Prog.lift] at hn
      cases hl : y.path.last with
      | none => rw [hl] at hn; cases hn
      | some u =>
        rw [hl, Run.unwrap_some, Run.bind_done] at hn
        cases hf : Run.forEach (BestFirstIter.visit g scorefn y) ⟨q, s.visited⟩ (g.outs u) with
        | running => rw [hf] at hn; cases hn
        | panicked => rw [hf] at hn; cases hn
        | done s1 =>
          rw [hf, Run.bind_done] at hn
          cases hn
          have hlast : lastOf x = u := by simp [lastOf, hl]
          obtain ⟨q', r1, r2⟩ := BestFirstIter.forEach_visit (f := scores g scorefn) (scorefn := scorefn) (g := g) x (g.outs u) (hw.nodup_outs' u) q
            s.visited (forEach_scored x _ ⟨q, s.visited⟩ _ hf (hw.nodup_outs' u))
          rw [hf] at r1
          cases r1
          rw [← hlast] at r2 ⊢
          exact ⟨_, hi.step (child := extend (scores g scorefn)) hw.nodup_outs' (lastOf_extend _) p1 r2⟩

/-! ### Cycles -/

/-- Invariant of the iteration over cycles. -/
def CyclesOk (g : DirectedGraph) (st : List Path) : Prop := Stacked g (g.vertices.length - 1) st ∧ ∀ q ∈ st, Lasso g q

theorem CyclesOk.init (hw : WF g) : CyclesOk g (CycleIter.cycleIter g).stack.stack := by
  rw [cycleIter_eq]
  have hl : (CycleIter.findStartingEdges g).length ≤ g.vertices.length := by
    refine List.Nodup.length_le_of_subset ?_ fun v hv => findStartingEdges_vertex hv
    unfold CycleIter.findStartingEdges
    dsimp only
    split
    · rename_i h
      rw [List.isEmpty_iff.1 h, List.nil_append]
      cases g.headOption <;> simp
    · exact hw.nodup_vertices.filter _
  constructor
  · intro i q hi
    have := (List.getElem?_eq_some_iff.1 hi).1
    simp only [List.length_map] at this
    omega
  · intro q hq
    obtain ⟨v, hv, rfl⟩ := List.mem_map.1 hq
    exact ⟨by simp, by simp, by simp, by simpa using findStartingEdges_vertex hv⟩

theorem extract_none_inv {l : List VertexId} {v : VertexId} (h : CycleIter.extractCanonicalCycleFromLast ⟨l ++ [v]⟩ = .done none) : v ∉ l := by
  unfold CycleIter.extractCanonicalCycleFromLast at h
  simp only [Path.last, List.getLast?_concat, Option.bind_some, List.dropLast_concat] at h
  cases hr : rposition v l with
  | none => exact rposition_none.1 hr
  | some i =>
    rw [hr] at h
    simp only at h
    cases hc : Cycle.canonical ⟨l.drop i⟩ with
    | running => rw [hc] at h; cases h
    | panicked => rw [hc] at h; cases h
    | done c => rw [hc] at h; cases h

theorem cycle_step_inv {s : CycleIter} (hs : ∀ q ∈ s.stack.stack, Lasso g q) {r : CycleIter ⊕ Option (Cycle × CycleIter)}
    (h : Returns (CycleIter.step g s) r) {t : CycleIter} (hr : r = .inl t ∨ ∃ x, r = .inr (some (x, t))) :
    ∃ st l v, s.stack.stack = st ++ [⟨l ++ [v]⟩] ∧ (t.stack.stack = st ∨ t.stack.stack = st ++ cycleChildren g ⟨l ++ [v]⟩) := by
  obtain ⟨n, hn⟩ := h
  have hn := hn n (Nat.le_refl _)
  unfold CycleIter.step at hn
  cases hp : s.stack.pop with
  | none =>
    rw [hp] at hn
    cases hn
    rcases hr with hr | ⟨_, hr⟩ <;> cases hr
  | some y =>
    obtain ⟨p, stk⟩ := y
    have hst := Stack.pop_eq_some.1 hp
    obtain ⟨l, v, rfl⟩ := (hs p (by rw [hst]; simp)).concat
    refine ⟨stk.stack, l, v, hst, ?_⟩
    rw [hp] at hn
    simp only [Prog.lift] at hn
    cases he : CycleIter.extractCanonicalCycleFromLast ⟨l ++ [v]⟩ with
    | running => rw [he] at hn; cases hn
    | panicked => rw [he] at hn; cases hn
    | done c =>
      rw [he, Run.bind_done] at hn
      cases c with
      | some c =>
        simp only at hn
        left
        split at hn
        · cases hn
          rcases hr with hr | ⟨_, hr⟩
          · cases hr; rfl
          · cases hr
        · cases hn
          rcases hr with hr | ⟨_, hr⟩
          · cases hr
          · cases hr; rfl
      | none =>
        right
        have hv := extract_none_inv he
        unfold CycleIter.pushNext at hn
        have hlast : (⟨l ++ [v]⟩ : Path).last = some v := by simp [Path.last]
        simp only [Run.bind_done, hlast, Run.unwrap_some, foldl_push] at hn
        cases hn
        rcases hr with hr | ⟨_, hr⟩
        · cases hr
          rw [cycleChildren_concat, if_neg hv]
          exact congrArg Stack.stack (foldl_push _ _ stk.stack)
        · cases hr

theorem CyclesOk.step (hw : WF g) {s t : CycleIter} (h : CyclesOk g s.stack.stack) {r : CycleIter ⊕ Option (Cycle × CycleIter)}
    (hr : Returns (CycleIter.step g s) r) (ht : r = .inl t ∨ ∃ x, r = .inr (some (x, t))) : CyclesOk g t.stack.stack := by
  obtain ⟨st, l, v, h1, h2⟩ := cycle_step_inv h.2 hr ht
  obtain ⟨ha, hb⟩ := h
  rw [h1] at ha hb
  rcases h2 with h2 | h2 <;> rw [h2]
  · exact ⟨ha.drop, fun q hq => hb q (by simp [hq])⟩
  · refine ⟨ha.step ?_ ?_, fun q hq => ?_⟩
    · rw [cycleChildren_concat]
      split <;> simp
    · intro c hc
      obtain ⟨_, w, _, rfl⟩ := (mem_cycleChildren hw).1 hc
      simp
    · rcases List.mem_append.1 hq with hq | hq
      · exact hb q (by simp [hq])
      · exact (lasso_child hw _ (hb _ (by simp)) q hq).1

theorem cycles_small (hw : WF g) {t : CycleIter} (h : Passes (CycleIter.step g) (CycleIter.cycleIter g) t) :
    t.stack.stack.length ≤ g.vertices.length + g.edges.length ∧ ∀ q ∈ t.stack.stack, q.vertices.length ≤ g.vertices.length + 1 := by
  have hi : CyclesOk g t.stack.stack := by
    induction h with
    | start => exact .init hw
    | round _ h ih => exact ih.step hw h (.inl rfl)
    | item _ h ih => exact ih.step hw h (.inr ⟨_, rfl⟩)
  constructor
  · rcases Nat.eq_zero_or_pos g.vertices.length with h0 | h0
    · have : t.stack.stack = [] := by
        rw [List.eq_nil_iff_forall_not_mem]
        intro q hq
        obtain ⟨l, v, rfl⟩ := (hi.2 q hq).concat
        have := (hi.2 _ hq).2.2.2 v (by simp)
        rw [List.length_eq_zero_iff.1 h0] at this
        cases this
      simp [this]
    · have := hi.1.length hw fun q hq => (hi.2 q hq).2.2.1
      omega
  · intro q hq
    obtain ⟨_, _, h1, h2⟩ := hi.2 q hq
    have := List.Nodup.length_le_of_subset (l₂ := g.vertices) h1 fun v hv => h2 v (List.mem_of_mem_dropLast hv)
    rw [List.length_dropLast] at this
    omega

/-! ### Hamiltonian paths -/

theorem next_fuel (it : DepthFirstPathIter) (m n : Nat) : DepthFirstPathIter.next g it m = DepthFirstPathIter.next g it n := by
  unfold DepthFirstPathIter.next
  cases it.stack.pop <;> rfl

theorem flatMap_step_inv {s : List VertexId × Option DepthFirstPathIter} {r : (List VertexId × Option DepthFirstPathIter) ⊕ Option (Path × (List VertexId × Option DepthFirstPathIter))}
    (h : Returns (Prog.flatMapStep DepthFirstPathIter.from_ (DepthFirstPathIter.next g) s) r) {t : List VertexId × Option DepthFirstPathIter}
    (hr : r = .inl t ∨ ∃ x, r = .inr (some (x, t))) :
    t.2 = none ∨ (∃ v, t.2 = some (DepthFirstPathIter.from_ v)) ∨
      ∃ it it' x, s.2 = some it ∧ t.2 = some it' ∧ Returns (DepthFirstPathIter.next g it) (some (x, it')) := by
  obtain ⟨is, o⟩ := s
  cases o with
  | none =>
    cases is with
    | nil =>
      have := h.unique (Returns.ret _)
      subst this
      rcases hr with hr | ⟨_, hr⟩ <;> cases hr
    | cons i is =>
      have := h.unique (Returns.ret _)
      subst this
      rcases hr with hr | ⟨_, hr⟩
      · cases hr; exact .inr (.inl ⟨i, rfl⟩)
      · cases hr
  | some it =>
    have ⟨n, hn⟩ := h
    have hn := hn n (Nat.le_refl _)
    unfold Prog.flatMapStep Prog.bind at hn
    obtain ⟨a, ha, _⟩ := Run.bind_eq_done.1 hn
    have ha : Returns (DepthFirstPathIter.next g it) a := ⟨n, fun m _ => by rw [← ha]; exact next_fuel it m n⟩
    have hb := ha.of_bind_left h
    cases a with
    | none =>
      have := hb.unique (Returns.ret _)
      subst this
      rcases hr with hr | ⟨_, hr⟩
      · cases hr; exact .inl rfl
      · cases hr
    | some y =>
      obtain ⟨x, it'⟩ := y
      have := hb.unique (Returns.ret _)
      subst this
      rcases hr with hr | ⟨_, hr⟩
      · cases hr
      · cases hr; exact .inr (.inr ⟨it, it', x, rfl, rfl, ha⟩)

theorem hamiltonian_small (hw : WF g) {t : List VertexId × Option DepthFirstPathIter}
    (h : Passes (Prog.flatMapStep DepthFirstPathIter.from_ (DepthFirstPathIter.next g)) (Hamiltonian.iter g) t) :
    ∀ it, t.2 = some it → ∃ start, PathsOk g start it.stack.stack := by
  have key : ∀ {s t : List VertexId × Option DepthFirstPathIter}, (∀ it, s.2 = some it → ∃ start, PathsOk g start it.stack.stack) →
      (t.2 = none ∨ (∃ v, t.2 = some (DepthFirstPathIter.from_ v)) ∨
        ∃ it it' x, s.2 = some it ∧ t.2 = some it' ∧ Returns (DepthFirstPathIter.next g it) (some (x, it'))) →
      ∀ it, t.2 = some it → ∃ start, PathsOk g start it.stack.stack := by
    intro s t hs ht it hit
    rcases ht with ht | ⟨v, ht⟩ | ⟨it0, it', x, h1, h2, h3⟩
    · rw [ht] at hit; cases hit
    · rw [ht] at hit; cases hit; exact ⟨v, .init v⟩
    · rw [h2] at hit
      cases hit
      obtain ⟨start, hp⟩ := hs it0 h1
      exact ⟨start, hp.next hw h3⟩
  induction h with
  | start => intro it hit; cases hit
  | round _ h ih => exact key ih (flatMap_step_inv h (.inl rfl))
  | item _ h ih => exact key ih (flatMap_step_inv h (.inr ⟨_, rfl⟩))

/-! ### Breadth-first iteration over paths -/

open Work in
/-- How many paths lead from a vertex of the diamonds to the last one. -/
def toLast (n : Nat) (v : VertexId) : Nat := if v.id.toNat = 0 then 0 else 2 ^ (n - (level v + 1) / 2)

open Work in
theorem toLast_vertex {n k : Nat} (hk : 0 < k) (hk' : k < 2 ^ 64) : toLast n (vertex k) = 2 ^ (n - (level (vertex k) + 1) / 2) := by
  unfold toLast
  rw [toNat_vertex hk', if_neg (by omega)]

open Work in
theorem toLast_branching {n : Nat} (h : Diamonds n g) (hw : WF g) (hn : n < 2 ^ 60) {v : VertexId} (hv : level v < 2 * n) :
    toLast n v ≤ ((g.outs v).map (toLast n)).sum := by
  by_cases h0 : v.id.toNat = 0
  · unfold toLast
    rw [if_pos h0]
    omega
  obtain ⟨i, hi, hk⟩ : ∃ i, i < n ∧ (v = vertex (3 * i + 1) ∨ v = vertex (3 * i + 2) ∨ v = vertex (3 * i + 3)) := by
    have e : v = vertex v.id.toNat := by
      cases v
      simp [vertex]
    refine ⟨(v.id.toNat - 1) / 3, ?_, ?_⟩
    · unfold level at hv
      omega
    have : v.id.toNat = 3 * ((v.id.toNat - 1) / 3) + 1 ∨ v.id.toNat = 3 * ((v.id.toNat - 1) / 3) + 2 ∨
        v.id.toNat = 3 * ((v.id.toNat - 1) / 3) + 3 := by omega
    rcases this with h | h | h
    · exact .inl (e.trans (congrArg vertex h))
    · exact .inr (.inl (e.trans (congrArg vertex h)))
    · exact .inr (.inr (e.trans (congrArg vertex h)))
  obtain ⟨d, rfl⟩ : ∃ d, n = i + 1 + d := ⟨n - (i + 1), by omega⟩
  rcases hk with rfl | hk
  · have h1 := sum_two (toLast (i + 1 + d)) (hw.mem_outs'.2 ((h.edges _ _).2 ⟨i, hi, .inl ⟨rfl, .inl rfl⟩⟩))
      (hw.mem_outs'.2 ((h.edges _ _).2 ⟨i, hi, .inl ⟨rfl, .inr rfl⟩⟩))
      (fun e => by
        have := congrArg (fun v : VertexId => v.id.toNat) e
        simp only [toNat_vertex (show 3 * i + 2 < 2 ^ 64 by omega), toNat_vertex (show 3 * i + 3 < 2 ^ 64 by omega)] at this
        omega)
    rw [toLast_vertex (by omega) (by omega), toLast_vertex (by omega) (by omega), level_mid (by omega) (.inl rfl),
      level_mid (by omega) (.inr rfl)] at h1
    rw [toLast_vertex (by omega) (by omega), level_top (by omega)]
    have e1 : i + 1 + d - (2 * i + 1) / 2 = d + 1 := by omega
    have e2 : i + 1 + d - (2 * i + 1 + 1) / 2 = d := by omega
    rw [e2] at h1
    rw [e1, Nat.pow_succ]
    omega
  · have h1 := sum_one (toLast (i + 1 + d)) (hw.mem_outs'.2 ((h.edges v (vertex (3 * i + 4))).2 ⟨i, hi, .inr ⟨hk, rfl⟩⟩))
    have h2 : toLast (i + 1 + d) v = 2 ^ d := by
      have e2 : i + 1 + d - (2 * i + 1 + 1) / 2 = d := by omega
      rcases hk with rfl | rfl
      · rw [toLast_vertex (by omega) (by omega), level_mid (by omega) (.inl rfl), e2]
      · rw [toLast_vertex (by omega) (by omega), level_mid (by omega) (.inr rfl), e2]
    rw [show 3 * i + 4 = 3 * (i + 1) + 1 by omega, toLast_vertex (by omega) (by omega), level_top (by omega),
      show i + 1 + d - (2 * (i + 1) + 1) / 2 = d by omega] at h1
    omega

open Work in
theorem bfs_paths_large {n : Nat} (h : Diamonds n g) (hw : WF g) (hn : n < 2 ^ 60) {s₀ s : BreadthFirstPathIter} {xs : List Path}
    (hd : Drains (BreadthFirstPathIter.next g) s xs) (h0 : Passes (once (BreadthFirstPathIter.next g)) s₀ s)
    (h1 : ∀ p ∈ s.queue.queue, Deep p.vertices)
    (h2 : s.queue.queue.Pairwise fun a b => a.vertices.length ≤ b.vertices.length)
    (h3 : ∀ a ∈ s.queue.queue, ∀ b ∈ s.queue.queue, b.vertices.length ≤ a.vertices.length + 1)
    (h4 : 2 ^ n ≤ (s.queue.queue.map fun p => lastWeight (toLast n) p.vertices).sum) :
    ∃ t, Passes (once (BreadthFirstPathIter.next g)) s₀ t ∧ 2 ^ n ≤ t.queue.queue.length := by
  induction hd with
  | @nil s hd =>
    obtain ⟨m, hm⟩ := hd
    have hm := hm m (Nat.le_refl _)
    unfold BreadthFirstPathIter.next at hm
    obtain ⟨⟨q⟩⟩ := s
    cases q with
    | nil =>
      have := Nat.two_pow_pos n
      simp only [List.map_nil, List.sum_nil] at h4
      omega
    | cons p q =>
      rw [show Queue.pop (⟨p :: q⟩ : Queue Path) = some (p, ⟨q⟩) from rfl] at hm
      simp only [Prog.lift] at hm
      cases hl : p.last with
      | none => rw [hl] at hm; cases hm
      | some v => rw [hl] at hm; cases hm
  | @cons s x s' xs hx hd ih =>
    obtain ⟨q, hq, hq'⟩ := BreadthFirstPathIter.next_inv hx
    rw [hq] at h1 h2 h3 h4
    obtain ⟨l, v, e, hl, hlen⟩ := h1 x (by simp)
    obtain ⟨ls⟩ := x
    dsimp only at e hlen
    subst e
    by_cases hv : 2 * n ≤ level v
    · refine ⟨s, h0, Nat.le_trans h4 ?_⟩
      rw [hq]
      have := List.sum_le_card_nsmul ((⟨l ++ [v]⟩ :: q : List Path).map fun p => lastWeight (toLast n) p.vertices) 1 (by
        intro y hy
        obtain ⟨p, hp, rfl⟩ := List.mem_map.1 hy
        obtain ⟨l', u, e', _, hlen'⟩ := h1 p hp
        have hle : (l ++ [v]).length ≤ p.vertices.length := by
          rcases List.mem_cons.1 hp with rfl | hp
          · exact Nat.le_refl _
          · exact (List.pairwise_cons.1 h2).1 p hp
        have hu : 2 * n ≤ level u := by omega
        rw [e', lastWeight_concat]
        unfold toLast
        split
        · omega
        · rw [show n - (level u + 1) / 2 = 0 by omega]; simp)
      simpa using this
    · have hc := pathChildren_up hw (h.rising hn) hl
      rw [hc] at hq'
      refine ih (.item (x := ⟨l ++ [v]⟩) h0 ?_) ?_ ?_ ?_ ?_
      · exact Returns.bind hx (Returns.ret _)
      all_goals rw [hq']
      · intro p hp
        rcases List.mem_append.1 hp with hp | hp
        · exact h1 p (by simp [hp])
        · obtain ⟨u, hu, rfl⟩ := List.mem_map.1 hp
          exact Deep.concat h hn hl hlen (hw.mem_outs'.1 hu)
      · rw [List.pairwise_append]
        refine ⟨(List.pairwise_cons.1 h2).2, ?_, ?_⟩
        · rw [List.pairwise_map]
          exact List.pairwise_of_forall (by simp [Path.append])
        · intro a ha b hb
          obtain ⟨u, _, rfl⟩ := List.mem_map.1 hb
          have := h3 _ List.mem_cons_self a (by simp [ha])
          simpa [Path.append] using this
      · intro a ha b hb
        have low : ∀ x ∈ q ++ (g.outs v).map (Path.append ⟨l ++ [v]⟩),
            (l ++ [v]).length ≤ x.vertices.length ∧ x.vertices.length ≤ (l ++ [v]).length + 1 := by
          intro x hx
          rcases List.mem_append.1 hx with hx | hx
          · exact ⟨(List.pairwise_cons.1 h2).1 x hx, h3 _ List.mem_cons_self x (by simp [hx])⟩
          · obtain ⟨u, _, rfl⟩ := List.mem_map.1 hx
            simp [Path.append]
        have := low a ha
        have := low b hb
        omega
      · have hb := toLast_branching h hw hn (v := v) (by omega)
        have e : ((g.outs v).map (Path.append ⟨l ++ [v]⟩)).map (fun p => lastWeight (toLast n) p.vertices) = (g.outs v).map (toLast n) := by
          rw [List.map_map]
          refine List.map_congr_left fun u _ => ?_
          simp only [Function.comp, Path.append, lastWeight_concat]
        simp only [List.map_cons, List.sum_cons, lastWeight_concat] at h4
        simp only [List.map_append, List.sum_append, e]
        omega

open Work in
theorem bfs_paths_hold {n : Nat} (h : Diamonds n g) (hw : WF g) (hn : n < 2 ^ 60) :
    ∃ t, Passes (once (BreadthFirstPathIter.next g)) (BreadthFirstPathIter.from_ (vertex 1)) t ∧ 2 ^ n ≤ t.queue.queue.length := by
  obtain ⟨xs, hd, _⟩ := bfs_path_drains hw (vertex 1)
  have e : (BreadthFirstPathIter.from_ (vertex 1)).queue.queue = [⟨[vertex 1]⟩] := rfl
  have hl : level (vertex 1) = 0 := level_top (i := 0) (by omega)
  refine bfs_paths_large h hw hn hd .start ?_ ?_ ?_ ?_ <;> rw [e]
  · intro p hp
    rw [List.mem_singleton] at hp
    subst hp
    exact ⟨[], vertex 1, rfl, by simp, by rw [hl]; rfl⟩
  · simp
  · simp
  · have := lastWeight_concat (toLast n) [] (vertex 1)
    simp only [List.nil_append] at this
    simp only [List.map_cons, List.map_nil, List.sum_cons, List.sum_nil, this]
    rw [toLast_vertex (by omega) (by omega), hl]
    simp

end Memory
end GC
