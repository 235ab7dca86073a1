/- Upper bounds on the number of rounds of searches with loops inside loops. -/
import Verif.Proofs.Work
namespace GC
namespace Work
open Prog DirectedGraph

variable {α β σ ι : Type}

/-- The program has returned or panicked before one of its loops goes round more than `n` times. -/
def Stops (n : Nat) (p : Prog α) : Prop := ∀ m, n ≤ m → p m ≠ .running

theorem loop_stops {step : σ → Prog (σ ⊕ β)} (I : σ → Prop) (μ : σ → Nat) (m : Nat) (hr : ∀ s, I s → step s m ≠ .running)
    (h : ∀ s s', I s → step s m = .done (.inl s') → I s' ∧ μ s' < μ s) {s : σ} (hs : I s) (k : Nat) (hk : μ s < k) :
    loopAux step m k s ≠ .running := by
  induction k generalizing s with
  | zero => omega
  | succ k ih =>
    unfold loopAux
    rcases e : step s m with _ | _ | r
    · exact absurd e (hr s hs)
    · simp
    · rcases r with s' | b
      · obtain ⟨h1, h2⟩ := h s s' hs e
        exact ih h1 (by omega)
      · simp

/-- What a loop leaves a state with. -/
theorem loop_keeps {step : σ → Prog (σ ⊕ β)} (P : σ → Prop) (Q : β → Prop) (m : Nat)
    (h1 : ∀ s s', P s → step s m = .done (.inl s') → P s') (h2 : ∀ s b, P s → step s m = .done (.inr b) → Q b) {s : σ} (hs : P s) (k : Nat)
    {b : β} (hb : loopAux step m k s = .done b) : Q b := by
  induction k generalizing s with
  | zero => cases hb
  | succ k ih =>
    unfold loopAux at hb
    rcases e : step s m with _ | _ | r
    · rw [e] at hb; cases hb
    · rw [e] at hb; cases hb
    · rw [e] at hb
      rcases r with s' | b'
      · exact ih (h1 s s' hs e) hb
      · cases hb
        exact h2 s _ hs e

theorem Stops.returns {n : Nat} {p : Prog α} {a : α} (h : Stops n p) (hm : Mono p) (hr : Returns p a) : ReturnsWithin n p a := by
  intro m hle
  obtain ⟨k, hk⟩ := hr
  have h1 := hm m (max m k) (by omega) (h m hle)
  rw [← h1, hk _ (by omega)]

theorem Stops.panics {n : Nat} {p : Prog α} (h : Stops n p) (hm : Mono p) (hr : Panics p) : ∀ m, n ≤ m → p m = .panicked := by
  intro m hle
  obtain ⟨k, hk⟩ := hr
  have h1 := hm m (max m k) (by omega) (h m hle)
  rw [← h1, hk _ (by omega)]

/-! ### Iterators -/

/-- `Drains`, with a bound on the rounds of every call. -/
inductive DrainsWithin (n : Nat) (next : σ → Prog (Option (α × σ))) : σ → List α → Prop
  | nil {s : σ} : ReturnsWithin n (next s) none → DrainsWithin n next s []
  | cons {s s' : σ} {x : α} {xs : List α} : ReturnsWithin n (next s) (some (x, s')) → DrainsWithin n next s' xs → DrainsWithin n next s (x :: xs)

theorem DrainsWithin.mono {n m : Nat} {next : σ → Prog (Option (α × σ))} {s : σ} {xs : List α} (h : DrainsWithin n next s xs) (hm : n ≤ m) :
    DrainsWithin m next s xs := by
  induction h with
  | nil h => exact .nil (h.mono hm)
  | cons h _ ih => exact .cons (h.mono hm) ih

theorem Still.drains {next : σ → Prog (Option (α × σ))} (h : Still next) {s : σ} {xs : List α} (hd : Drains next s xs) : DrainsWithin 0 next s xs := by
  induction hd with
  | nil hr => exact .nil fun m _ => h.eq hr m
  | cons hr _ ih => exact .cons (fun m _ => h.eq hr m) ih

theorem drains_within {next : σ → Prog (Option (α × σ))} (hm : ∀ s, Mono (next s)) (I : σ → Prop) (μ : σ → Nat)
    (h1 : ∀ s, I s → Stops (μ s + 1) (next s)) (h2 : ∀ s m x s', I s → next s m = .done (some (x, s')) → I s' ∧ μ s' < μ s) {s : σ} (hs : I s)
    {xs : List α} (hd : Drains next s xs) : DrainsWithin (μ s + 1) next s xs ∧ xs.length ≤ μ s := by
  induction hd with
  | nil hr => exact ⟨.nil ((h1 _ hs).returns (hm _) hr), by simp⟩
  | @cons s x s' xs hr _ ih =>
    obtain ⟨k, hk⟩ := hr
    obtain ⟨h3, h4⟩ := h2 s k x s' hs (hk k (Nat.le_refl _))
    obtain ⟨h5, h6⟩ := ih h3
    exact ⟨.cons ((h1 _ hs).returns (hm _) ⟨k, hk⟩) (h5.mono (by omega)), by simp only [List.length_cons]; omega⟩

theorem DrainsWithin.collect {n : Nat} {next : σ → Prog (Option (α × σ))} {s : σ} {xs : List α} (h : DrainsWithin n next s xs)
    (hn : xs.length + 1 ≤ n) : ReturnsWithin n (Prog.collect next s) xs := by
  intro m hm
  have key : ∀ k acc, xs.length + 1 ≤ k → loopAux (collectStep next) m k (acc, s) = .done (acc ++ xs) := by
    clear hn
    induction h with
    | nil hr =>
      intro k acc hk
      obtain ⟨k, rfl⟩ : ∃ k', k = k' + 1 := ⟨k - 1, by omega⟩
      simp [loopAux, collectStep, Prog.bind, hr m hm, Prog.ret]
    | cons hr _ ih =>
      intro k acc hk
      obtain ⟨k, rfl⟩ : ∃ k', k = k' + 1 := ⟨k - 1, by omega⟩
      simp only [List.length_cons] at hk
      simp [loopAux, collectStep, Prog.bind, hr m hm, Prog.ret, ih k _ (by omega)]
  exact key m [] (by omega)

theorem DrainsWithin.consume {n : Nat} {next : σ → Prog (Option (α × σ))} {s : σ} {xs : List α} (f : List α → β) (h : DrainsWithin n next s xs)
    (hn : xs.length + 1 ≤ n) : ReturnsWithin n (Prog.consume f next s) (f xs) :=
  ReturnsWithin.bind (h.collect hn) fun _ _ => rfl

theorem DrainsWithin.nextOnly {n : Nat} {next : σ → Prog (Option (α × σ))} {s : σ} {xs : List α} (h : DrainsWithin n next s xs) :
    ReturnsWithin n (Prog.nextOnly next s) xs.head? := by
  cases h with
  | nil hr => exact ReturnsWithin.bind hr fun _ _ => rfl
  | cons hr _ => exact ReturnsWithin.bind hr fun _ _ => rfl

theorem DrainsWithin.takeN {n : Nat} {next : σ → Prog (Option (α × σ))} {s : σ} {xs : List α} (h : DrainsWithin n next s xs) (k : Nat) :
    ReturnsWithin n (Prog.takeN next k s) (xs.take k) := by
  induction k generalizing s xs with
  | zero => exact fun _ _ => rfl
  | succ k ih =>
    cases h with
    | nil hr => exact ReturnsWithin.bind hr fun _ _ => rfl
    | cons hr h => exact ReturnsWithin.bind hr (ReturnsWithin.bind (ih h) fun _ _ => rfl)

theorem DrainsWithin.filter {n : Nat} {next : σ → Prog (Option (α × σ))} {s : σ} {xs : List α} (p : α → Bool) (h : DrainsWithin n next s xs)
    (hn : xs.length + 1 ≤ n) : DrainsWithin n (Prog.filterNext p next) s (xs.filter p) := by
  have key : ∀ s xs, DrainsWithin n next s xs → (xs.filter p = [] ∧ ∀ m k, n ≤ m → xs.length + 1 ≤ k → loopAux (filterStep p next) m k s = .done none) ∨
      ∃ x s' ys, xs.filter p = x :: ys.filter p ∧ ys.length < xs.length ∧ DrainsWithin n next s' ys ∧
        ∀ m k, n ≤ m → xs.length + 1 ≤ k → loopAux (filterStep p next) m k s = .done (some (x, s')) := by
    intro s xs h
    induction h with
    | nil hr =>
      refine .inl ⟨rfl, fun m k hm hk => ?_⟩
      obtain ⟨k, rfl⟩ : ∃ k', k = k' + 1 := ⟨k - 1, by omega⟩
      simp [loopAux, filterStep, Prog.bind, hr m hm, Prog.ret]
    | @cons s s' x xs hr hd ih =>
      by_cases hp : p x = true
      · refine .inr ⟨x, s', xs, by simp [hp], by simp, hd, fun m k hm hk => ?_⟩
        obtain ⟨k, rfl⟩ : ∃ k', k = k' + 1 := ⟨k - 1, by omega⟩
        simp [loopAux, filterStep, Prog.bind, hr m hm, Prog.ret, hp]
      · rcases ih with ⟨h1, h2⟩ | ⟨y, t, ys, h1, h2, h3, h4⟩
        · refine .inl ⟨by simp [hp, h1], fun m k hm hk => ?_⟩
          obtain ⟨k, rfl⟩ : ∃ k', k = k' + 1 := ⟨k - 1, by omega⟩
          simp only [List.length_cons] at hk
          simp [loopAux, filterStep, Prog.bind, hr m hm, Prog.ret, hp, h2 m k hm (by omega)]
        · refine .inr ⟨y, t, ys, by simp [hp, h1], by simp only [List.length_cons]; omega, h3, fun m k hm hk => ?_⟩
          obtain ⟨k, rfl⟩ : ∃ k', k = k' + 1 := ⟨k - 1, by omega⟩
          simp only [List.length_cons] at hk
          simp [loopAux, filterStep, Prog.bind, hr m hm, Prog.ret, hp, h4 m k hm (by omega)]
  generalize hl : xs.length = l
  induction l using Nat.strongRecOn generalizing s xs with
  | _ l ih =>
    rcases key s xs h with ⟨h1, h2⟩ | ⟨y, t, ys, h1, h2, h3, h4⟩
    · rw [h1]
      exact .nil fun m hm => h2 m m hm (by omega)
    · rw [h1]
      exact .cons (fun m hm => h4 m m hm (by omega)) (ih ys.length (by omega) h3 (by omega) rfl)

/-- A `flat_map` whose inner iterators are never empty. -/
theorem drains_flatMap {f : ι → σ} {next : σ → Prog (Option (α × σ))} {X : ι → List α} (is : List ι)
    (h : ∀ i ∈ is, DrainsWithin 0 next (f i) (X i) ∧ X i ≠ []) :
    DrainsWithin 3 (flatMapNext f next) (is, none) (is.flatMap X) := by
  have key : ∀ (is : List ι), (∀ i ∈ is, DrainsWithin 0 next (f i) (X i) ∧ X i ≠ []) → ∀ t ys, DrainsWithin 0 next t ys →
      DrainsWithin 3 (flatMapNext f next) (is, some t) (ys ++ is.flatMap X) := by
    intro is
    induction is with
    | nil =>
      intro _ t ys hd
      induction hd with
      | nil hr =>
        refine .nil fun m hm => ?_
        obtain ⟨k, rfl⟩ : ∃ k', m = k' + 3 := ⟨m - 3, by omega⟩
        simp [flatMapNext, loop, loopAux, flatMapStep, Prog.bind, hr _ (Nat.zero_le _), Prog.ret]
      | cons hr _ ih =>
        refine .cons (fun m hm => ?_) ih
        obtain ⟨k, rfl⟩ : ∃ k', m = k' + 3 := ⟨m - 3, by omega⟩
        simp [flatMapNext, loop, loopAux, flatMapStep, Prog.bind, hr _ (Nat.zero_le _), Prog.ret]
    | cons i is ih =>
      intro hi t ys hd
      induction hd with
      | nil hr =>
        obtain ⟨h1, h2⟩ := hi i (by simp)
        rw [List.flatMap_cons, List.nil_append]
        generalize X i = xs at h1 h2
        cases h1 with
        | nil => exact absurd rfl h2
        | @cons _ s' x xs hr' h1 =>
          refine .cons (s' := (is, some s')) (fun m hm => ?_) (ih (fun j hj => hi j (by simp [hj])) s' xs h1)
          obtain ⟨k, rfl⟩ : ∃ k', m = k' + 3 := ⟨m - 3, by omega⟩
          simp [flatMapNext, loop, loopAux, flatMapStep, Prog.bind, hr _ (Nat.zero_le _), hr' _ (Nat.zero_le _), Prog.ret]
      | @cons _ s' x xs hr _ ih' =>
        refine .cons (s' := (i :: is, some s')) (fun m hm => ?_) ih'
        obtain ⟨k, rfl⟩ : ∃ k', m = k' + 3 := ⟨m - 3, by omega⟩
        simp [flatMapNext, loop, loopAux, flatMapStep, Prog.bind, hr _ (Nat.zero_le _), Prog.ret]
  rcases is with _ | ⟨i, is⟩
  · refine .nil fun m hm => ?_
    obtain ⟨k, rfl⟩ : ∃ k', m = k' + 3 := ⟨m - 3, by omega⟩
    simp [flatMapNext, loop, loopAux, flatMapStep, Prog.ret]
  · obtain ⟨h1, h2⟩ := h i (by simp)
    rw [List.flatMap_cons]
    generalize X i = xs at h1 h2
    cases h1 with
    | nil => exact absurd rfl h2
    | @cons _ s' x xs hr' h1 =>
      refine .cons (s' := (is, some s')) (fun m hm => ?_) (key is (fun j hj => h j (by simp [hj])) s' xs h1)
      obtain ⟨k, rfl⟩ : ∃ k', m = k' + 3 := ⟨m - 3, by omega⟩
      simp [flatMapNext, loop, loopAux, flatMapStep, Prog.bind, hr' _ (Nat.zero_le _), Prog.ret]

/-! ### `find` -/

theorem find_run {next : σ → Prog (Option (α × σ))} (h : Still next) (p : α → Bool) {s s' : σ} {outs : List α} (hr : IterRun next s outs s')
    (ho : ∀ y ∈ outs, p y = false) (m k : Nat) : loopAux (findStep p next) m (k + outs.length) s = loopAux (findStep p next) m k s' := by
  induction hr generalizing k with
  | refl => rfl
  | @step outs s1 x s2 _ hx ih =>
    have h1 : p x = false := ho x (by simp)
    rw [List.length_append, List.length_singleton, show k + (outs.length + 1) = (k + 1) + outs.length by omega,
      ih (fun y hy => ho y (by simp [hy]))]
    simp [loopAux, findStep, Prog.bind, h.eq hx, Prog.ret, h1]

theorem find_within_run {next : σ → Prog (Option (α × σ))} (h : Still next) (p : α → Bool) {s s' : σ} {outs : List α} (hr : IterRun next s outs s')
    (ho : ∀ y ∈ outs, p y = false) {r : Option α}
    (hend : (r = none ∧ Returns (next s') none) ∨ ∃ x s'', r = some x ∧ p x = true ∧ Returns (next s') (some (x, s''))) :
    ReturnsWithin (outs.length + 1) (Prog.find p next s) r := by
  intro m hm
  obtain ⟨k, rfl⟩ : ∃ k, m = k + 1 + outs.length := ⟨m - 1 - outs.length, by omega⟩
  show loopAux _ _ _ _ = _
  rw [find_run h p hr ho]
  rcases hend with ⟨rfl, h1⟩ | ⟨x, s'', rfl, h2, h1⟩
  · simp [loopAux, findStep, Prog.bind, h.eq h1, Prog.ret]
  · simp [loopAux, findStep, Prog.bind, h.eq h1, Prog.ret, h2]

theorem still_constrained {H : ScoredHeap} (g : DirectedGraph) (scorefn : ScoreFn) (cs : List Constraint) :
    Still (ConstrainedBestFirstIter.next (H := H) g scorefn cs) := by
  intro s n m
  unfold ConstrainedBestFirstIter.next
  cases s.queue.pop <;> rfl

/-! ### Cycles -/

theorem prefix_cycleNodes {g : DirectedGraph} (n : Nat) (p q : Path) (h : q ∈ nodesAux (cycleChildren g) n p) : p.vertices <+: q.vertices := by
  induction n generalizing p with
  | zero =>
    simp only [nodesAux, List.mem_singleton] at h
    exact h ▸ List.prefix_refl _
  | succ n ih =>
    simp only [nodesAux, List.mem_cons, List.mem_flatMap] at h
    rcases h with rfl | ⟨c, hc, h⟩
    · exact List.prefix_refl _
    · refine List.IsPrefix.trans ?_ (ih c h)
      unfold cycleChildren at hc
      split at hc
      · cases hc
      · split at hc
        · cases hc
        · obtain ⟨v, _, rfl⟩ := List.mem_map.1 hc
          exact List.prefix_append _ _

theorem nodup_cycleNodes {g : DirectedGraph} (hw : WF g) (n : Nat) (p : Path) : (nodesAux (cycleChildren g) n p).Nodup := by
  induction n generalizing p with
  | zero => simp [nodesAux]
  | succ n ih =>
    simp only [nodesAux]
    rw [List.nodup_cons, List.nodup_flatMap]
    refine ⟨?_, fun c _ => ih c, ?_⟩
    · intro h
      obtain ⟨c, hc, h⟩ := List.mem_flatMap.1 h
      have h1 := (prefix_cycleNodes _ _ _ h).length_le
      unfold cycleChildren at hc
      split at hc
      · cases hc
      · split at hc
        · cases hc
        · obtain ⟨v, _, rfl⟩ := List.mem_map.1 hc
          simp only [Path.append, List.length_append, List.length_singleton] at h1
          omega
    · unfold cycleChildren
      split
      · exact .nil
      · split
        · exact .nil
        · rename_i u _ _
          rw [List.pairwise_map]
          refine (hw.nodup_outs' u).imp ?_
          intro a b hab
          rw [Function.onFun, List.disjoint_left]
          intro q hq1 hq2
          have h1 := prefix_cycleNodes _ _ _ hq1
          have h2 := prefix_cycleNodes _ _ _ hq2
          have := List.prefix_of_prefix_length_le h1 h2 (by simp [Path.append])
          have := this.eq_of_length (by simp [Path.append])
          simp [Path.append] at this
          exact hab this

/-- The walks that begin with one of the vertices and whose vertices differ, except perhaps the last. -/
theorem lassos {g : DirectedGraph} (hw : WF g) (vs : List VertexId) (hn : vs.Nodup) (hv : ∀ v ∈ vs, v ∈ g.vertices) :
    ∃ ws : List (List VertexId), ws.Nodup ∧ (∀ l, l ∈ ws ↔ ∃ v ∈ vs, WalkFrom g v l ∧ l.dropLast.Nodup) ∧
      cycleWork g (vs.map fun v => ⟨[v]⟩) = ws.length := by
  have hstart : ∀ v ∈ vs, Lasso g ⟨[v]⟩ := fun v h => ⟨by simp, by simp, by simp, by simpa using hv v h⟩
  refine ⟨(vs.flatMap fun v => nodesAux (cycleChildren g) (g.vertices.length + 2 - (Path.mk [v]).vertices.length) ⟨[v]⟩).map Path.vertices, ?_, ?_, ?_⟩
  · refine List.Nodup.map ?_ ?_
    · rintro ⟨a⟩ ⟨b⟩ hab
      simpa using hab
    · rw [List.nodup_flatMap]
      refine ⟨fun v _ => nodup_cycleNodes hw _ _, hn.imp ?_⟩
      intro a b hab
      rw [Function.onFun, List.disjoint_left]
      intro q h1 h2
      have h1 := prefix_cycleNodes _ _ _ h1
      have h2 := prefix_cycleNodes _ _ _ h2
      have := (List.prefix_of_prefix_length_le h1 h2 (by simp)).eq_of_length (by simp)
      simp at this
      exact hab this
  · intro l
    simp only [List.mem_map, List.mem_flatMap]
    constructor
    · rintro ⟨q, ⟨v, h, hq⟩, rfl⟩
      exact ⟨v, h, (descends_cycleChildren hw v q).1 ((mem_nodesAux (P := Lasso g) (rank := fun y => g.vertices.length + 2 - y.vertices.length)
        (lasso_child hw) ⟨[v]⟩ q (hstart v h)).1 hq)⟩
    · rintro ⟨v, h, hl⟩
      exact ⟨⟨l⟩, ⟨v, h, (mem_nodesAux (P := Lasso g) (rank := fun y => g.vertices.length + 2 - y.vertices.length)
        (lasso_child hw) ⟨[v]⟩ ⟨l⟩ (hstart v h)).2 ((descends_cycleChildren hw v ⟨l⟩).2 hl)⟩, rfl⟩
  · unfold cycleWork
    rw [List.flatMap_map, List.length_map]

theorem nodup_starting {g : DirectedGraph} (hw : WF g) : (CycleIter.findStartingEdges g).Nodup := by
  unfold CycleIter.findStartingEdges
  have h1 := hw.nodup_vertices.filter fun v => (g.inboundEdges v).length == 0
  dsimp only
  split
  · rename_i h2
    rw [List.isEmpty_iff] at h2
    rw [h2]
    cases g.headOption <;> simp
  · exact h1

theorem mono_cycles (g : DirectedGraph) (s : CycleIter) : Mono (CycleIter.next g s) := by
  refine Mono.loop (fun s => ?_) s
  unfold CycleIter.step
  split
  · exact Mono.ret _
  · exact Mono.lift _

/-- One round on a walk of the stack. -/
theorem cycle_step {g : DirectedGraph} (hw : WF g) {s : CycleIter} (hs : ∀ p ∈ s.stack.stack, Lasso g p) (m : Nat) :
    CycleIter.step g s m ≠ .running ∧ ∀ r, CycleIter.step g s m = .done r → ∀ s', r = .inl s' ∨ (∃ x, r = .inr (some (x, s'))) →
      (∀ p ∈ s'.stack.stack, Lasso g p) ∧ cycleWork g s'.stack.stack < cycleWork g s.stack.stack := by
  obtain ⟨⟨st⟩, ret⟩ := s
  simp only at hs
  rcases List.eq_nil_or_concat st with rfl | ⟨st, p, e⟩
  · refine ⟨by simp [CycleIter.step, Stack.pop, Prog.ret], fun r hr s' h => ?_⟩
    simp only [CycleIter.step, Stack.pop] at hr
    cases hr
    rcases h with h | ⟨x, h⟩ <;> cases h
  · rw [List.concat_eq_append] at e
    subst e
    have hp := hs p (by simp)
    have hst : ∀ q ∈ st, Lasso g q := fun q hq => hs q (by simp [hq])
    have hpop : (⟨st ++ [p]⟩ : Stack Path).pop = some (p, ⟨st⟩) := Stack.pop_eq_some.2 rfl
    have h1 := cycleWork_pop hw st p hp
    have h2 := cycleWork_pop' hw st p hp
    have hkids : ∀ q ∈ st ++ cycleChildren g p, Lasso g q := by
      intro q hq
      rcases List.mem_append.1 hq with hq | hq
      · exact hst q hq
      · exact (lasso_child hw p hp q hq).1
    obtain ⟨l, v, rfl⟩ := hp.concat
    by_cases hv : v ∈ l
    · obtain ⟨a, b, rfl, hb⟩ := mem_split_last hv
      obtain ⟨d, hd, _, _⟩ := canonical_spec (v :: b) (by simp)
      have hex := extract_some (a := a) hb
      rw [hd, Run.bind_done] at hex
      unfold CycleIter.step
      rw [hpop]
      dsimp only
      rw [hex]
      simp only [Run.bind_done, Prog.lift]
      split
      · refine ⟨by simp, fun r hr s' h => ?_⟩
        cases hr
        rcases h with h | ⟨x, h⟩ <;> cases h
        exact ⟨hst, h2⟩
      · refine ⟨by simp, fun r hr s' h => ?_⟩
        cases hr
        rcases h with h | ⟨x, h⟩ <;> cases h
        exact ⟨hst, h2⟩
    · have hpush : CycleIter.pushNext g ⟨l ++ [v]⟩ ⟨st⟩ = .done ⟨st ++ cycleChildren g ⟨l ++ [v]⟩⟩ := by
        unfold CycleIter.pushNext
        rw [show Path.last ⟨l ++ [v]⟩ = some v by simp [Path.last], Run.unwrap_some, Run.bind_done, foldl_push, cycleChildren_concat, if_neg hv]
      unfold CycleIter.step
      rw [hpop]
      dsimp only
      rw [extract_none hv]
      simp only [Run.bind_done, Prog.lift, hpush]
      refine ⟨by simp, fun r hr s' h => ?_⟩
      cases hr
      rcases h with h | ⟨x, h⟩ <;> cases h
      exact ⟨hkids, h1⟩

theorem cycles_within {g : DirectedGraph} (hw : WF g) {s : CycleIter} (hs : ∀ p ∈ s.stack.stack, Lasso g p) {xs : List Cycle}
    (hd : Drains (CycleIter.next g) s xs) :
    DrainsWithin (cycleWork g s.stack.stack + 1) (CycleIter.next g) s xs ∧ xs.length ≤ cycleWork g s.stack.stack := by
  refine drains_within (mono_cycles g) (fun s => ∀ p ∈ s.stack.stack, Lasso g p) (fun s => cycleWork g s.stack.stack) ?_ ?_ hs hd
  · intro s hs m hm
    exact loop_stops (fun s : CycleIter => ∀ p ∈ s.stack.stack, Lasso g p) (fun s => cycleWork g s.stack.stack) m
      (fun s hs => (cycle_step hw hs m).1) (fun s s' hs h => (cycle_step hw hs m).2 _ h s' (.inl rfl)) hs m (by omega)
  · intro s m x s' hs h
    exact loop_keeps (fun t : CycleIter => (∀ p ∈ t.stack.stack, Lasso g p) ∧ cycleWork g t.stack.stack ≤ cycleWork g s.stack.stack)
      (fun b => ∀ x s', b = some (x, s') → (∀ p ∈ s'.stack.stack, Lasso g p) ∧ cycleWork g s'.stack.stack < cycleWork g s.stack.stack) m
      (by
        rintro t t' ⟨h1, h2⟩ h3
        obtain ⟨h4, h5⟩ := (cycle_step hw h1 m).2 _ h3 t' (.inl rfl)
        exact ⟨h4, by omega⟩)
      (by
        rintro t b ⟨h1, h2⟩ h3 x s' rfl
        obtain ⟨h4, h5⟩ := (cycle_step hw h1 m).2 _ h3 s' (.inr ⟨x, rfl⟩)
        exact ⟨h4, by omega⟩)
      ⟨hs, Nat.le_refl _⟩ m h x s' rfl

/-- All of the cycles, within as many rounds as there are walks. -/
theorem cycleIter_within {g : DirectedGraph} (hw : WF g) : ∃ ws : List (List VertexId), ws.Nodup ∧
    (∀ l, l ∈ ws ↔ ∃ v ∈ CycleIter.findStartingEdges g, WalkFrom g v l ∧ l.dropLast.Nodup) ∧
    ∃ cs, DrainsWithin (ws.length + 1) (CycleIter.next g) (CycleIter.cycleIter g) cs ∧ cs.length + 1 ≤ ws.length + 1 := by
  obtain ⟨ws, h1, h2, h3⟩ := lassos hw _ (nodup_starting hw) fun v hv => findStartingEdges_vertex hv
  obtain ⟨cs, h4, _⟩ := cycle_drains hw
  rw [cycleIter_eq] at h4 ⊢
  obtain ⟨h5, h6⟩ := cycles_within hw (by
    intro p hp
    obtain ⟨v, hv, rfl⟩ := List.mem_map.1 hp
    exact ⟨by simp, by simp, by simp, by simpa using findStartingEdges_vertex hv⟩) h4
  simp only at h5 h6
  rw [h3] at h5 h6
  exact ⟨ws, h1, h2, cs, h5, by omega⟩

/-! ### Maximum flow -/

section
open MaxFlow Path

theorem bind_runs {x : Run α} {f : α → Run β} (h1 : x ≠ .running) (h2 : ∀ a, f a ≠ .running) : x.bind f ≠ .running := by
  cases x with
  | running => exact absurd rfl h1
  | panicked => simp [Run.bind]
  | done a => exact h2 a

theorem unwrap_runs (o : Option α) : Run.unwrap o ≠ .running := by
  cases o <;> simp [Run.unwrap]

theorem checkPath_runs (m : MaxFlow.FlowMap) (t : VertexId) (p : AugmentingPath) (v : VertexId) : checkPath m t p v ≠ .running := by
  have h1 : ∀ e d, edgeResidualCapacity e d m ≠ .running := by
    intro e d
    cases d
    · refine bind_runs (unwrap_runs _) fun a => ?_
      unfold subU64
      split <;> simp
    · exact bind_runs (unwrap_runs _) fun a => by simp
  have h2 : ∀ es, residuals m es ≠ .running := by
    intro es
    induction es with
    | nil => simp [residuals]
    | cons e es ih => exact bind_runs (h1 _ _) fun _ => bind_runs ih fun _ => by simp
  unfold checkPath
  split
  · refine bind_runs (bind_runs (h2 _) fun _ => unwrap_runs _) fun r => ?_
    split <;> simp
  · simp

theorem nextStep_spec {g : DirectedGraph} (hw : WF g) (m : MaxFlow.FlowMap) {s t : VertexId} {ls : List (List VertexId)}
    (hl : ∀ l ∈ ls, SimplePathFrom g s l) (n : Nat) :
    nextStep g m t ⟨ls.map fwd⟩ n ≠ .running ∧ ∀ q, nextStep g m t ⟨ls.map fwd⟩ n = .done (.inl q) →
      (∃ ls' : List (List VertexId), q.queue = ls'.map fwd ∧ ∀ l ∈ ls', SimplePathFrom g s l) ∧ work g q < work g ⟨ls.map fwd⟩ := by
  rcases ls with _ | ⟨l, ls⟩
  · exact ⟨by simp [nextStep, Queue.pop, Prog.ret], fun q h => by simp [nextStep, Queue.pop, Prog.ret] at h⟩
  · have hsim := hl l (by simp)
    obtain ⟨v, hv⟩ := hsim.last
    have hpop : Queue.pop (⟨(l :: ls).map fwd⟩ : Queue AugmentingPath) = some (fwd l, ⟨ls.map fwd⟩) := rfl
    have hc := checkPath_runs m t (fwd l) v
    unfold nextStep
    rw [hpop]
    simp only [last_fwd l v hv, Run.unwrap_some, Run.bind_done, pushNeighbours_fwd hw l v hv, Prog.lift]
    rcases e : checkPath m t (fwd l) v with _ | _ | r
    · exact absurd e hc
    · exact ⟨by simp [Run.bind], fun q h => by simp [Run.bind] at h⟩
    · rcases r with _ | c
      · refine ⟨by simp, fun q h => ?_⟩
        simp only [Run.bind_done] at h
        cases h
        refine ⟨⟨ls ++ (pathChildren g ⟨l⟩).map Path.vertices, by simp [Function.comp_def], ?_⟩, ?_⟩
        · intro x hx
          rcases List.mem_append.1 hx with hx | hx
          · exact hl x (by simp [hx])
          · obtain ⟨p, hp, rfl⟩ := List.mem_map.1 hx
            exact (pathChildren_rank hw s ⟨l⟩ hsim p hp).1
        · unfold work
          have := nodesAux_unfold (rank := fun p : Path => g.vertices.length + 1 - p.vertices.length) (pathChildren_rank hw s) ⟨l⟩ hsim
          simp only at this
          simp only [List.map_cons, List.flatMap_cons, List.flatMap_append, List.length_append, unfwd_fwd, this, List.length_cons,
            List.flatMap_map]
          have e : ((pathChildren g ⟨l⟩).flatMap fun a => nodesAux (pathChildren g) (g.vertices.length + 1 - a.vertices.length) ⟨a.vertices⟩) =
            (pathChildren g ⟨l⟩).flatMap fun y => nodesAux (pathChildren g) (g.vertices.length + 1 - y.vertices.length) y := rfl
          rw [e]
          omega
      · exact ⟨by simp, fun q h => by simp at h⟩

theorem mono_find (g : DirectedGraph) (m : MaxFlow.FlowMap) (s t : VertexId) : Mono (findAugmentingPath g m s t) := by
  refine Mono.loop (fun q => ?_) _
  unfold nextStep
  split
  · exact Mono.ret _
  · exact Mono.lift _

theorem find_stops {g : DirectedGraph} (hw : WF g) (m : MaxFlow.FlowMap) (s t : VertexId) {xs : List Path} (hn : xs.Nodup)
    (hx : ∀ p, p ∈ xs ↔ SimplePathFrom g s p.vertices) : Stops (xs.length + 1) (findAugmentingPath g m s t) := by
  have h0 : SimplePathFrom g s [s] := ⟨by simp, rfl, by simp⟩
  have hq : (Queue.new.push (.new s) : Queue AugmentingPath) = ⟨[[s]].map fwd⟩ := rfl
  have hwork : work g ⟨[[s]].map fwd⟩ = xs.length := by
    unfold work
    simp only [List.map_cons, List.map_nil, List.flatMap_cons, List.flatMap_nil, List.append_nil, unfwd_fwd]
    refine ((List.perm_ext_iff_of_nodup (nodup_nodesAux hw _ _) hn).2 fun p => ?_).length_eq
    rw [hx, ← descends_pathChildren hw]
    exact mem_nodesAux (P := fun p : Path => SimplePathFrom g s p.vertices) (rank := fun p => g.vertices.length + 1 - p.vertices.length)
      (pathChildren_rank hw s) ⟨[s]⟩ p h0
  intro n hle
  unfold findAugmentingPath
  refine loop_stops (fun q : Queue AugmentingPath => ∃ ls : List (List VertexId), q.queue = ls.map fwd ∧ ∀ l ∈ ls, SimplePathFrom g s l) (work g) n
    ?_ ?_ ?_ n ?_
  · rintro ⟨q⟩ ⟨ls, h1, h2⟩
    simp only at h1
    subst h1
    exact (nextStep_spec hw m h2 n).1
  · rintro ⟨q⟩ q' ⟨ls, h1, h2⟩ h3
    simp only at h1
    subst h1
    exact (nextStep_spec hw m h2 n).2 q' h3
  · exact ⟨[[s]], rfl, by simpa using h0⟩
  · rw [hq, hwork]
    omega

/-- The edges with residual capacity. -/
def unsaturated (g : DirectedGraph) (cap : Edge → UInt64) (f : Edge → Nat) : Nat := g.edges.countP fun e => decide (f e < (cap e).toNat)

theorem countP_lt {p q : α → Bool} {l : List α} (h : ∀ x ∈ l, p x = true → q x = true) {a : α} (ha : a ∈ l) (h1 : q a = true) (h2 : p a = false) :
    l.countP p < l.countP q := by
  induction l with
  | nil => cases ha
  | cons x l ih =>
    rw [List.countP_cons, List.countP_cons]
    rcases List.mem_cons.1 ha with rfl | ha
    · have := List.countP_mono_left (l := l) (p := p) (q := q) fun y hy => h y (by simp [hy])
      simp [h1, h2]
      omega
    · have := ih (fun y hy => h y (by simp [hy])) ha
      have h3 := h x (by simp)
      by_cases hp : p x = true
      · simp [hp, h3 hp]; omega
      · simp [hp]; split <;> omega

/-- The flow stored in a table. -/
def stored (m : MaxFlow.FlowMap) (e : Edge) : Nat := ((HMap.get? m e).map Prod.fst).getD 0

theorem mono_step (g : DirectedGraph) (s t : VertexId) (x : MaxFlow.FlowMap × Nat) : Mono (MaxFlow.step g s t x) := by
  refine Mono.bind (mono_find g x.1 s t) fun r => ?_
  split
  · exact Mono.ret _
  · exact Mono.lift _

theorem mono_maxFlow (g : DirectedGraph) (cap : Edge → UInt64) (s t : VertexId) : Mono (maxFlow g cap s t) := Mono.loop (mono_step g s t) _

/-- Every round but the last saturates an edge. -/
theorem step_saturates {g : DirectedGraph} (hw : WF g) {cap : Edge → UInt64} {s t : VertexId} (hst : s ≠ t) {m : MaxFlow.FlowMap} {f : Edge → Nat} {n : Nat}
    (hm : FlowRep g cap m f) (h : FlowInv g cap s t f n) {k : Nat} {x : MaxFlow.FlowMap × Nat} (hs : MaxFlow.step g s t (m, n) k = .done (.inl x)) :
    ∃ f', FlowRep g cap x.1 f' ∧ FlowInv g cap s t f' x.2 ∧ unsaturated g cap f' < unsaturated g cap f := by
  obtain ⟨r, h1, _, h3⟩ := find_spec hw hm h.le hst
  have hr := (mono_step g s t (m, n)).returns hs
  rcases r with _ | ⟨p, c⟩
  · cases hr.unique (Returns.bind h1 (.ret _))
  · obtain ⟨l, rfl, k1, k2, k3, k4, ⟨e, he, k5⟩, _⟩ := h3 p c rfl
    have hnd := edgesOf_nodup k1.2.2
    obtain ⟨m', k6, k7⟩ := updateEdges_fwd c (edgesOf l) hnd (fun e he => edgesOf_adj k1.1 he) hm k4
    have e1 : updateFlow m (fwd l) c = .done m' := by
      unfold updateFlow
      rw [edges_fwd, k6]
    by_cases hlt : n + c < 2 ^ 64
    · have h5 : Returns (MaxFlow.step g s t (m, n)) (.inl (m', n + c)) := by
        refine Returns.bind h1 ?_
        simp only [e1, Run.bind_done, addU64, hlt, if_true]
        exact .lift_done _
      cases hr.unique h5
      refine ⟨_, k7, h.augment hw hst k1 k2 k3 k4, countP_lt ?_ (hw.mem_edges.2 (edgesOf_adj k1.1 he)) (a := e) ?_ ?_⟩
      · intro e' _ h6
        simp only [decide_eq_true_eq] at h6 ⊢
        by_cases he' : e' ∈ edgesOf l
        · rw [bumpAll_mem _ _ hnd _ _ he'] at h6
          omega
        · rwa [bumpAll_notMem _ _ _ _ he'] at h6
      · simp only [decide_eq_true_eq]
        omega
      · rw [bumpAll_mem _ _ hnd _ _ he]
        simp only [decide_eq_false_iff_not]
        omega
    · have h5 : Panics (MaxFlow.step g s t (m, n)) := by
        refine Panics.bind_right h1 ?_
        simp only [e1, Run.bind_done, addU64, hlt, if_false]
        exact ⟨0, fun _ _ => rfl⟩
      exact absurd h5 hr.not_panics

theorem unsaturated_congr {g : DirectedGraph} (hw : WF g) {cap : Edge → UInt64} {m : MaxFlow.FlowMap} {f : Edge → Nat} (hm : FlowRep g cap m f) :
    unsaturated g cap (stored m) = unsaturated g cap f := by
  unfold unsaturated
  refine List.countP_congr fun e he => ?_
  unfold stored
  rw [hm.2 e, if_pos (hw.mem_edges.1 he)]
  rfl

theorem maxFlow_stops {g : DirectedGraph} (hw : WF g) (cap : Edge → UInt64) {s t : VertexId} (hst : s ≠ t) {xs : List Path} (hn : xs.Nodup)
    (hx : ∀ p, p ∈ xs ↔ SimplePathFrom g s p.vertices) : Stops (max g.edges.length xs.length + 1) (maxFlow g cap s t) := by
  intro n hle
  unfold maxFlow
  refine loop_stops (fun x : MaxFlow.FlowMap × Nat => ∃ f, FlowRep g cap x.1 f ∧ FlowInv g cap s t f x.2) (fun x => unsaturated g cap (stored x.1)) n
    ?_ ?_ ?_ n ?_
  · rintro ⟨m, v⟩ _ h
    unfold MaxFlow.step at h
    have h1 := find_stops hw m s t hn hx n (by omega)
    unfold Prog.bind at h
    dsimp only at h
    rcases e : findAugmentingPath g m s t n with _ | _ | r
    · exact h1 e
    · rw [e] at h; cases h
    · rw [e] at h
      rcases r with _ | ⟨p, c⟩
      · cases h
      · revert h
        show Run.bind (updateFlow m p c) _ ≠ _
        refine bind_runs ?_ fun _ => bind_runs ?_ fun _ => by simp
        · have : ∀ (es : List (Edge × Direction)) (m : MaxFlow.FlowMap), updateEdges c es m ≠ .running := by
            intro es
            induction es with
            | nil => intro m; simp [updateEdges]
            | cons x es ih =>
              intro m
              refine bind_runs ?_ fun _ => ih _
              unfold updateEdge
              split
              · split
                · simp
                · refine bind_runs ?_ fun _ => by simp
                  unfold addU64; split <;> simp
              · split
                · simp
                · refine bind_runs ?_ fun _ => by simp
                  unfold subU64; split <;> simp
          exact this _ _
        · unfold addU64; split <;> simp
  · rintro ⟨m, v⟩ x ⟨f, h1, h2⟩ h3
    obtain ⟨f', k1, k2, k3⟩ := step_saturates hw hst h1 h2 h3
    refine ⟨⟨f', k1, k2⟩, ?_⟩
    rw [unsaturated_congr hw k1, unsaturated_congr hw h1]
    exact k3
  · exact ⟨_, initialFlow_rep hw cap, FlowInv.init g cap s t⟩
  · have := List.countP_le_length (l := g.edges) (p := fun e => decide (stored (initialFlow g cap) e < (cap e).toNat))
    unfold unsaturated
    dsimp only
    omega

end

/-! ### Hamiltonian paths -/

theorem hamiltonian_within {g : DirectedGraph} (hw : WF g) : ∃ xs : List Path, xs.Nodup ∧
    (∀ p, p ∈ xs ↔ ∃ v, g.containsVertex v = true ∧ SimplePathFrom g v p.vertices) ∧
    DrainsWithin (xs.length + 3) (Hamiltonian.next g) (Hamiltonian.iter g) (xs.filter fun p => p.size == g.vertexCount) := by
  choose X h1 h2 h3 using fun v => dfs_path_drains hw v
  have h4 : DrainsWithin 3 (flatMapNext DepthFirstPathIter.from_ (DepthFirstPathIter.next g)) (g.vertices, none) (g.vertices.flatMap X) := by
    refine drains_flatMap g.vertices fun v _ => ⟨(still_dfs_path g).drains (h1 v), fun h => ?_⟩
    have := (h3 v ⟨[v]⟩).2 ⟨by simp, rfl, by simp⟩
    rw [h] at this
    cases this
  refine ⟨g.vertices.flatMap X, ?_, ?_, (h4.mono (by omega)).filter _ (by omega)⟩
  · rw [List.nodup_flatMap]
    refine ⟨fun v _ => h2 v, hw.nodup_vertices.imp ?_⟩
    intro a b hab
    rw [Function.onFun, List.disjoint_left]
    intro q hq1 hq2
    have k1 := ((h3 a q).1 hq1).2.1
    have k2 := ((h3 b q).1 hq2).2.1
    rw [k1] at k2
    cases k2
    exact hab rfl
  · intro p
    simp only [List.mem_flatMap, h3, mem_vertices]

end Work
end GC
