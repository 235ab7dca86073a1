/-
Property C73: exactly when gc-csp gives an answer although no walk meets the options.
-/
import Verif.Proofs.CspEnds
import Verif.Props.Main
namespace GC
open Main Text Store Args DirectedGraph

/-- C73: if the options select no walk, gc-csp ends exactly if every walk from the start that the options leave open, and that can be
continued, has fewer than 2^63 vertices. -/
theorem C73_ends_iff_walks (H : ScoredHeap) (nd : Char → Bool) (order : DirectedGraph → DirectedGraph) (ho : IsOrder order)
    (root : FPath) (fs : FS) (g : DirectedGraph) (h : loadGraph nd root fs = .done (.ok g)) (start end_ : Text) (s e : VertexId)
    (hs : ArgId start s) (he : ArgId end_ e) (a : CspArgs)
    (hno : ∀ l, WalkFromTo g s e l → ¬ CspAccepts a ⟨⟨l⟩, (l.length : Int) - 1⟩) :
    (∃ out, Returns (gcCsp H nd order root start end_ a fs) out) ↔
      ∀ l u v, WalkFrom g s l → (2 ≤ l.length → StillOpen a l) → l.getLast? = some u → Adj g u v → l.length < 2 ^ 63 := by
  have hb := (loadGraph_built h).1
  obtain ⟨hob, hadj, hver, hcount⟩ := adj_order ho hb
  have hnone : (∃ out, Returns (gcCsp H nd order root start end_ a fs) out) ↔ Returns (AStar.gcCsp H (order g) s e (cspConstraints a)) none := by
    constructor
    · rintro ⟨out, hr⟩
      obtain ⟨r, h1, _⟩ := gcCsp_inv h hs he hr
      cases r with
      | none => exact h1
      | some sp =>
        obtain ⟨h2, h3, c1, c2, h4, h5, h6⟩ := C35_constrained_valid H (order g) hob _ _ s e _ sp h1
        have hne : sp.path.vertices ≠ [] := by intro e; rw [e] at h2; cases h2.2.1
        have hscore : sp.score = (sp.path.vertices.length : Int) - 1 := by
          have hz : c2 = 0 := (Run.done.inj h5).symm
          rw [oneWeightedEdge_eq _ _ hne] at h4
          split at h4
          · have := Run.done.inj h4
            omega
          · cases h4
        have hsp : sp = ⟨⟨sp.path.vertices⟩, (sp.path.vertices.length : Int) - 1⟩ := by rw [← hscore]
        exact absurd (by rw [← hsp]; exact (satisfies_options a _).1 h3) (hno _ ((walk_order ho hb).1 h2))
    · exact fun h1 => ⟨_, gcCsp_of h hs he h1⟩
  rw [hnone, C37_not_reachable_iff H (order g) hob s e (cspConstraints a)]
  have hfirst : ¬ ∃ q : Path, WalkFromTo (order g) s e q.vertices ∧ q.vertices.length ≤ 2 ^ 63 ∧
      ∀ c ∈ cspConstraints a, Satisfies ⟨q, (q.vertices.length : Int) - 1⟩ c := by
    rintro ⟨q, h1, _, h2⟩
    exact hno _ ((walk_order ho hb).1 h1) ((satisfies_options a _).1 h2)
  have hfrom : ∀ l, WalkFrom (order g) s l ↔ WalkFrom g s l := by
    intro l
    unfold WalkFrom
    rw [adj_order_eq ho hb]
  constructor
  · rintro ⟨_, h1⟩ l u v hl hopen hu hv
    by_contra hlen
    have hlen : 2 ^ 63 ≤ l.length := by omega
    -- the first 2^63 vertices
    have htl : (l.take (2 ^ 63)).length = 2 ^ 63 := by rw [List.length_take]; omega
    obtain ⟨u', v', hu', hv'⟩ : ∃ u' v', (l.take (2 ^ 63)).getLast? = some u' ∧ Adj g u' v' := by
      have hch := List.isChain_iff_getElem.1 hl.1
      have hlast : (l.take (2 ^ 63)).getLast? = some (l[2 ^ 63 - 1]'(by omega)) := by
        rw [List.getLast?_eq_getElem?, htl, List.getElem?_take_of_lt (by omega)]
        exact List.getElem?_eq_getElem _
      by_cases hmore : 2 ^ 63 < l.length
      · exact ⟨_, _, hlast, hch (2 ^ 63 - 1) (by omega)⟩
      · have hall : l.take (2 ^ 63) = l := List.take_of_length_le (by omega)
        exact ⟨u, v, by rw [hall]; exact hu, hv⟩
    have hop := hopen (by omega)
    have hpre : ∀ q : Path, q.vertices <+: l.take (2 ^ 63) → q.vertices <+: l := fun q hq => hq.trans (List.take_prefix _ _)
    have := h1 ⟨⟨l.take (2 ^ 63)⟩, (2 ^ 63 : Int) - 1⟩ u' v' ⟨(hfrom _).2 ⟨hl.1.prefix (List.take_prefix _ _), ?_⟩, ?_, ?_⟩ hu' ((hadj _ _).2 hv')
    · simp only [htl] at this
      omega
    · rw [List.head?_take, if_neg (by omega), hl.2]
    · rw [unit_score _ _ (by simp only; intro e; rw [e] at htl; simp at htl), if_pos (by simp only [htl]; omega)]
      simp only [htl]
      rfl
    · intro q hq hq2
      have hql : q.vertices.length ≤ 2 ^ 63 := htl ▸ hq.length_le
      refine ⟨(q.vertices.length : Int) - 1, ?_, (notYetBroken_options a q.vertices).2 ?_⟩
      · rw [unit_score _ _ (by intro e; rw [e] at hq2; simp at hq2), if_pos hql]
      · have hp := hpre q hq
        have hle := hp.length_le
        refine ⟨allowed_prefix hp hop.1, fun hc hr => hop.2.1 hc ?_, fun t n ht hn => hle.trans (hop.2.2.1 t n ht hn), fun t i ht hi => ?_⟩
        · obtain ⟨i, j, v, h2, h3, h4⟩ := hr
          have key : ∀ (k : Nat) (w : VertexId), q.vertices[k]? = some w → l[k]? = some w := by
            intro k w hk
            obtain ⟨t, rfl⟩ := hp
            rw [List.getElem?_append_left (List.getElem?_eq_some_iff.1 hk).1]
            exact hk
          exact ⟨i, j, v, h2, key _ _ h3, key _ _ h4⟩
        · have := hop.2.2.2 t i ht hi
          omega
  · intro h1
    refine ⟨hfirst, fun sp u v hsp hu hv => ?_⟩
    refine h1 sp.path.vertices u v ((hfrom _).1 hsp.1) (fun h2 => ?_) hu ((hadj _ _).1 hv)
    obtain ⟨sc, h3, h4⟩ := hsp.2.2 sp.path (List.prefix_refl _) h2
    rw [unit_score _ _ (by intro e; rw [e] at h2; simp at h2)] at h3
    split at h3
    · cases h3
      exact (notYetBroken_options a _).1 h4
    · cases h3

/-- C73: if no walk meets the options (`max-score` taken as it is implemented), gc-csp answers exactly if the options bound the walks, or no
walk from the start that `exclude` and `ordered` allow can go round the same closed walk twice in succession. -/
theorem C73_ends_iff (H : ScoredHeap) (nd : Char → Bool) (order : DirectedGraph → DirectedGraph) (ho : IsOrder order)
    (root : FPath) (fs : FS) (g : DirectedGraph) (h : loadGraph nd root fs = .done (.ok g)) (start end_ : Text) (s e : VertexId)
    (hs : ArgId start s) (he : ArgId end_ e) (a : CspArgs)
    (hsize : g.vertexCount * ((a.ordered.getD []).length + 1) < 2 ^ 63 - 1)
    (hno : ∀ l, WalkFromTo g s e l → ¬ CspAccepts a ⟨⟨l⟩, (l.length : Int) - 1⟩) :
    (∃ out, Returns (gcCsp H nd order root start end_ a fs) out) ↔ BoundedOptions a ∨ ¬ RoundTwice g s a := by
  have hb := (loadGraph_built h).1
  have hvc : g.vertexCount < 2 ^ 63 - 1 := lt_of_le_of_lt (Nat.le_mul_of_pos_right _ (Nat.succ_pos _)) hsize
  rw [C73_ends_iff_walks H nd order ho root fs g h start end_ s e hs he a hno]
  constructor
  · intro h1
    by_contra hc
    simp only [not_or, not_not] at hc
    obtain ⟨hbd, hround⟩ := hc
    obtain ⟨l, hl1, hl2, hl3⟩ := round_many hround (2 ^ 63 + 1)
    have hch := List.isChain_iff_getElem.1 hl2.1
    have htl : (l.take (2 ^ 63)).length = 2 ^ 63 := by rw [List.length_take]; omega
    have := h1 (l.take (2 ^ 63)) (l[2 ^ 63 - 1]'(by omega)) (l[2 ^ 63 - 1 + 1]'(by omega))
      ⟨hl2.1.prefix (List.take_prefix _ _), by rw [List.head?_take, if_neg (by omega), hl2.2]⟩ (fun _ => ?_) ?_ (hch _ (by omega))
    · omega
    · refine ⟨allowed_prefix (List.take_prefix _ _) hl3, fun hc => absurd (.inl hc) hbd, fun t n ht hn => ?_, fun t i ht hi => ?_⟩
      · by_contra hlt
        exact hbd (.inr (.inl ⟨t, n, ht, hn, by omega⟩))
      · by_contra hlt
        exact hbd (.inr (.inr ⟨t, i, ht, hi, by omega⟩))
    · rw [List.getLast?_eq_getElem?, htl, List.getElem?_take_of_lt (by omega)]
      exact List.getElem?_eq_getElem _
  · intro h1 l u v hl hopen hu hv
    by_contra hlen
    have hlen : 2 ^ 63 ≤ l.length := by omega
    have hop := hopen (by omega)
    rcases h1 with (h1 | ⟨t, n, ht, hn, hlt⟩ | ⟨t, i, ht, hi, hlt⟩) | h1
    · have hnd : l.Nodup := by
        rw [List.nodup_iff_getElem?_ne_getElem?]
        intro i j hij hj heq
        exact hop.2.1 h1 ⟨i, j, l[j], hij, heq.trans (List.getElem?_eq_getElem hj), List.getElem?_eq_getElem hj⟩
      have := SimplePathFrom.length_le hb.wf ⟨hl.1, hl.2, hnd⟩
      have hv' : g.vertices.length = g.vertexCount := by simp [vertices, HMap.keys, vertexCount]
      omega
    · have := hop.2.2.1 t n ht hn
      omega
    · have := hop.2.2.2 t i ht hi
      omega
    · exact h1 (round_of_long hb.wf hl hop.1 (by omega) (by omega))

theorem roundTwice_iff {g : DirectedGraph} {s : VertexId} {a : CspArgs} (ha : a.ordered = none) :
    RoundTwice g s a ↔ ∃ v, Relation.ReflTransGen (AvoidingStep g a) s v ∧ Relation.TransGen (AvoidingStep g a) v v := by
  have hal : ∀ l, Allowed a l ↔ ∀ t vs, a.exclude = some t → ArgIds t vs → ∀ v ∈ vs, v ∉ l := by
    intro l
    have hv : ∀ v, Visits ⟨l⟩ v ↔ v ∈ l := fun v => List.mem_iff_getElem?.symm
    simp only [Allowed, ha, hv]
    simp
  have hchain : ∀ l, l.IsChain (Adj g) → Allowed a l → l.IsChain (AvoidingStep g a) := by
    intro l h1 h2
    rw [hal] at h2
    rw [List.isChain_iff_getElem] at h1 ⊢
    exact fun i hi => ⟨h1 i hi, fun t vs ht hvs => ⟨fun hm => h2 t vs ht hvs _ hm (List.getElem_mem _), fun hm => h2 t vs ht hvs _ hm (List.getElem_mem _)⟩⟩
  have hpath : ∀ (x : VertexId) (l : List VertexId), (x :: l).IsChain (AvoidingStep g a) → ∀ y ∈ x :: l, Relation.ReflTransGen (AvoidingStep g a) x y := by
    intro x l
    induction l generalizing x with
    | nil => intro _ y hy; simp at hy; subst hy; exact .refl
    | cons z l ih =>
      intro h y hy
      rw [List.isChain_cons_cons] at h
      rcases List.mem_cons.1 hy with rfl | hy
      · exact .refl
      · exact .head h.1 (ih z h.2 y hy)
  constructor
  · rintro ⟨p, c, hc, ⟨h1, h2⟩, h3⟩
    have h4 := hchain _ h1 h3
    obtain ⟨v, c', rfl⟩ := List.exists_cons_of_ne_nil hc
    refine ⟨v, ?_, ?_⟩
    · cases hp : p ++ v :: c' ++ v :: c' with
      | nil => simp at hp
      | cons x l =>
        rw [hp] at h2 h4
        cases h2
        exact hpath _ _ h4 v (by rw [← hp]; simp)
    · have h5 : (v :: (c' ++ v :: c')).IsChain (AvoidingStep g a) := by
        have : p ++ v :: c' ++ v :: c' = p ++ (v :: (c' ++ v :: c')) := by simp
        rw [this] at h4
        exact (List.isChain_append.1 h4).2.1
      cases c' with
      | nil => exact .single (by simpa using h5)
      | cons z c'' =>
        rw [List.cons_append, List.isChain_cons_cons] at h5
        exact .head' h5.1 (hpath z _ h5.2 v (by simp))
  · rintro ⟨v, h1, h2⟩
    obtain ⟨l1, k1, k2⟩ := List.exists_isChain_cons_of_relationReflTransGen h1
    obtain ⟨w, h3, h4⟩ := Relation.TransGen.head'_iff.1 h2
    obtain ⟨l2, k3, k4⟩ := List.exists_isChain_cons_of_relationReflTransGen h4
    -- the closed walk is `w :: l2`, which ends in `v`
    have hlast1 : (s :: l1).getLast? = some v := by rw [List.getLast?_eq_some_getLast (by simp), k2]
    have hlast2 : (w :: l2).getLast? = some v := by rw [List.getLast?_eq_some_getLast (by simp), k4]
    have hall : (s :: l1 ++ (w :: l2) ++ (w :: l2)).IsChain (AvoidingStep g a) := by
      rw [List.isChain_append, List.isChain_append]
      refine ⟨⟨k1, k3, ?_⟩, k3, ?_⟩
      · rw [hlast1]; intro x hx y hy; cases hx; cases hy; exact h3
      · rw [List.getLast?_append, hlast2]; intro x hx y hy; cases hx; cases hy; exact h3
    refine ⟨s :: l1, w :: l2, by simp, ⟨hall.imp fun _ _ h => h.1, rfl⟩, (hal _).2 ?_⟩
    intro t vs ht hvs x hx hm
    obtain ⟨i, hi, rfl⟩ := List.getElem_of_mem hm
    have := List.isChain_iff_getElem.1 hall
    have hlen : 2 ≤ (s :: l1 ++ (w :: l2) ++ (w :: l2)).length := by simp; omega
    rcases i with _ | i
    · exact ((this 0 (by omega)).2 t vs ht hvs).1 hx
    · exact ((this i hi).2 t vs ht hvs).2 hx

/-- C73: without the option `ordered` and without options that bound the walks, when no walk meets the options, gc-csp never answers exactly if
some cycle can be reached from the start, both avoiding the vertices named by `exclude`. -/
theorem C73_never_answers_iff (H : ScoredHeap) (nd : Char → Bool) (order : DirectedGraph → DirectedGraph) (ho : IsOrder order)
    (root : FPath) (fs : FS) (g : DirectedGraph) (h : loadGraph nd root fs = .done (.ok g)) (start end_ : Text) (s e : VertexId)
    (hs : ArgId start s) (he : ArgId end_ e) (a : CspArgs) (hord : a.ordered = none) (hunb : ¬ BoundedOptions a)
    (hsize : g.vertexCount < 2 ^ 63 - 1) (hno : ∀ l, WalkFromTo g s e l → ¬ CspAccepts a ⟨⟨l⟩, (l.length : Int) - 1⟩) :
    (∀ out, ¬ Returns (gcCsp H nd order root start end_ a fs) out) ↔
      ∃ v, Relation.ReflTransGen (AvoidingStep g a) s v ∧ Relation.TransGen (AvoidingStep g a) v v := by
  have h1 := C73_ends_iff H nd order ho root fs g h start end_ s e hs he a (by simpa [hord] using hsize) hno
  rw [roundTwice_iff hord] at h1
  rw [← not_exists, h1, not_or, not_not]
  exact and_iff_right hunb

/-- Vertex 5 can be reached from 1 only through 2. With `exclude 2` nothing is left to follow, and gc-csp says that there is no path; with
`exclude 4` it goes round 1→2→3→1 for ever. -/
def exTrapped : List GraphCommand := [.AddEdge 1 2, .AddEdge 2 3, .AddEdge 3 1, .AddEdge 2 4, .AddEdge 4 5]

theorem trapped_no_walk {a : CspArgs} (v : VertexId) (hv : v = 2 ∨ v = 4) (ha : a.exclude = some [GcCycle.showList [v]])
    (hp : ArgIds [GcCycle.showList [v]] [v]) (l : List VertexId) (hl : WalkFromTo (GraphCommand.applyCommands exTrapped .new) 1 5 l) :
    ¬ CspAccepts a ⟨⟨l⟩, (l.length : Int) - 1⟩ := by
  intro hacc
  have hb : Built (GraphCommand.applyCommands exTrapped .new) := Built.new.applyCommands _
  have hav : v ∉ l := fun hm => hacc.1.2.1 _ _ ha hp v (by simp) (List.mem_iff_getElem?.1 hm)
  have hadj : ∀ x y, Adj (GraphCommand.applyCommands exTrapped .new) x y →
      (x, y) ∈ [((1 : VertexId), (2 : VertexId)), (2, 3), (3, 1), (2, 4), (4, 5)] := by
    intro x y hxy
    have h1 := hb.wf.mem_edges.2 hxy
    have h2 : ∀ e ∈ (GraphCommand.applyCommands exTrapped .new).edges,
        (e.src, e.dst) ∈ [((1 : VertexId), (2 : VertexId)), (2, 3), (3, 1), (2, 4), (4, 5)] := by decide
    exact h2 _ h1
  -- every vertex of the walk is 1, 2 or 3
  have key : ∀ n (hn : n < l.length), l[n] = 1 ∨ l[n] = 2 ∨ l[n] = 3 := by
    intro n
    induction n with
    | zero =>
      intro hn
      have := hl.2.1
      rw [List.head?_eq_getElem?, List.getElem?_eq_getElem hn] at this
      exact .inl (Option.some.inj this)
    | succ n ih =>
      intro hn
      have h1 := hadj _ _ (List.isChain_iff_getElem.1 hl.1 n hn)
      have h2 := ih (by omega)
      have h3 : l[n] ≠ v := fun h => hav (h ▸ List.getElem_mem _)
      have h4 : l[n + 1] ≠ v := fun h => hav (h ▸ List.getElem_mem _)
      generalize l[n] = x at *
      generalize l[n + 1] = y at *
      simp only [List.mem_cons, Prod.mk.injEq, List.not_mem_nil, or_false] at h1
      rcases h1 with ⟨rfl, rfl⟩ | ⟨rfl, rfl⟩ | ⟨rfl, rfl⟩ | ⟨rfl, rfl⟩ | ⟨rfl, rfl⟩
      · exact .inr (.inl rfl)
      · exact .inr (.inr rfl)
      · exact .inl rfl
      · rcases hv with rfl | rfl
        · exact absurd rfl h3
        · exact absurd rfl h4
      · revert h2; decide
  have h5 := hl.2.2
  rw [List.getLast?_eq_getElem?] at h5
  obtain ⟨hn, h6⟩ := List.getElem?_eq_some_iff.1 h5
  have := key _ hn
  rw [h6] at this
  revert this
  decide

/-- `C73_ends_iff` and `C73_ends_iff_walks`: with `no-cycle`, the search for a walk from 1 to 5 that avoids 4 ends. -/
example (H : ScoredHeap) (nd : Char → Bool) : let a : CspArgs := { exclude := some [['4']], noCycle := true }
    (∃ out, Returns (gcCsp H nd id [['d']] ['1'] ['5'] a (sampleFS (Format.Gcmd.commandsText exTrapped))) out) ∧
    ∀ l u v, WalkFrom (graphOf exTrapped) 1 l → (2 ≤ l.length → StillOpen a l) → l.getLast? = some u → Adj (graphOf exTrapped) u v →
      l.length < 2 ^ 63 := by
  intro a
  have hno := trapped_no_walk (a := a) 4 (.inr rfl) rfl (parseVertexIdList_iff.1 (by decide))
  have h1 : ArgId ['1'] 1 := argId_of (by decide)
  have h5 : ArgId ['5'] 5 := argId_of (by decide)
  have hr := (C73_ends_iff H nd id isOrder_id [['d']] _ _ (load_sample nd exTrapped) ['1'] ['5'] 1 5 h1 h5 a (by decide) hno).2
    (.inl (.inl rfl))
  exact ⟨hr, (C73_ends_iff_walks H nd id isOrder_id [['d']] _ _ (load_sample nd exTrapped) ['1'] ['5'] 1 5 h1 h5 a hno).1 hr⟩

example (H : ScoredHeap) (nd : Char → Bool) :
    let fs := sampleFS (Format.Gcmd.commandsText exTrapped)
    (∃ out, Returns (gcCsp H nd id [['d']] ['1'] ['5'] { exclude := some [['2']] } fs) out) ∧
    ∀ out, ¬ Returns (gcCsp H nd id [['d']] ['1'] ['5'] { exclude := some [['4']] } fs) out := by
  intro fs
  have hb : Built (GraphCommand.applyCommands exTrapped .new) := Built.new.applyCommands _
  have hload := load_sample nd exTrapped
  have hid : IsOrder id := fun g => List.Perm.refl _
  have h1 : ArgId ['1'] 1 := parseVertexId_iff.1 (by decide)
  have h5 : ArgId ['5'] 5 := parseVertexId_iff.1 (by decide)
  have hsize : (GraphCommand.applyCommands exTrapped .new).vertexCount < 2 ^ 63 - 1 := by
    have : (GraphCommand.applyCommands exTrapped .new).vertexCount = 5 := by decide
    omega
  have hunb : ∀ t, ¬ BoundedOptions { exclude := t } := by
    rintro t (h | ⟨_, _, h | h, _⟩ | ⟨_, _, h, _⟩) <;> cases h
  have hp : ∀ v : VertexId, v = 2 ∨ v = 4 → ArgIds [GcCycle.showList [v]] [v] := by
    rintro v (rfl | rfl)
    · exact parseVertexIdList_iff.1 (by decide)
    · exact parseVertexIdList_iff.1 (by decide)
  have h2 := C73_never_answers_iff H nd id hid [['d']] fs _ hload ['1'] ['5'] 1 5 h1 h5 { exclude := some [['2']] } rfl (hunb _) hsize
    (trapped_no_walk 2 (.inl rfl) rfl (hp 2 (.inl rfl)))
  have h4 := C73_never_answers_iff H nd id hid [['d']] fs _ hload ['1'] ['5'] 1 5 h1 h5 { exclude := some [['4']] } rfl (hunb _) hsize
    (trapped_no_walk 4 (.inr rfl) rfl (hp 4 (.inr rfl)))
  have hadj : ∀ x y, Adj (GraphCommand.applyCommands exTrapped .new) x y ↔
      (⟨x, y⟩ : Edge) ∈ (GraphCommand.applyCommands exTrapped .new).edges := fun x y => hb.wf.mem_edges.symm
  constructor
  · by_contra hc
    obtain ⟨v, k1, k2⟩ := h2.1 (not_exists.1 hc)
    have hstep : ∀ w, ¬ AvoidingStep (GraphCommand.applyCommands exTrapped .new) { exclude := some [['2']] } 1 w := by
      rintro w ⟨k3, k4⟩
      have k5 : ∀ e ∈ (GraphCommand.applyCommands exTrapped .new).edges, e.src = 1 → e.dst = 2 := by decide
      have k6 := k5 _ ((hadj _ _).1 k3) rfl
      have := (k4 _ _ rfl (hp 2 (.inl rfl))).2
      simp only at k6
      subst k6
      simp at this
    rcases Relation.ReflTransGen.cases_head k1 with rfl | ⟨w, k3, _⟩
    · obtain ⟨w, k3, _⟩ := Relation.TransGen.head'_iff.1 k2
      exact hstep w k3
    · exact hstep w k3
  · refine h4.2 ⟨1, .refl, ?_⟩
    have hst : ∀ x y : VertexId, x ≠ 4 → y ≠ 4 → (⟨x, y⟩ : Edge) ∈ (GraphCommand.applyCommands exTrapped .new).edges →
        AvoidingStep (GraphCommand.applyCommands exTrapped .new) { exclude := some [['4']] } x y := by
      intro x y hx hy he
      refine ⟨(hadj _ _).2 he, ?_⟩
      rintro t vs ⟨⟩ k1
      have := (parseVertexIdList_iff.2 k1).symm.trans (parseVertexIdList_iff.2 (hp 4 (.inr rfl)))
      cases this
      simp [hx, hy]
    exact .tail (.tail (.single (hst 1 2 (by decide) (by decide) (by decide))) (hst 2 3 (by decide) (by decide) (by decide)))
      (hst 3 1 (by decide) (by decide) (by decide))

end GC
