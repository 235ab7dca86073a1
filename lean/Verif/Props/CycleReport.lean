/-
C74: what gc-cycle prints, for each of its actions and any constraint options.
-/
import Verif.Spec.CycleReport
import Verif.Props.Main
namespace GC
namespace Main
open Text Store Args DirectedGraph

theorem shown_showNat (n : Nat) : Shown (GcCycle.showNat n) n := fun h => decimal_showNat h

theorem listing_showList {l : List VertexId} (h : l ≠ []) : Listing l (GcCycle.showList l) := by
  induction l with
  | nil => exact absurd rfl h
  | cons v l ih =>
    cases l with
    | nil => exact .one (decimal_showId v)
    | cons w l => exact .cons (decimal_showId v) (ih (by simp))

theorem bracketed_format {c : Cycle} (h : c.vertices ≠ []) : Bracketed c.vertices (GcCycle.formatCycle c) :=
  ⟨_, listing_showList h, rfl⟩

theorem bracketed_all {cs : List Cycle} (h : ∀ c ∈ cs, c.vertices ≠ []) :
    List.Forall₂ Bracketed (cs.map (·.vertices)) (cs.map GcCycle.formatCycle) := by
  induction cs with
  | nil => exact .nil
  | cons c cs ih => exact .cons (bracketed_format (h c (by simp))) (ih fun d hd => h d (by simp [hd]))

/-- The cycles found by the enumeration. -/
theorem found_drains {order : DirectedGraph → DirectedGraph} (ho : IsOrder order) {g : DirectedGraph} (hb : Built g) :
    ∃ (cs : List Cycle) (s : VertexId), Drains (CycleIter.next (order g)) (CycleIter.cycleIter (order g)) cs ∧ cs.Nodup ∧
      (∀ v, g.containsVertex v = true → g.containsVertex s = true) ∧ ∀ c, c ∈ cs ↔ Found g s c.vertices := by
  obtain ⟨hob, hadj, hver, hcount⟩ := adj_order ho hb
  have ha := adj_order_eq ho hb
  have hroot : ∀ r, IsRoot (order g) r ↔ IsRoot g r := fun r =>
    ⟨fun hr => ⟨(hver r).1 hr.1, fun u hu => hr.2 u ((hadj u r).2 hu)⟩, fun hr => ⟨(hver r).2 hr.1, fun u hu => hr.2 u ((hadj u r).1 hu)⟩⟩
  have hreach : ∀ u v, Reach (order g) u v ↔ Reach g u v := fun u v => by unfold Reach; rw [ha]
  obtain ⟨cs, h1, h2, h3⟩ := cycle_drains hob.wf
  obtain ⟨cs', h10, h11⟩ := C49_exact (order g) hob
  cases (show Returns (CycleAlg.takeAll (order g)) cs from h1.collect).unique h10
  have hhead : ∀ s, (order g).headOption = some s → (order g).containsVertex s = true := by
    intro s hs
    exact mem_vertices.1 (List.mem_of_head? hs)
  have hnone : (order g).headOption = none → ∀ v, (order g).containsVertex v ≠ true := by
    intro hs v hv
    have hv := mem_vertices.2 hv
    have : (order g).vertices = [] := List.head?_eq_none_iff.1 hs
    rw [this] at hv
    cases hv
  refine ⟨cs, (order g).headOption.getD 0, h1, h2, ?_, fun c => ⟨fun hc => ?_, fun hc => ?_⟩⟩
  · intro v hv
    cases hs : (order g).headOption with
    | none => exact absurd ((hver v).2 hv) (hnone hs v)
    | some s => exact (hver s).1 (hhead s hs)
  · have h4 := (h3 c).1 hc
    refine ⟨(cycle_order ho hb _).1 h4.1, h4.2.1, ?_⟩
    obtain ⟨r, v, hr, hv, hrv⟩ := (h11 c.vertices h4.1).1 ⟨c, hc, List.IsRotated.refl _⟩
    refine ⟨r, v, ?_, hv, (hreach _ _).1 hrv⟩
    rcases hr with hr | ⟨hr, hs⟩
    · exact .inl ((hroot r).1 hr)
    · exact .inr ⟨fun r' hr' => hr r' ((hroot r').2 hr'), by rw [hs]; rfl⟩
  · obtain ⟨hc1, hc2, r, v, hr, hv, hrv⟩ := hc
    have hcyc := (cycle_order ho hb _).2 hc1
    obtain ⟨d, hd, hrot⟩ := (h11 c.vertices hcyc).2 (by
      refine ⟨r, v, ?_, hv, (hreach _ _).2 hrv⟩
      rcases hr with hr | ⟨hr, hs⟩
      · exact .inl ((hroot r).2 hr)
      · refine .inr ⟨fun r' hr' => hr r' ((hroot r').1 hr'), ?_⟩
        cases hs' : (order g).headOption with
        | none => exact absurd (mem_vertices.1 (hcyc.vertex hob.wf hv)) (hnone hs' v)
        | some s => rw [hs, hs']; rfl)
    have h4 := (h3 d).1 hd
    have := canonical_unique h4.1.2.1 hrot h4.2.1 hc2
    have e : d = c := by cases c; cases d; simp_all
    exact e ▸ hd

theorem found_nonempty {g : DirectedGraph} {s : VertexId} {c : List VertexId} (h : Found g s c) : c ≠ [] := h.1.1

/-- C74: whatever the action and the constraint options of gc-cycle are, it ends, and prints what `CycleReport` says about the stored graph.
`s` is some vertex of the graph; it depends on the hash iteration order. -/
theorem C74_report (nd : Char → Bool) (order : DirectedGraph → DirectedGraph) (ho : IsOrder order) (root : FPath) (fs : FS)
    (g : DirectedGraph) (h : loadGraph nd root fs = .done (.ok g)) (act : GcCycle.Actions) (hact : OneAction act) (a : CycleArgs) :
    ∃ lines s, Returns (gcCycle nd order root act a fs) lines ∧ (∀ v, g.containsVertex v = true → g.containsVertex s = true) ∧
      CycleReport g s a act lines := by
  have hb := (loadGraph_built h).1
  obtain ⟨cs, s, h1, h2, h3, h4⟩ := found_drains ho hb
  have hf : Drains (GcCycle.next (order g) (cycleConstraints a)) (CycleIter.cycleIter (order g))
      (cs.filter fun c => GcCycle.check c (cycleConstraints a)) := h1.filter _
  generalize hsel : (cs.filter fun c => GcCycle.check c (cycleConstraints a)) = sel at hf
  have hmem : ∀ c, c ∈ sel ↔ Found g s c.vertices ∧ CycleAccepts a ⟨⟨c.vertices⟩, (c.vertices.length : Int)⟩ := by
    intro c
    rw [← hsel, List.mem_filter, h4]
    unfold GcCycle.check
    rw [C23_cycle_accepts]
    exact Iff.rfl
  have hinj : Function.Injective (fun c : Cycle => c.vertices) := by rintro ⟨_⟩ ⟨_⟩ e; simp_all
  have hs : Selection g s a (sel.map (·.vertices)) := by
    refine ⟨(hsel ▸ h2.filter _ : sel.Nodup).map hinj, fun c => ?_⟩
    constructor
    · intro hc
      obtain ⟨d, hd, rfl⟩ := List.mem_map.1 hc
      exact (hmem d).1 hd
    · intro hc
      exact List.mem_map.2 ⟨⟨c⟩, (hmem ⟨c⟩).2 hc, rfl⟩
  have hne : ∀ c ∈ sel, c.vertices ≠ [] := fun c hc => found_nonempty ((hmem c).1 hc).1
  rcases hact with rfl | rfl | rfl | rfl | rfl | rfl | rfl | ⟨t, rfl⟩
  · refine ⟨_, s, gcCycle_of h (Returns.bind (h1.consume _) (.ret _)), h3, ?_⟩
    cases hm : (minByKey id (cs.map Cycle.len)) with
    | none =>
      refine .girth_none fun c hc => ?_
      have : cs = [] := by simpa using minByKey_eq_none.1 hm
      have := (h4 ⟨c⟩).2 hc
      simp_all
    | some n =>
      obtain ⟨h5, h6⟩ := minByKey_some hm
      obtain ⟨c, hc, e⟩ := List.mem_map.1 h5
      have hn : n ≠ 0 := by
        rintro rfl
        exact found_nonempty ((h4 c).1 hc) (List.length_eq_zero_iff.1 e)
      rcases n with _ | n
      · exact absurd rfl hn
      · refine .girth (c := c.vertices) ((h4 c).1 hc) (fun d hd => ?_) ?_
        · have := h6 _ (List.mem_map.2 ⟨⟨d⟩, (h4 ⟨d⟩).2 hd, rfl⟩)
          exact (le_of_eq e).trans this
        · rw [show c.vertices.length = n + 1 from e]
          exact shown_showNat _
  · obtain ⟨t, h5, h6⟩ := C74_hamiltonian nd order ho root fs g h a
    refine ⟨_, s, h5, h3, ?_⟩
    rcases h6 with ⟨rfl, h6⟩ | ⟨c, rfl, h6⟩
    · exact .hamiltonian_none h6
    · exact .hamiltonian h6 (bracketed_format h6.1.1)
  · refine ⟨_, s, gcCycle_of h (Returns.bind (hf.consume _) (.ret _)), h3, ?_⟩
    have := shown_showNat sel.length
    exact .count hs (by rw [List.length_map]; exact this)
  · refine ⟨_, s, gcCycle_of h (Returns.bind (hf.consume _) (.ret _)), h3, ?_⟩
    cases hm : minByKey Cycle.len sel with
    | none =>
      cases minByKey_eq_none.1 hm
      exact .shortest_none hs
    | some c =>
      obtain ⟨h5, h6⟩ := minByKey_some hm
      refine .shortest hs (List.mem_map.2 ⟨c, h5, rfl⟩) (fun d hd => ?_) (bracketed_format (hne c h5))
      obtain ⟨d, hd', rfl⟩ := List.mem_map.1 hd
      exact h6 d hd'
  · refine ⟨_, s, gcCycle_of h (Returns.bind (hf.consume _) (.ret _)), h3, ?_⟩
    cases hm : maxByKey Cycle.len sel with
    | none =>
      cases maxByKey_eq_none.1 hm
      exact .longest_none hs
    | some c =>
      obtain ⟨h5, h6⟩ := maxByKey_some hm
      refine .longest hs (List.mem_map.2 ⟨c, h5, rfl⟩) (fun d hd => ?_) (bracketed_format (hne c h5))
      obtain ⟨d, hd', rfl⟩ := List.mem_map.1 hd
      exact h6 d hd'
  · refine ⟨_, s, gcCycle_of h (Returns.bind (hf.takeN 1) (.ret _)), h3, .head hs ?_⟩
    rw [← List.map_take]
    exact bracketed_all fun c hc => hne c (List.mem_of_mem_take hc)
  · exact ⟨_, s, gcCycle_of h (Returns.bind hf.collect (.ret _)), h3, .all hs (bracketed_all hne)⟩
  · by_cases ht : ∃ n, ArgNat t n
    · obtain ⟨n, ht⟩ := ht
      have e : GcCycle.takeN { takeN := some t } = some n := parseUsize_iff.2 ht
      refine ⟨_, s, gcCycle_of h (out := (sel.take n).map GcCycle.formatCycle) ?_, h3, .takeN ht hs ?_⟩
      · simp only [GcCycle.main, Bool.false_eq_true, if_false, e]
        exact Returns.bind (hf.takeN n) (.ret _)
      · rw [← List.map_take]
        exact bracketed_all fun c hc => hne c (List.mem_of_mem_take hc)
    · rw [not_exists] at ht
      have e : GcCycle.takeN { takeN := some t } = none := by
        show parseUsize t = none
        cases hp : parseUsize t with
        | none => rfl
        | some n => exact absurd (parseUsize_iff.1 hp) (ht n)
      refine ⟨[], s, gcCycle_of h ?_, h3, .takeN_bad ht⟩
      simp only [GcCycle.main, Bool.false_eq_true, if_false, e]
      exact .ret _

/-- `C74_report` for a ring of three vertices and `--count`. -/
example (nd : Char → Bool) : ∃ lines s, Returns (gcCycle nd id [['d']] { count := true } {} (sampleFS "AddEdge 1 2\nAddEdge 2 3\nAddEdge 3 1\n".toList)) lines ∧
    CycleReport (graphOf [.AddEdge 1 2, .AddEdge 2 3, .AddEdge 3 1]) s {} { count := true } lines := by
  obtain ⟨l, s, h1, _, h2⟩ := C74_report nd id isOrder_id [['d']] _ _ (load_sample nd [.AddEdge 1 2, .AddEdge 2 3, .AddEdge 3 1]) { count := true }
    (.inr (.inr (.inl rfl))) {}
  exact ⟨l, s, h1, h2⟩

/-- A stored graph with two cycles, of which `max-score 4` keeps the one of length 4, and a number of cycles that is no number. -/
example (nd : Char → Bool) : let g := GraphCommand.applyCommands [.AddEdge 1 2, .AddEdge 2 3, .AddEdge 3 1, .AddEdge 2 4, .AddEdge 4 3] .new
    loadGraph nd [['d']] (sampleFS "AddEdge 1 2\nAddEdge 2 3\nAddEdge 3 1\nAddEdge 2 4\nAddEdge 4 3\n".toList) = .done (.ok g) ∧
    OneAction { all := true } ∧ GcCycle.main g { all := true } { maxScore := some ['4'] } 30 = .done ["[1, 2, 4, 3]".toList] ∧
    OneAction { takeN := some ['x'] } ∧ GcCycle.main g { takeN := some ['x'] } {} 30 = .done [] :=
  ⟨load_sample nd [.AddEdge 1 2, .AddEdge 2 3, .AddEdge 3 1, .AddEdge 2 4, .AddEdge 4 3], by simp [OneAction], by decide +kernel,
    by simp [OneAction], by decide +kernel⟩

end Main
end GC
