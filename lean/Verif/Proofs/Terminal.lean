/-
Lemmas about the binaries as processes at a terminal.
-/
import Verif.Spec.Terminal
import Verif.Props.CycleReport
import Verif.Props.Manual
import Verif.Props.Announce
import Verif.Props.Stream
import Verif.Props.Frame
import Verif.Props.Output
namespace GC
namespace Terminal
open Text Store Cli Clap Args Main DirectedGraph GC.Stream GC.Stream.Job

variable {H : ScoredHeap} {nd : Char → Bool} {order : DirectedGraph → DirectedGraph} {root : FPath} {fs : FS} {g : DirectedGraph}

/-! ### Queries -/

/-- A process that has printed a whole text, or that has panicked. -/
theorem job_cases {j : Job Unit} {p : Prog Text} (hp : Prints j p) {x : Ended} (h : Returns (ofJob j fs) x) :
    x.fs = fs ∧ ((x.code = 0 ∧ Returns p x.printed) ∨ (x.code = 101 ∧ Panics p ∧ ∃ n, (j n).outcome = .panicked ∧ (j n).pieces.flatten = x.printed)) := by
  obtain ⟨N, hN⟩ := h
  have key : ∀ n, N ≤ n → x.fs = fs ∧ ((x.code = 0 ∧ p n = .done x.printed) ∨
      (x.code = 101 ∧ p n = .panicked ∧ (j n).outcome = .panicked ∧ (j n).pieces.flatten = x.printed)) := by
    intro n hn
    have e := hN n hn
    obtain ⟨h1, h2, h3⟩ := hp n
    unfold ofJob at e
    rcases hj : j n with ⟨ps, _ | _ | _⟩ <;> rw [hj] at e h1 h2 h3
    · cases e
    · cases e
      refine ⟨rfl, .inr ⟨rfl, ?_, rfl, rfl⟩⟩
      cases hq : p n with
      | running => exact nomatch h3 hq
      | panicked => rfl
      | done t => exact nomatch (h1 t hq).1
    · cases e
      refine ⟨rfl, .inl ⟨rfl, ?_⟩⟩
      cases hq : p n with
      | running => exact nomatch h3 hq
      | panicked => exact nomatch h2 hq
      | done t => rw [show t = ps.flatten from (h1 t hq).2.1.symm]
  obtain ⟨h0, h⟩ := key N (Nat.le_refl _)
  refine ⟨h0, ?_⟩
  rcases h with ⟨hc, _⟩ | ⟨hc, _, ho, hps⟩
  · refine .inl ⟨hc, N, fun n hn => ?_⟩
    rcases (key n hn).2 with ⟨_, h⟩ | ⟨hc', _⟩
    · exact h
    · rw [hc] at hc'; cases hc'
  · refine .inr ⟨hc, ⟨N, fun n hn => ?_⟩, N, ho, hps⟩
    rcases (key n hn).2 with ⟨hc', _⟩ | ⟨_, h, _⟩
    · rw [hc] at hc'; cases hc'
    · exact h

/-- A process that always panics at once. -/
theorem job_silent {j : Job Unit} (hj : ∀ n, j n = ⟨[], .panicked⟩) {x : Ended} (h : Returns (ofJob j fs) x) :
    x.fs = fs ∧ x.printed = [] ∧ x.code = 101 := by
  obtain ⟨N, hN⟩ := h
  have e := hN N (Nat.le_refl _)
  unfold ofJob at e
  rw [hj N] at e
  cases e
  exact ⟨rfl, rfl, rfl⟩

theorem load_panics (h : ∀ g, loadGraph nd root fs ≠ .done (.ok g)) (n : Nat) : lift (loadedGraph nd order root fs) n = ⟨[], .panicked⟩ := by
  unfold lift loadedGraph Prog.lift
  cases hr : loadGraph nd root fs with
  | running => exact absurd hr loadGraph_not_running
  | panicked => rfl
  | done r =>
    cases r with
    | error e => rfl
    | ok g => exact absurd hr (h g)

theorem endpoint_job {α : Type} {t : Text} {v : VertexId} (hv : ArgId t v) (f : VertexId → Job α) (n : Nat) :
    bind (lift (Prog.lift (endpoint t))) f n = f v n := by
  rw [bind_done (ps := []) (a := v) (by unfold lift Prog.lift; rw [endpoint_ok hv])]
  rfl

theorem endpoint_job_panics {α : Type} {t : Text} (hv : ∀ v, ¬ ArgId t v) (f : VertexId → Job α) (n : Nat) :
    bind (lift (Prog.lift (endpoint t))) f n = ⟨[], .panicked⟩ :=
  bind_panicked (by unfold lift Prog.lift; rw [endpoint_fails hv])

/-- Without a graph, or without two vertices, nothing is printed. -/
theorem endpoints_panic {t t' : Text} (f : VertexId → VertexId → DirectedGraph → Job Unit)
    (h : (∀ v, ¬ ArgId t v) ∨ (∀ v, ¬ ArgId t' v) ∨ ∀ g, loadGraph nd root fs ≠ .done (.ok g)) (n : Nat) :
    bind (lift (Prog.lift (endpoint t))) (fun s => bind (lift (Prog.lift (endpoint t'))) fun e =>
      bind (lift (loadedGraph nd order root fs)) (f s e)) n = ⟨[], .panicked⟩ := by
  by_cases h1 : ∃ v, ArgId t v
  · obtain ⟨s, hs⟩ := h1
    rw [endpoint_job hs]
    by_cases h2 : ∃ v, ArgId t' v
    · obtain ⟨e, he⟩ := h2
      rw [endpoint_job he]
      rcases h with h | h | h
      · exact absurd hs (h s)
      · exact absurd he (h e)
      · exact bind_panicked (load_panics h n)
    · exact endpoint_job_panics (fun v hv => h2 ⟨v, hv⟩) _ n
  · exact endpoint_job_panics (fun v hv => h1 ⟨v, hv⟩) _ n

theorem hasVertices (hb : Built g) : HasVertices g g.vertexCount :=
  ⟨g.vertices, hb.wf.nodup_vertices, fun _ => mem_vertices, (C02_counts g hb).1 _ hb.wf.nodup_vertices fun _ => mem_vertices⟩

theorem hasVertices_unique (hb : Built g) {n : Nat} (h : HasVertices g n) : n = g.vertexCount := by
  obtain ⟨l, h1, h2, rfl⟩ := h
  exact ((C02_counts g hb).1 l h1 h2).symm

theorem reportedEdges (hb : Built g) : ReportedEdges g g.edgeCount := by
  refine ⟨g.edges.filter (fun e => e.src ≠ e.dst), g.edges.filter (fun e => e.src = e.dst), hb.wf.nodup_edges.filter _,
    hb.wf.nodup_edges.filter _, fun e => ?_, fun e => ?_, ?_⟩
  · rw [List.mem_filter, hb.wf.mem_edges]
    simp
  · rw [List.mem_filter, hb.wf.mem_edges]
    simp
  · rw [C04_edge_count_formula g hb]
    omega

theorem topo_report (ho : IsOrder order) (h : loadGraph nd root fs = .done (.ok g)) :
    ∃ t, Returns (Main.gcTopoSort nd order root fs) t ∧ TopoReport g t := by
  have hb := (loadGraph_built h).1
  obtain ⟨hob, hadj, hver, _⟩ := adj_order ho hb
  have hloop : ∀ u, OnlyDeadEndLoop (order g) u ↔ OnlyDeadEndLoop g u := fun u => by
    unfold OnlyDeadEndLoop
    rw [adj_order_eq ho hb]
  obtain ⟨r, h1, h2⟩ := C39_exact (order g) hob
  refine ⟨_, gcTopoSort_of h h1, ?_⟩
  cases r with
  | some l =>
    have e : topoText (some l) = line ("Topological order: ".toList ++ l.flatMap fun v => showId v ++ [' ']) := rfl
    rw [e]
    rcases C38_order_any_graph (order g) hob l h1 with ⟨k1, k2, k3⟩ | ⟨u, k1, k2, k3, k4⟩
    · exact .order ⟨k1, fun v => (k2 v).trans (hver v), fun u v huv => k3 u v ((hadj u v).2 huv)⟩ (printedIds ' ' l)
    · exact .dead_end ((hloop u).1 k1) k2 (fun v => by rw [k3 v, hver v]) (fun a b hab => k4 a b ((hadj a b).2 hab)) (printedIds ' ' l)
  | none =>
    have h3 : ¬ (Acyclic (order g) ∨ ∃ u, OnlyDeadEndLoop (order g) u) := fun h => nomatch h2.2 h
    have e : topoText none = line "Graph is not a DAG.".toList := by decide +kernel
    rw [e]
    exact .circular (fun ha => h3 (.inl ((acyclic_order ho hb).2 ha))) fun u hu => h3 (.inr ⟨u, (hloop u).2 hu⟩)

theorem desc_report (h : loadGraph nd root fs = .done (.ok g)) (path : Text) :
    ∃ d, Store.gcDesc nd root fs = .done d ∧ DescReport g path (descText path d) := by
  have hb := (loadGraph_built h).1
  obtain ⟨d, h1, h2, _, h4, h5, h6, h7⟩ := C67_desc_partial nd root fs g h
  obtain ⟨d', h1', h8⟩ := C67_edges_exact nd root fs g h
  rw [h1] at h1'
  cases h1'
  rw [← C04_edge_count_formula g hb] at h8
  rw [← (C02_counts g hb).1 _ hb.wf.nodup_vertices fun _ => mem_vertices] at h2
  refine ⟨d, h1, g.vertexCount, g.edgeCount, GcCycle.showNat d.vertices, GcCycle.showNat d.edges, showExtreme d.minId, showExtreme d.maxId,
    hasVertices hb, reportedEdges hb, h2 ▸ shown_showNat _, h8 ▸ shown_showNat _, ?_, ?_, ?_⟩
  · cases hm : d.minId with
    | none => exact .inr ⟨h4.1 hm, rfl⟩
    | some m => exact .inl ⟨⟨m⟩, (h6 m hm).1, (h6 m hm).2, decimal_showFuel m.toNat_lt⟩
  · cases hm : d.maxId with
    | none => exact .inr ⟨h5.1 hm, rfl⟩
    | some m => exact .inl ⟨⟨m⟩, (h7 m hm).1, (h7 m hm).2, decimal_showFuel m.toNat_lt⟩
  · unfold descText line
    rw [show "\nVertices: ".toList = '\n' :: "Vertices: ".toList by decide +kernel,
      show "\nEdges: ".toList = '\n' :: "Edges: ".toList by decide +kernel,
      show "\nMin vertex id: ".toList = '\n' :: "Min vertex id: ".toList by decide +kernel,
      show "\nMax vertex id: ".toList = '\n' :: "Max vertex id: ".toList by decide +kernel]
    generalize "Path: ".toList = a1
    generalize "Vertices: ".toList = a2
    generalize "Edges: ".toList = a3
    generalize "Min vertex id: ".toList = a4
    generalize "Max vertex id: ".toList = a5
    simp only [List.append_assoc, List.cons_append, List.nil_append]

/-- gc-csp, when the search breaks down, has printed the constraints. -/
theorem csp_pieces (h : loadGraph nd root fs = .done (.ok g)) {t t' : Text} {s e : VertexId} (hs : ArgId t s) (he : ArgId t' e) (a : CspArgs)
    {n : Nat} (hp : (Stream.gcCsp H nd order root t t' a fs n).outcome = .panicked) :
    (Stream.gcCsp H nd order root t t' a fs n).pieces.flatten = constraintsText (cspConstraints a) := by
  unfold Stream.gcCsp at hp ⊢
  have hload : lift (loadedGraph nd order root fs) n = ⟨[], .done (order g)⟩ := by
    unfold lift loadedGraph Prog.lift
    rw [h]
    rfl
  rw [endpoint_job hs, endpoint_job he, bind_done hload, bind_done (announce_eq _ n)] at hp ⊢
  dsimp only at hp ⊢
  cases hr : AStar.gcCsp H (order g) s e (cspConstraints a) n with
  | running =>
    rw [bind_running (p := lift _) (ps := []) (by unfold lift; rw [hr])] at hp
    cases hp
  | panicked =>
    rw [bind_panicked (p := lift _) (ps := []) (by unfold lift; rw [hr])]
    rw [List.nil_append, List.append_nil, announce_text]
  | done r =>
    rw [bind_done (p := lift _) (ps := []) (a := r) (by unfold lift; rw [hr])] at hp
    exact nomatch hp.symm.trans ((prints_cspAnswer s e r n).1 _ rfl).1

theorem answers (ho : IsOrder order) {S : Option SetGraph} (hS : Stored nd root fs S) (q : Query)
    (hq : ∀ act a, q = .cycle act a → OneAction act) {x : Ended} (hr : Returns (ofJob (q.job H nd order root fs) fs) x) :
    x.fs = fs ∧ Answers q S x.printed x.code := by
  have hx := job_cases (prints_query q) hr
  refine ⟨hx.1, ?_⟩
  cases S with
  | none =>
    have hS : loadGraph nd root fs = .done (.error (.io .notFound)) := hS
    have hn : ∀ g, loadGraph nd root fs ≠ .done (.ok g) := fun g h => by rw [hS] at h; cases h
    have hj : ∀ n, q.job H nd order root fs n = ⟨[], .panicked⟩ := by
      intro n
      cases q with
      | topoSort => exact bind_panicked (load_panics hn n)
      | shortPath s e => exact endpoints_panic _ (.inr (.inr hn)) n
      | csp s e a => exact endpoints_panic _ (.inr (.inr hn)) n
      | cycle act a => exact bind_panicked (load_panics hn n)
      | desc p =>
        refine bind_panicked ?_
        unfold lift Prog.lift Store.gcDesc
        rw [hS]
        rfl
    obtain ⟨_, h1, h2⟩ := job_silent hj hr
    rw [h1, h2]
    exact .no_graph
  | some G =>
    obtain ⟨g, hg, rfl⟩ := hS
    have hb := (loadGraph_built hg).1
    cases q with
    | topoSort =>
      obtain ⟨t, h1, h2⟩ := topo_report (order := order) ho hg
      rcases hx.2 with ⟨hc, h3⟩ | ⟨_, h3, _⟩
      · rw [hc, h3.unique h1]
        exact .topoSort hb h2
      · exact absurd h3 h1.not_panics
    | shortPath start end_ =>
      by_cases hv : (∀ v, ¬ ArgId start v) ∨ (∀ v, ¬ ArgId end_ v)
      · obtain ⟨_, h1, h2⟩ := job_silent (fun n => endpoints_panic _ (hv.elim .inl fun h => .inr (.inl h)) n) hr
        rw [h1, h2]
        exact .shortPath_invalid hv
      · simp only [not_or, not_forall, not_not] at hv
        obtain ⟨⟨s, hs⟩, e, he⟩ := hv
        by_cases hsize : g.vertexCount < 2 ^ 63
        · obtain ⟨t, h1, h2⟩ := C72_short_path_report H nd order ho root fs g hg hsize start end_ s e hs he
          rcases hx.2 with ⟨hc, h3⟩ | ⟨_, h3, _⟩
          · rw [hc, h3.unique h1]
            exact .shortPath hb hs he h2
          · exact absurd h3 h1.not_panics
        · exact .shortPath_huge hb fun n hn => by rw [hasVertices_unique hb hn]; omega
    | csp start end_ a =>
      by_cases hv : (∀ v, ¬ ArgId start v) ∨ (∀ v, ¬ ArgId end_ v)
      · obtain ⟨_, h1, h2⟩ := job_silent (fun n => endpoints_panic _ (hv.elim .inl fun h => .inr (.inl h)) n) hr
        rw [h1, h2]
        exact .csp_invalid hv
      · simp only [not_or, not_forall, not_not] at hv
        obtain ⟨⟨s, hs⟩, e, he⟩ := hv
        rcases hx.2 with ⟨hc, h3⟩ | ⟨hc, h3, n, h4, h5⟩
        · obtain ⟨report, h6, h7⟩ := C73_exact H nd order ho root fs g hg start end_ s e hs he a _ h3
          rw [hc, h6]
          exact .csp hb hs he (announces a) h7
        · rw [hc, ← h5]
          have := csp_pieces (H := H) (order := order) hg hs he a h4
          unfold Query.job
          rw [this]
          refine .csp_breaks hb hs he (announces a) fun l hl => ?_
          obtain ⟨report, h6, _⟩ := C73_finds H nd order ho root fs g hg start end_ s e hs he a l hl
          exact absurd h3 h6.not_panics
    | cycle act a =>
      obtain ⟨lines, s, h1, h2, h3⟩ := C74_report nd order ho root fs g hg act (hq act a rfl) a
      have h1 : Returns (Query.text H nd order root fs (.cycle act a)) _ := h1.bind (Returns.ret _)
      rcases hx.2 with ⟨hc, h4⟩ | ⟨_, h4, _⟩
      · rw [hc, h4.unique h1]
        exact .cycle hb h2 h3
      · exact absurd h4 h1.not_panics
    | desc path =>
      obtain ⟨d, h1, h2⟩ := desc_report hg path
      have h1 : Returns (Query.text H nd order root fs (.desc path)) (descText path d) := by
        unfold Query.text
        rw [h1]
        exact (Returns.lift_done _).bind (Returns.ret _)
      rcases hx.2 with ⟨hc, h4⟩ | ⟨_, h4, _⟩
      · rw [hc, h4.unique h1]
        exact .desc hb h2
      · exact absurd h4 h1.not_panics

/-! ### Commands that change the graph -/

/-- What a process has done to the graph in a directory: as described, and nothing else. -/
def Kept (nd : Char → Bool) (root : FPath) (fs : FS) (x : Ended) (S : Option SetGraph) : Prop :=
  Holds nd root x.fs S ∧ Untouched root fs x.fs

theorem kept_query {S : Option SetGraph} {x : Ended} (h : Holds nd root fs S) (hx : x.fs = fs) : Kept nd root fs x S := by
  unfold Kept
  rw [hx]
  exact ⟨h, Untouched.refl _ _⟩

theorem build_obeys (c : Circumstances) (ho : IsOrder c.order) {S : Option SetGraph} (hS : Holds nd root fs S) (path : Text) (verbose : Bool) :
    ∃ S', Obeys c (.build path verbose) S S' (ofLines (Output.gcBuild nd c.order root true ⟨fs, [], none⟩)).printed
        (ofLines (Output.gcBuild nd c.order root true ⟨fs, [], none⟩)).code ∧
      Kept nd root fs (ofLines (Output.gcBuild nd c.order root true ⟨fs, [], none⟩)) S' := by
  obtain ⟨S', h1, h2, h3⟩ := exec_effect (.build c.order) ho hS
  have hf := Output.gcBuild_full nd c.order root true fs []
  have hk : Kept nd root fs (ofLines (Output.gcBuild nd c.order root true ⟨fs, [], none⟩)) S' := by
    unfold Kept ofLines
    dsimp only
    rw [show (Output.gcBuild nd c.order root true ⟨fs, [], none⟩).1.fs = (exec nd root (.build c.order) fs).1 from congrArg Prod.fst hf]
    exact ⟨h2, h3⟩
  refine ⟨S', ?_, hk⟩
  have hst := holds_stored hS
  unfold ofLines
  dsimp only
  rw [show (Output.gcBuild nd c.order root true ⟨fs, [], none⟩).2 = (exec nd root (.build c.order) fs).2 from congrArg Prod.snd hf]
  cases S with
  | none =>
    have hst : loadGraph nd root fs = .done (.error (.io .notFound)) := hst
    generalize (exec nd root (.build c.order) fs).2 = e at h1
    cases h1
    unfold Output.gcBuild
    rw [hst]
    exact .build_nothing
  | some G =>
    obtain ⟨g, hg, rfl⟩ := hst
    have hb := (loadGraph_built hg).1
    have hx : (expectOk (saveGraphAsCommands root (c.order g) fs)).2 = (exec nd root (.build c.order) fs).2 := by
      unfold exec Store.gcBuild
      rw [hg]
    generalize (exec nd root (.build c.order) fs).2 = e at h1 hx
    cases h1
    have hl : (Output.gcBuild nd c.order root true ⟨fs, [], none⟩).1.printed =
        ["Vertices: ".toList ++ GcCycle.showNat g.vertexCount, "Edges: ".toList ++ GcCycle.showNat g.edgeCount, "Done.".toList] := by
      unfold Output.gcBuild Output.buildReport
      rw [hg]
      simp only [if_pos, Output.say, Output.seq, Output.onFiles, hx, List.nil_append, List.cons_append]
    rw [hl]
    have := Obeys.build (c := c) (path := path) (verbose := verbose) hb (hasVertices hb) (reportedEdges hb) (shown_showNat _) (shown_showNat _)
    unfold line at this
    simp only [List.flatMap_cons, List.flatMap_nil, List.append_nil, List.append_assoc] at this ⊢
    exact this

theorem clean_obeys (c : Circumstances) {S : Option SetGraph} (hS : Holds nd root fs S) (path : Text) (force silent : Bool) :
    ∃ S', Obeys c (.clean path force silent) S S' (ofLines (Output.gcClean path root force silent c.answer ⟨fs, [], none⟩)).printed
        (ofLines (Output.gcClean path root force silent c.answer ⟨fs, [], none⟩)).code ∧
      Kept nd root fs (ofLines (Output.gcClean path root force silent c.answer ⟨fs, [], none⟩)) S' := by
  obtain ⟨S', h1, h2, h3⟩ := exec_effect (.clean force c.answer) trivial hS
  have hf := Output.gcClean_full path root force silent c.answer fs []
  refine ⟨S', ?_, ?_⟩
  swap
  · unfold Kept ofLines
    dsimp only
    rw [show (Output.gcClean path root force silent c.answer ⟨fs, [], none⟩).1.fs = (exec nd root (.clean force c.answer) fs).1
      from congrArg Prod.fst hf]
    exact ⟨h2, h3⟩
  unfold ofLines
  dsimp only
  rw [show (Output.gcClean path root force silent c.answer ⟨fs, [], none⟩).2 = (exec nd root (.clean force c.answer) fs).2
      from congrArg Prod.snd hf]
  have hx : force = true ∨ SaysYes c.answer → (expectOk (clean root fs)).2 = (exec nd root (.clean force c.answer) fs).2 := by
    intro h
    show _ = (Store.gcClean root force c.answer fs).2
    unfold Store.gcClean
    rw [← saysYes_iff] at h
    rcases h with rfl | h
    · simp
    · rw [h]; simp
  generalize (exec nd root (.clean force c.answer) fs).2 = e at h1 hx
  have hyes : force = true ∨ SaysYes c.answer → (Output.gcClean path root force silent c.answer ⟨fs, [], none⟩) =
      Output.cleanVerbosely path root silent ⟨fs, if force then [] else [cleanQuestion path], none⟩ := by
    intro h
    unfold Output.gcClean Output.confirm
    cases force with
    | true => rfl
    | false =>
      have h := saysYes_iff.2 (h.resolve_left (by simp))
      simp only [Bool.false_eq_true, if_false, Output.say, Output.seq, h, if_true, List.nil_append]
      rfl
  have hpr : (if force then [] else [cleanQuestion path]).flatMap (fun l => l ++ ['\n']) = prompt force (cleanQuestion path) := by
    cases force <;> simp [prompt, line]
  cases h1 with
  | clean h =>
    have hx := hx h
    rw [hyes h]
    have hl : (Output.cleanVerbosely path root silent ⟨fs, if force then [] else [cleanQuestion path], none⟩).1.printed =
        (if force then [] else [cleanQuestion path]) ++ (if silent then [] else [cleanStart path]) ++ (if silent then [] else ["Done.".toList]) := by
      unfold Output.cleanVerbosely
      cases silent <;> simp only [Bool.false_eq_true, if_false, if_true, Output.say, Output.seq, Output.onFiles, Output.skip, hx, List.append_nil] <;> rfl
    rw [hl, List.flatMap_append, List.flatMap_append, hpr]
    have := Obeys.clean (c := c) (path := path) (silent := silent) (G := ‹SetGraph›) h
    cases silent <;> simpa only [exitCode, aloud, line, Bool.false_eq_true, if_false, if_true, List.flatMap_cons, List.flatMap_nil, List.append_nil] using this
  | clean_fails h =>
    have hx := hx h
    rw [hyes h]
    have hl : (Output.cleanVerbosely path root silent ⟨fs, if force then [] else [cleanQuestion path], none⟩).1.printed =
        (if force then [] else [cleanQuestion path]) ++ (if silent then [] else [cleanStart path]) := by
      unfold Output.cleanVerbosely
      cases silent <;> simp only [Bool.false_eq_true, if_false, if_true, Output.say, Output.seq, Output.onFiles, Output.skip, hx, List.append_nil] <;> rfl
    rw [hl, List.flatMap_append, hpr]
    have := Obeys.clean_nothing (c := c) (path := path) (silent := silent) h
    cases silent <;> simpa only [exitCode, aloud, line, Bool.false_eq_true, if_false, if_true, List.flatMap_cons, List.flatMap_nil, List.append_nil] using this
  | clean_refused h =>
    have hn : Args.confirmationYesNo c.answer = false := by
      rw [← Bool.not_eq_true, saysYes_iff]; exact h
    have hl : (Output.gcClean path root false silent c.answer ⟨fs, [], none⟩).1.printed = [cleanQuestion path, "Aborting.".toList] := by
      unfold Output.gcClean Output.confirm
      simp only [Bool.false_eq_true, if_false, Output.say, Output.seq, hn, List.nil_append]
      rfl
    rw [hl]
    have := Obeys.clean_refused (c := c) (path := path) (silent := silent) (S := S) h
    simpa only [exitCode, line, List.flatMap_cons, List.flatMap_nil, List.append_nil] using this

theorem sizes_iff {vertexCount : Text} {edgeCount : Option Text} {vc ec : Nat} :
    Random.sizes vertexCount edgeCount = .done (vc, ec) ↔ Sizes vertexCount edgeCount vc ec := by
  unfold Random.sizes Sizes
  simp only [← parseUsize_iff]
  cases hv : parseUsize vertexCount with
  | none => simp [Run.unwrap]
  | some k =>
    simp only [Run.unwrap, Run.bind_done, Option.some.injEq]
    by_cases h3 : k * 3 < 2 ^ 64
    · rw [if_pos h3]
      simp only [Run.done.injEq, Prod.mk.injEq]
      constructor
      · rintro ⟨rfl, rfl⟩
        refine ⟨rfl, h3, ?_⟩
        cases edgeCount with
        | none => exact .inr ⟨by simp, rfl⟩
        | some t =>
          cases ht : parseUsize t with
          | none => exact .inr ⟨fun t' n e => by cases e; rw [ht]; simp, by simp [ht]⟩
          | some n => exact .inl ⟨t, rfl, by simp [ht]⟩
      · rintro ⟨rfl, _, h⟩
        refine ⟨rfl, ?_⟩
        rcases h with ⟨t, rfl, ht⟩ | ⟨h, rfl⟩
        · simp [ht]
        · cases edgeCount with
          | none => rfl
          | some t =>
            cases ht : parseUsize t with
            | none => simp [ht]
            | some n => exact absurd ht (h t n rfl)
    · rw [if_neg h3]
      constructor
      · intro h; cases h
      · rintro ⟨rfl, h, _⟩
        exact absurd h h3

theorem sizes_fails {vertexCount : Text} {edgeCount : Option Text} (h : ∀ vc ec, ¬ Sizes vertexCount edgeCount vc ec) :
    Random.sizes vertexCount edgeCount = .panicked := by
  have hn : ∀ p, Random.sizes vertexCount edgeCount ≠ .done p := fun p hp => h p.1 p.2 (sizes_iff.1 hp)
  unfold Random.sizes at hn ⊢
  cases hv : parseUsize vertexCount with
  | none => rfl
  | some k =>
    rw [hv] at hn
    simp only [Run.unwrap, Run.bind_done] at hn ⊢
    by_cases h3 : k * 3 < 2 ^ 64
    · rw [if_pos h3] at hn
      exact absurd rfl (hn _)
    · exact if_neg h3

theorem generated {rng : Nat → UInt64} {vc ec : Nat} (hvc : vc < 2 ^ 64) (h : Returns (Random.createsRandomDag rng vc ec) (some g)) :
    Generated rng vc ec g.toSet := by
  obtain ⟨g', rounds, e, hb, h1, h2, h3⟩ := Random.C60_exact rng vc ec hvc _ h
  cases e
  obtain ⟨g', e, _, _, _, h4⟩ := Random.C60_dag rng vc ec hvc _ h
  cases e
  exact ⟨rounds, h2, h3, h1.edges, h4⟩

theorem random_obeys (c : Circumstances) (ho : IsOrder c.order) {S : Option SetGraph} (hS : Holds nd root fs S) (path : Text) (force conn : Bool)
    (cyc : Option (List Text)) (vertexCount : Text) (edgeCount : Option Text) {r : Output.State × Exit}
    (hr : Returns (Output.gcRandom c.rng c.order path root force c.answer vertexCount edgeCount ⟨fs, [], none⟩) r) :
    ∃ S', Obeys c (.random path force conn cyc vertexCount edgeCount) S S' (ofLines r).printed (ofLines r).code ∧ Kept nd root fs (ofLines r) S' := by
  by_cases hsz : ∃ vc ec, Sizes vertexCount edgeCount vc ec
  swap
  · have hsz : ∀ vc ec, ¬ Sizes vertexCount edgeCount vc ec := fun vc ec h => hsz ⟨vc, ec, h⟩
    unfold Output.gcRandom at hr
    rw [sizes_fails hsz] at hr
    cases hr.unique (Returns.ret _)
    exact ⟨S, .random_invalid hsz, kept_query hS rfl⟩
  obtain ⟨vc, ec, hsz⟩ := hsz
  unfold Output.gcRandom at hr
  rw [sizes_iff.2 hsz] at hr
  dsimp only at hr
  have hm : Mono (Random.createsRandomDag c.rng vc ec) := Mono.bind (Mono.loop (fun s => by
    unfold Random.randomStep
    split <;> exact Mono.ret _) _) fun _ => Mono.ret _
  obtain ⟨o, h1, h2⟩ := bind_inv hm hr
  cases h2.unique (Returns.ret _)
  have hvc : vc < 2 ^ 64 := by have := hsz.2.1; omega
  obtain ⟨g, rfl, hb, _⟩ := Random.C60_dag c.rng vc ec hvc o h1
  have hgen := generated hvc h1
  obtain ⟨S', k1, k2, k3⟩ := exec_effect (.random g c.order force c.answer) ⟨hb, ho⟩ hS
  have hf := Output.randomFinish_full c.order path root force c.answer fs [] (some g)
  refine ⟨S', ?_, ?_⟩
  swap
  · unfold Kept ofLines
    dsimp only
    rw [show (Output.randomFinish c.order path root force c.answer ⟨fs, [], none⟩ (some g)).1.fs =
      (exec nd root (.random g c.order force c.answer) fs).1 from congrArg Prod.fst hf]
    exact ⟨k2, k3⟩
  unfold ofLines
  dsimp only
  rw [show (Output.randomFinish c.order path root force c.answer ⟨fs, [], none⟩ (some g)).2 =
      (exec nd root (.random g c.order force c.answer) fs).2 from congrArg Prod.snd hf]
  generalize (exec nd root (.random g c.order force c.answer) fs).2 = e at k1
  have hyes : force = true ∨ SaysYes c.answer → (Output.randomFinish c.order path root force c.answer ⟨fs, [], none⟩ (some g)).1.printed.flatMap
      (fun l => l ++ ['\n']) = prompt force (randomQuestion path) := by
    intro h
    unfold Output.randomFinish Output.confirm
    cases force with
    | true => rfl
    | false =>
      have h := saysYes_iff.2 (h.resolve_left (by simp))
      simp only [Bool.false_eq_true, if_false, Output.say, Output.seq, Output.onFiles, h, if_true, List.nil_append, List.flatMap_cons,
        List.flatMap_nil, List.append_nil]
      rfl
  cases k1 with
  | random h =>
    rw [hyes h]
    exact .random hsz h hgen
  | random_fails h =>
    rw [hyes h]
    exact .random_nothing hsz h
  | random_refused h =>
    have hn : Args.confirmationYesNo c.answer = false := by
      rw [← Bool.not_eq_true, saysYes_iff]; exact h
    have hl : (Output.randomFinish c.order path root false c.answer ⟨fs, [], none⟩ (some g)).1.printed =
        [randomQuestion path, "Aborting.".toList] := by
      unfold Output.randomFinish Output.confirm
      simp only [Bool.false_eq_true, if_false, Output.say, Output.seq, hn, List.nil_append]
      rfl
    rw [hl]
    have := Obeys.random_refused (c := c) (path := path) (conn := conn) (cyc := cyc) (S := S) hsz h
    simpa only [exitCode, line, List.flatMap_cons, List.flatMap_nil, List.append_nil] using this

/-! ### Lines -/

/-- The path of an invocation. -/
def pathOf : Invocation → Text
  | .init p | .add p _ | .delete p _ _ | .build p _ | .clean p _ _ | .random p _ _ _ _ _ | .query p _ => p

theorem pathOf_asks (t : Tool) (us : List Use) : pathOf (asks t us) = namedPath us := by cases t <;> rfl

theorem invoke_obeys {dir : Text → FPath} (c : Circumstances) (ho : IsOrder c.order) (i : Invocation) (hb : ∀ p v, i ≠ .build p v)
    (hq : ∀ p act a, i = .query p (.cycle act a) → OneAction act) {S : Option SetGraph} (hS : Holds nd (dir (pathOf i)) fs S) {x : Ended}
    (hr : Returns (invoke nd dir c fs i) x) :
    ∃ S', Obeys c i S S' x.printed x.code ∧ Kept nd (dir (pathOf i)) fs x S' := by
  cases i with
  | init path =>
    cases hr.unique (Returns.ret _)
    obtain ⟨S', h1, h2⟩ := exec_effect .init trivial hS
    exact ⟨S', .init h1, h2⟩
  | add path a =>
    cases hr.unique (Returns.ret _)
    obtain ⟨S', h1, h2⟩ := exec_effect (.add a) trivial hS
    exact ⟨S', .add h1, h2⟩
  | delete path vertex edge =>
    cases hr.unique (Returns.ret _)
    obtain ⟨S', h1, h2⟩ := exec_effect (.delete vertex edge) trivial hS
    exact ⟨S', .delete h1, h2⟩
  | build path verbose => exact absurd rfl (hb path verbose)
  | clean path force silent =>
    cases hr.unique (Returns.ret _)
    exact clean_obeys c hS path force silent
  | random path force conn cyc vertexCount edgeCount =>
    have hm : Mono (Output.gcRandom c.rng c.order path (dir path) force c.answer vertexCount edgeCount ⟨fs, [], none⟩) := by
      unfold Output.gcRandom
      split
      · exact Mono.bind (Mono.bind (Mono.loop (fun s => by
          unfold Random.randomStep
          split <;> exact Mono.ret _) _) fun _ => Mono.ret _) fun _ => Mono.ret _
      · exact Mono.ret _
    obtain ⟨r, h1, h2⟩ := bind_inv hm hr
    cases h2.unique (Returns.ret _)
    exact random_obeys c ho hS path force conn cyc vertexCount edgeCount h1
  | query path q =>
    obtain ⟨h1, h2⟩ := answers ho (holds_stored hS) q (fun act a e => hq path act a (by rw [e])) hr
    exact ⟨S, .query h2, kept_query hS h1⟩

theorem own_of_untouched {fs' : FS} (h : Untouched root fs fs') (q : FPath) : Own root q ∨ fs' q = fs q ∨ q <+: root ∧ fs q = none ∧ fs' q = some .dir := by
  by_cases h1 : Own root q
  · exact .inl h1
  · refine .inr (h.1 q (fun e => h1 (.inl e)) fun e => h1 (.inr e))

/-- The graph in a directory is not affected by what is done to the graph in another one. -/
theorem holds_apart {fs' : FS} {r r' : FPath} (ha : Apart r r') (hu : OnlyOwn r' fs fs') {S : Option SetGraph} (h : Holds nd r fs S) :
    Holds nd r fs' S := by
  have hown : ∀ q, Own r q → fs' q = fs q := fun q hq => hu.own_eq ha hq
  cases S with
  | none =>
    obtain ⟨h1, h2, h3⟩ := h
    refine ⟨hu.dirPossible (.inr ha) h1, fun q hq => ?_, ?_⟩
    · rw [hown q (.inr hq)]; exact h2 q hq
    · rw [hown _ (own_lock r)]; exact h3
  | some G =>
    obtain ⟨⟨h1, h2, h3⟩, c, g, h4, h5⟩ := h
    refine ⟨⟨fun q hq => ?_, ?_, ?_⟩, c, g, ?_, h5⟩
    · by_cases ho : Own r q
      · rw [hown q ho]; exact h1 q hq
      · rcases hu q with h | h | ⟨_, h, _⟩
        · exfalso
          rcases prefix_graph hq with rfl | hq'
          · exact ho (own_root r)
          · exact ha.symm.own_way h hq'
        · rw [h]; exact h1 q hq
        · rw [h1 q hq] at h; cases h
    · unfold FileAt; rw [hown _ (own_command r)]; exact h2
    · rw [hown _ (own_lock r)]; exact h3
    · unfold Content
      rw [hown _ (own_command r)]; exact h4

theorem OnlyThere.refl (D : FPath → Prop) (fs : FS) : OnlyThere D fs fs := fun _ => .inl rfl

theorem OnlyThere.trans {D : FPath → Prop} {a b c : FS} (h1 : OnlyThere D a b) (h2 : OnlyThere D b c) : OnlyThere D a c := by
  intro q
  rcases h1 q with e1 | ⟨r, hr, h | ⟨p, n, d⟩⟩
  · rcases h2 q with e2 | ⟨r, hr, h | ⟨p, n, d⟩⟩
    · exact .inl (e2.trans e1)
    · exact .inr ⟨r, hr, .inl h⟩
    · exact .inr ⟨r, hr, .inr ⟨p, e1 ▸ n, d⟩⟩
  · exact .inr ⟨r, hr, .inl h⟩
  · rcases h2 q with e2 | ⟨r', hr', h | ⟨p', n', d'⟩⟩
    · exact .inr ⟨r, hr, .inr ⟨p, n, e2.trans d⟩⟩
    · exact .inr ⟨r', hr', .inl h⟩
    · rw [d] at n'; cases n'

theorem onlyThere_of {D : FPath → Prop} (hD : D root) {fs' : FS} (h : Untouched root fs fs') : OnlyThere D fs fs' := by
  intro q
  rcases own_of_untouched h q with h | h | h
  · exact .inr ⟨root, hD, .inl h⟩
  · exact .inl h
  · exact .inr ⟨root, hD, .inr h⟩

/-- What a line does. -/
theorem process_does {dir : Text → FPath} {D : FPath → Prop} (hD : Separate D) (l : Entry) (ho : IsOrder l.now.order) (hl : Within dir D l)
    (W : FPath → Option SetGraph) (hW : ∀ r, D r → Holds nd r fs (W r)) {x : Ended} (hr : Returns (process nd dir l fs) x) :
    ∃ W', Does dir l W W' x.printed x.code ∧ (∀ r, D r → Holds nd r x.fs (W' r)) ∧ OnlyThere D fs x.fs := by
  by_cases hin : ∃ us, Manual.ByManual l.tool l.words us
  · obtain ⟨us, hin⟩ := hin
    have hd := hl us hin
    have hm := hin
    replace hin := (Manual.byManual_iff _ _ _).1 hin
    have hS := hW _ hd
    have key : ∃ S', Obeys l.now (asks l.tool us) (W (dir (namedPath us))) S' x.printed x.code ∧ Kept nd (dir (namedPath us)) fs x S' := by
      by_cases ht : l.tool = .build
      · unfold process at hr
        rw [ht] at hr
        have hin' := hin
        rw [ht] at hin'
        rw [C116_asks_build _ us hin'.1 hin'.2] at hr
        dsimp only [invoke] at hr
        cases hr.unique (Returns.ret _)
        rw [ht]
        exact build_obeys l.now ho hS (namedPath us) (used us "verbose")
      · have hc := C116_asks l.tool ht l.words us hin.1 hin.2
        unfold process at hr
        rw [hc] at hr
        dsimp only at hr
        rw [← pathOf_asks l.tool us] at hS ⊢
        refine invoke_obeys l.now ho _ (fun p v e => ?_) (fun p act a e => ?_) hS hr
        · revert e ht
          cases l.tool <;> intro ht e <;> first | exact ht rfl | cases e
        · have hcy : l.tool = .cycle := by
            revert e
            cases l.tool <;> intro e <;> first | rfl | cases e
          rw [e] at hc
          rw [hcy] at hc
          exact C116_one_action _ _ _ _ hc
    obtain ⟨S', h1, h2, h3⟩ := key
    refine ⟨_, .obeys hm h1, fun r hr => ?_, onlyThere_of hd h3⟩
    unfold put
    by_cases e : r = dir (namedPath us)
    · rw [if_pos e, e]
      exact h2
    · rw [if_neg e]
      exact holds_apart ((hD r _ hr hd).resolve_left e) (own_of_untouched h3) (hW r hr)
  · have hno : ∀ us, ¬ Manual.ByManual l.tool l.words us := fun us h => hin ⟨us, h⟩
    obtain ⟨e, he⟩ := C116_refused l.tool l.words fun us h1 h2 => hno us ((Manual.byManual_iff _ _ _).2 ⟨h1, h2⟩)
    unfold process at hr
    rw [he] at hr
    refine ⟨W, ?_⟩
    cases e with
    | error =>
      cases hr.unique (Returns.ret _)
      refine ⟨.refused hno fun pre w post us e h1 h2 h3 h4 => Classical.byContradiction fun hk => ?_, hW, OnlyThere.refl _ _⟩
      have := Manual.C122_told_if_asked l.tool pre post w us e h2 h3 (fun a ha k hm => Nat.not_lt.1 fun hlt => hk ⟨a, ha, k, hm, hlt⟩) h4
      rw [← h1, he] at this
      cases this
      cases h4
    | help =>
      cases hr.unique (Returns.ret _)
      obtain ⟨pre, w, post, us, h1, h2, h3, h4⟩ := Manual.C122_told_only_if_asked l.tool l.words .help (by simp) he
      exact ⟨.told h1 h2 h3 h4, hW, OnlyThere.refl _ _⟩
    | version =>
      cases hr.unique (Returns.ret _)
      obtain ⟨pre, w, post, us, h1, h2, h3, h4⟩ := Manual.C122_told_only_if_asked l.tool l.words .version (by simp) he
      exact ⟨.told h1 h2 h3 h4, hW, OnlyThere.refl _ _⟩

theorem mono_process {dir : Text → FPath} (l : Entry) : Mono (process nd dir l fs) := by
  unfold process
  split
  · exact Mono.ret _
  · exact Mono.ret _
  · exact Mono.ret _
  · rename_i i _
    cases i with
    | random path force conn cyc vertexCount edgeCount =>
      refine Mono.bind ?_ fun _ => Mono.ret _
      unfold Output.gcRandom
      split
      · exact Mono.bind (Mono.bind (Mono.loop (fun s => by
          unfold Random.randomStep
          split <;> exact Mono.ret _) _) fun _ => Mono.ret _) fun _ => Mono.ret _
      · exact Mono.ret _
    | query path q =>
      intro n m hnm hne
      have hs := (steady_query (H := l.now.heap) (nd := nd) (order := l.now.order) (root := dir path) (fs := fs) q n m hnm).2
      unfold invoke at hne ⊢
      dsimp only at hne ⊢
      unfold ofJob at hne ⊢
      have : (Query.job l.now.heap nd l.now.order (dir path) fs q n).outcome ≠ .running := by
        intro e
        rcases hj : Query.job l.now.heap nd l.now.order (dir path) fs q n with ⟨ps, o⟩
        rw [hj] at e hne
        dsimp only at e
        subst e
        exact hne rfl
      rw [hs this]
    | init path => exact Mono.ret _
    | add path a => exact Mono.ret _
    | delete path v e => exact Mono.ret _
    | build path v => exact Mono.ret _
    | clean path f s => exact Mono.ret _

theorem mono_terminal {dir : Text → FPath} (ls : List Entry) (fs : FS) : Mono (terminal nd dir ls fs) := by
  induction ls generalizing fs with
  | nil => exact Mono.ret _
  | cons l ls ih => exact Mono.bind (mono_process l) fun r => Mono.bind (ih r.fs) fun _ => Mono.ret _

end Terminal
end GC
