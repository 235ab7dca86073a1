/-
Property C119: sessions at a terminal, from the words typed to the text printed, the exit codes and the graphs stored, in any number of
directories.
-/
import Verif.Proofs.Terminal
import Verif.Props.EndToEnd
import Verif.Props.CspEnds
namespace GC
namespace Terminal
open Text Store Cli Clap Args Main Manual GC.Stream

/-- C119: any lines typed one after the other, about any directories of which none is inside of the files of the graph in another one. If
all processes end, the texts printed, the exit codes and the graphs stored are those that the specification describes, and nothing else in
the file system has changed. -/
theorem C119_transcript_on (nd : Char → Bool) (dir : Text → FPath) (D : FPath → Prop) (hD : Separate D) (ls : List Entry)
    (ho : ∀ l ∈ ls, IsOrder l.now.order) (hl : ∀ l ∈ ls, Within dir D l) (fs fs' : FS) (W : FPath → Option SetGraph)
    (hW : ∀ r, D r → Holds nd r fs (W r)) (outs : List (Text × Nat)) (hr : Returns (terminal nd dir ls fs) (outs, fs')) :
    ∃ W', Transcript dir ls W W' outs ∧ (∀ r, D r → Holds nd r fs' (W' r)) ∧ OnlyThere D fs fs' := by
  induction ls generalizing fs fs' W outs with
  | nil =>
    cases hr.unique (Returns.ret _)
    exact ⟨W, .nil, hW, OnlyThere.refl _ _⟩
  | cons l ls ih =>
    obtain ⟨x, h1, h2⟩ := bind_inv (mono_process l) hr
    obtain ⟨⟨outs', fs''⟩, h3, h4⟩ := bind_inv (mono_terminal ls x.fs) h2
    cases h4.unique (Returns.ret _)
    obtain ⟨W1, k1, k2, k3⟩ := process_does hD l (ho l (by simp)) (hl l (by simp)) W hW h1
    obtain ⟨W2, k4, k5, k6⟩ := ih (fun l h => ho l (by simp [h])) (fun l h => hl l (by simp [h])) x.fs _ W1 k2 outs' h3
    exact ⟨W2, .cons k1 k4, k5, k3.trans k6⟩

/-- C119: the same from the start, when there are no graphs. In the end the graphs of the specification can be loaded. -/
theorem C119_transcript (nd : Char → Bool) (dir : Text → FPath) (D : FPath → Prop) (hD : Separate D) (ls : List Entry)
    (ho : ∀ l ∈ ls, IsOrder l.now.order) (hl : ∀ l ∈ ls, Within dir D l) (fs fs' : FS) (hf : ∀ r, D r → Fresh r fs)
    (outs : List (Text × Nat)) (hr : Returns (terminal nd dir ls fs) (outs, fs')) :
    ∃ W, Transcript dir ls (fun _ => none) W outs ∧ (∀ r, D r → Stored nd r fs' (W r)) ∧ OnlyThere D fs fs' := by
  obtain ⟨W, h1, h2, h3⟩ := C119_transcript_on nd dir D hD ls ho hl fs fs' (fun _ => none) hf outs hr
  exact ⟨W, h1, fun r hr => holds_stored (h2 r hr), h3⟩

/-- A query that ends with a text or a panic ends as a process. -/
theorem query_ends {H : ScoredHeap} {nd : Char → Bool} {order : DirectedGraph → DirectedGraph} {root : FPath} {fs : FS} (q : Query)
    (h : (∃ t, Returns (q.text H nd order root fs) t) ∨ Panics (q.text H nd order root fs)) :
    ∃ x, Returns (ofJob (q.job H nd order root fs) fs) x ∧ ((∃ t, Returns (q.text H nd order root fs) t) → x.code = 0) := by
  obtain ⟨n, hn⟩ : ∃ n, (q.job H nd order root fs n).outcome ≠ .running := by
    rcases h with ⟨t, n, hn⟩ | ⟨n, hn⟩
    · exact ⟨n, fun e => nomatch e.symm.trans ((prints_query q n).1 t (hn n (Nat.le_refl _))).1⟩
    · exact ⟨n, fun e => nomatch e.symm.trans ((prints_query q n).2.1 (hn n (Nat.le_refl _)))⟩
  have hs : ∀ m, n ≤ m → q.job H nd order root fs m = q.job H nd order root fs n := fun m hm => ((steady_query q) n m hm).2 hn
  have hx : ∃ x, Returns (ofJob (q.job H nd order root fs) fs) x := by
    rcases hj : q.job H nd order root fs n with ⟨ps, _ | _ | _⟩
    · rw [hj] at hn; exact absurd rfl hn
    · exact ⟨⟨fs, ps.flatten, 101⟩, n, fun m hm => by unfold ofJob; rw [hs m hm, hj]⟩
    · exact ⟨⟨fs, ps.flatten, 0⟩, n, fun m hm => by unfold ofJob; rw [hs m hm, hj]⟩
  obtain ⟨x, hx⟩ := hx
  refine ⟨x, hx, fun ⟨t, ht⟩ => ?_⟩
  rcases (job_cases (prints_query q) hx).2 with ⟨h, _⟩ | ⟨_, h, _⟩
  · exact h
  · exact absurd h ht.not_panics

/-- C119: every process ends but those of gc-csp and gc-random (for gc-short-path the graph must have less than 2^63 vertices). -/
theorem C119_ends (nd : Char → Bool) (dir : Text → FPath) (D : FPath → Prop) (l : Entry) (ho : IsOrder l.now.order) (hl : Within dir D l)
    (fs : FS) (W : FPath → Option SetGraph) (hW : ∀ r, D r → Holds nd r fs (W r)) (hc : l.tool ≠ .csp) (hn : l.tool ≠ .random)
    (hsize : l.tool = .shortPath → ∀ r G, W r = some G → G.Smaller (2 ^ 63)) : ∃ x, Returns (process nd dir l fs) x := by
  by_cases hin : ∃ us, ByManual l.tool l.words us
  swap
  · obtain ⟨e, he⟩ := C116_refused l.tool l.words fun us h1 h2 => hin ⟨us, (byManual_iff _ _ _).2 ⟨h1, h2⟩⟩
    unfold process
    rw [he]
    cases e <;> exact ⟨_, Returns.ret _⟩
  obtain ⟨us, hin⟩ := hin
  have hst := holds_stored (hW _ (hl us hin))
  replace hin := (byManual_iff _ _ _).1 hin
  have hnone : W (dir (namedPath us)) = none → loadGraph nd (dir (oneOr us "path" ['.'])) fs = .done (.error (.io .notFound)) := by
    intro h
    rw [h] at hst
    exact hst
  have hnone' : W (dir (namedPath us)) = none → ∀ g, loadGraph nd (dir (oneOr us "path" ['.'])) fs ≠ .done (.ok g) := by
    intro h g hg
    rw [hnone h] at hg
    cases hg
  by_cases ht : l.tool = .build
  · have hin' := hin
    rw [ht] at hin'
    unfold process
    rw [ht, C116_asks_build _ us hin'.1 hin'.2]
    exact ⟨_, Returns.ret _⟩
  have hcl := C116_asks l.tool ht l.words us hin.1 hin.2
  have hact : ∀ p act a, asks l.tool us = .query p (.cycle act a) → OneAction act := by
    intro p act a e
    have hcy : l.tool = .cycle := by
      revert e
      cases l.tool <;> intro e <;> first | rfl | cases e
    have hcl := hcl
    rw [e, hcy] at hcl
    exact C116_one_action _ _ _ _ hcl
  unfold process
  rw [hcl]
  dsimp only
  revert hact hc hn hsize
  cases l.tool with
  | build => exact fun _ _ _ _ => ⟨_, Returns.ret _⟩
  | init => exact fun _ _ _ _ => ⟨_, Returns.ret _⟩
  | add => exact fun _ _ _ _ => ⟨_, Returns.ret _⟩
  | delete => exact fun _ _ _ _ => ⟨_, Returns.ret _⟩
  | clean => exact fun _ _ _ _ => ⟨_, Returns.ret _⟩
  | random => exact fun _ h => absurd rfl h
  | csp => exact fun h => absurd rfl h
  | desc =>
    intro _ _ _ _
    refine (query_ends _ ?_).imp fun _ h => h.1
    cases hS : W (dir (namedPath us)) with
    | none =>
      refine .inr (Panics.bind_left ⟨0, fun _ _ => ?_⟩)
      unfold Prog.lift Store.gcDesc
      rw [hnone hS]
      rfl
    | some G =>
      rw [hS] at hst
      obtain ⟨g, hg, _⟩ := hst
      obtain ⟨d, h1, _⟩ := desc_report hg (namedPath us)
      refine .inl ⟨descText (namedPath us) d, ?_⟩
      unfold Query.text
      dsimp only
      rw [show Store.gcDesc nd (dir (oneOr us "path" ['.'])) fs = _ from h1]
      exact (Returns.lift_done _).bind (Returns.ret _)
  | topoSort =>
    intro _ _ _ _
    refine (query_ends _ ?_).imp fun _ h => h.1
    cases hS : W (dir (namedPath us)) with
    | none =>
      exact .inr (C71_nothing_stored nd l.now.order _ fs (hnone' hS))
    | some G =>
      rw [hS] at hst
      obtain ⟨g, hg, _⟩ := hst
      obtain ⟨t, h1, _⟩ := topo_report (order := l.now.order) ho hg
      exact .inl ⟨t, h1⟩
  | shortPath =>
    intro _ _ hsize _
    refine (query_ends _ ?_).imp fun _ h => h.1
    by_cases hv : (∀ v, ¬ ArgId (oneOr us "start" []) v) ∨ (∀ v, ¬ ArgId (oneOr us "end" []) v)
    · exact .inr (C72_rejects _ nd _ _ fs _ _ (hv.elim .inl fun h => .inr (.inl h)))
    · simp only [not_or, not_forall, not_not] at hv
      obtain ⟨⟨s, hs⟩, e, he⟩ := hv
      cases hS : W (dir (namedPath us)) with
      | none =>
        exact .inr (C72_rejects _ nd _ _ fs _ _ (.inr (.inr (hnone' hS))))
      | some G =>
        have hsm := hsize rfl _ _ hS
        rw [hS] at hst
        obtain ⟨g, hg, rfl⟩ := hst
        obtain ⟨t, h1, _⟩ := C72_short_path_report l.now.heap nd l.now.order ho _ fs g hg (vertexCount_smaller (loadGraph_built hg).1 hsm) _ _ s e hs he
        exact .inl ⟨t, h1⟩
  | cycle =>
    intro _ _ _ hact
    refine (query_ends _ ?_).imp fun _ h => h.1
    cases hS : W (dir (namedPath us)) with
    | none =>
      exact .inr (loadedGraph_fails (hnone' hS)).bind_left.bind_left
    | some G =>
      rw [hS] at hst
      obtain ⟨g, hg, _⟩ := hst
      obtain ⟨lines, s, h1, _⟩ := C74_report nd l.now.order ho _ fs g hg _ (hact _ _ _ rfl) _
      exact .inl ⟨_, h1.bind (Returns.ret _)⟩

/-- C119: gc-csp ends, with exit code 0, if its options select some walk. -/
theorem C119_ends_csp (nd : Char → Bool) (dir : Text → FPath) (D : FPath → Prop) (l : Entry) (ho : IsOrder l.now.order) (hl : Within dir D l)
    (fs : FS) (W : FPath → Option SetGraph) (hW : ∀ r, D r → Holds nd r fs (W r)) (us : List Use) (hin : ByManual .csp l.words us)
    (ht : l.tool = .csp) (path start end_ : Text) (a : CspArgs) (ha : asks .csp us = .query path (.csp start end_ a)) (s e : VertexId)
    (hs : ArgId start s) (he : ArgId end_ e) (g : DirectedGraph) (hwg : W (dir (namedPath us)) = some g.toSet)
    (w : List VertexId) (hw : CspSelects g s e a w) : ∃ x, Returns (process nd dir l fs) x ∧ x.code = 0 := by
  have hst := holds_stored (hW _ (hl us (by rw [ht]; exact hin)))
  replace hin := (byManual_iff _ _ _).1 hin
  rw [hwg] at hst
  obtain ⟨g', hg', hsame⟩ := hst
  have hw' : CspSelects g' s e a w := by
    have hadj : Adj g' = Adj g := by
      funext u v
      have := congrArg (fun G => G.E ⟨u, v⟩) hsame
      exact this
    refine ⟨?_, hw.2⟩
    have := hw.1
    unfold WalkFromTo at this ⊢
    rw [hadj]
    exact this
  have hp : path = namedPath us := by
    have := pathOf_asks .csp us
    rw [ha] at this
    exact this
  unfold process
  rw [ht, C116_asks .csp (by decide) l.words us hin.1 hin.2, ha, hp]
  dsimp only
  obtain ⟨report, h1, _⟩ := C73_finds l.now.heap nd l.now.order ho _ fs g' hg' start end_ s e hs he a w hw'
  obtain ⟨x, h2, h3⟩ := query_ends (q := .csp start end_ a) (.inl ⟨_, h1⟩)
  exact ⟨x, h2, h3 ⟨_, h1⟩⟩

/-- C119: if no walk meets the options of gc-csp, it ends with an answer (exit code 0) exactly if the options bound the walks, or no walk that
`exclude` and `ordered` allow goes twice in succession round the same closed walk. -/
theorem C119_ends_csp_nothing (nd : Char → Bool) (dir : Text → FPath) (D : FPath → Prop) (l : Entry) (ho : IsOrder l.now.order)
    (hl : Within dir D l) (fs : FS) (W : FPath → Option SetGraph) (hW : ∀ r, D r → Holds nd r fs (W r)) (us : List Use)
    (hin : ByManual .csp l.words us) (ht : l.tool = .csp) (path start end_ : Text) (a : CspArgs)
    (ha : asks .csp us = .query path (.csp start end_ a)) (s e : VertexId) (hs : ArgId start s) (he : ArgId end_ e) (g : DirectedGraph)
    (hb : Built g) (hwg : W (dir (namedPath us)) = some g.toSet) (hsize : g.vertexCount * ((a.ordered.getD []).length + 1) < 2 ^ 63 - 1)
    (hno : ∀ w, WalkFromTo g s e w → ¬ CspAccepts a ⟨⟨w⟩, (w.length : Int) - 1⟩) :
    (∃ x, Returns (process nd dir l fs) x ∧ x.code = 0) ↔ BoundedOptions a ∨ ¬ RoundTwice g s a := by
  have hst := holds_stored (hW _ (hl us (by rw [ht]; exact hin)))
  replace hin := (byManual_iff _ _ _).1 hin
  rw [hwg] at hst
  obtain ⟨g', hg', hsame⟩ := hst
  have hsg : SameGraph g' g := sameGraph_iff.2 hsame
  have hp : path = namedPath us := by
    have := pathOf_asks .csp us
    rw [ha] at this
    exact this
  unfold process
  rw [ht, C116_asks .csp (by decide) l.words us hin.1 hin.2, ha, hp]
  dsimp only
  have key := C73_ends_iff l.now.heap nd l.now.order ho _ fs g' hg' start end_ s e hs he a
    (by rw [hsg.vertexCount (loadGraph_built hg').1 hb]; exact hsize) (by rw [hsg.walk]; exact hno)
  have hr : RoundTwice g' s a = RoundTwice g s a := by
    unfold RoundTwice WalkFrom
    rw [hsg.adj]
  rw [hr] at key
  rw [← key]
  constructor
  · rintro ⟨x, h1, h2⟩
    rcases (job_cases (prints_query (.csp start end_ a)) h1).2 with ⟨_, h⟩ | ⟨h, _⟩
    · exact ⟨_, h⟩
    · rw [h] at h2
      cases h2
  · rintro ⟨t, h1⟩
    obtain ⟨x, h2, h3⟩ := query_ends (q := .csp start end_ a) (.inl ⟨t, h1⟩)
    exact ⟨x, h2, h3 ⟨t, h1⟩⟩

/-- C119: gc-random ends if and only if its random numbers give as many different edges as are wanted (or if it panics on its numbers). -/
theorem C119_ends_random (nd : Char → Bool) (dir : Text → FPath) (l : Entry) (fs : FS) (us : List Use) (hin : ByManual .random l.words us)
    (ht : l.tool = .random) (vc ec : Nat) (hs : Sizes (oneOr us "vertex-count" ['1', '0', '0']) (oneOf us "edge-count") vc ec) :
    (∃ x, Returns (process nd dir l fs) x) ↔ Random.Gives l.now.rng vc ec := by
  have hvc : vc < 2 ^ 64 := by have := hs.2.1; omega
  replace hin := (byManual_iff _ _ _).1 hin
  obtain ⟨h1, h2⟩ := Random.C60_terminates_partial l.now.rng vc ec hvc
  unfold process
  rw [ht, C116_asks .random (by decide) l.words us hin.1 hin.2]
  unfold asks invoke Output.gcRandom
  dsimp only
  rw [sizes_iff.2 hs]
  dsimp only
  constructor
  · rintro ⟨x, hx⟩
    refine Classical.byContradiction fun hg => ?_
    have hd := h2 hg
    obtain ⟨n, hn⟩ := hx
    have := hn n (Nat.le_refl _)
    unfold Prog.bind at this
    dsimp only at this
    rw [hd n] at this
    cases this
  · intro hg
    obtain ⟨g, hg⟩ := h1 hg
    exact ⟨_, Returns.bind (f := fun r => Prog.ret (ofLines r)) (hg.bind (Returns.ret _)) (Returns.ret _)⟩

/-! ### A session -/

/-- Paths as directories: the working directory is the root, other paths are names of directories in it. -/
def exDir (t : Text) : FPath := if t = ['.'] then [] else [t]

/-- Some circumstances. -/
def exNow : Circumstances := ⟨exHeap, id, fun k => UInt64.ofNat (k + 3), "yes\n".toList, fun _ => "help\n".toList⟩

/-- A session in the working directory and in the directory `d`. -/
def exSession : List Entry :=
  [⟨.init, [], exNow⟩, ⟨.init, [['-', 'p'], ['d']], exNow⟩, ⟨.add, [['-', 'e'], ['1'], ['2'], ['2'], ['3']], exNow⟩,
    ⟨.add, [['-', 'p', 'd'], ['-', '-', 'v', 'e', 'r', 't', 'e', 'x'], ['7'], ['x']], exNow⟩,
    ⟨.desc, [], exNow⟩, ⟨.topoSort, [], exNow⟩, ⟨.shortPath, [['-', 's'], ['1'], ['-', 'e'], ['3']], exNow⟩,
    ⟨.clean, [['-', 's']], exNow⟩, ⟨.topoSort, [], exNow⟩, ⟨.desc, [['d']], exNow⟩, ⟨.desc, ["--help".toList], exNow⟩,
    ⟨.desc, [['-', 'p'], ['d']], exNow⟩]

/-- The result of running it. -/
def exOut (n : Nat) : Option (List (Text × Nat)) :=
  match terminal (fun _ => false) exDir exSession (fun _ => none) n with
  | .done r => some r.1
  | _ => none

theorem exOut_eq : exOut 30 = some [([], 0), ([], 0), ([], 0), ([], 101),
    ("Path: .\nVertices: 3\nEdges: 2\nMin vertex id: 1\nMax vertex id: 3\n".toList, 0), ("Topological order: 1 2 3 \n".toList, 0),
    ("Shortest path from vertex 1 to vertex 3 with total cost of 2\n1\n2\n3\n".toList, 0),
    ("Are you sure you want to clean graph at '.' ? (yes/no)\n".toList, 0), ([], 101), ([], 1), ("help\n".toList, 0),
    ("Path: d\nVertices: 0\nEdges: 0\nMin vertex id: -\nMax vertex id: -\n".toList, 0)] := by
  decide +kernel

/-- The directory that a line names, from what the binary makes of the line. -/
theorem within_of {dir : Text → FPath} {D : FPath → Prop} {l : Entry} (h : ∀ i, commandLine l.tool l.words = .ok (some i) → D (dir (pathOf i))) :
    Within dir D l := by
  intro us hin
  replace hin := (byManual_iff _ _ _).1 hin
  by_cases ht : l.tool = .build
  · rw [ht] at h hin
    exact h _ (C116_asks_build l.words us hin.1 hin.2)
  · rw [← pathOf_asks l.tool us]
    exact h _ (C116_asks l.tool ht l.words us hin.1 hin.2)

/-- The two directories. -/
def exDirs (r : FPath) : Prop := r = [] ∨ r = [['d']]

/-- The session meets the hypotheses of `C119_transcript`. -/
example : Separate exDirs ∧ (∀ l ∈ exSession, IsOrder l.now.order) ∧ (∀ l ∈ exSession, Within exDir exDirs l) ∧
    (∀ r, exDirs r → Fresh r fun _ => none) ∧ ∃ outs fs', Returns (terminal (fun _ => false) exDir exSession fun _ => none) (outs, fs') ∧
      exOut 30 = some outs := by
  have hap : Apart [] [['d']] := by
    refine ⟨by simp, ?_, ?_⟩ <;> rintro (h | h) <;> revert h <;> decide
  refine ⟨?_, ?_, ?_, ?_, ?_⟩
  · rintro r r' (rfl | rfl) (rfl | rfl)
    · exact .inl rfl
    · exact .inr hap
    · exact .inr hap.symm
    · exact .inl rfl
  · intro l hl
    have : l.now = exNow := by
      simp only [exSession, List.mem_cons, List.not_mem_nil, or_false] at hl
      rcases hl with rfl | rfl | rfl | rfl | rfl | rfl | rfl | rfl | rfl | rfl | rfl | rfl <;> rfl
    rw [this]
    exact fun g => List.Perm.refl _
  · intro l hl
    refine within_of fun i hi => ?_
    have hall : ∀ l ∈ exSession, (match commandLine l.tool l.words with
        | .ok (some i) => decide (exDir (pathOf i) = [] ∨ exDir (pathOf i) = [['d']])
        | _ => true) = true := by decide +kernel
    have := hall l hl
    rw [hi] at this
    show exDir (pathOf i) = [] ∨ exDir (pathOf i) = [['d']]
    exact of_decide_eq_true this
  · intro r _
    exact ⟨fun q _ ⟨c, hc⟩ => (nomatch hc), fun _ _ => rfl, by simp⟩
  · have h := exOut_eq
    unfold exOut at h
    cases hr : terminal (fun _ => false) exDir exSession (fun _ => none) 30 with
    | done r =>
      refine ⟨r.1, r.2, (mono_terminal _ _).returns hr, ?_⟩
      unfold exOut
      rw [hr]
    | running => rw [hr] at h; cases h
    | panicked => rw [hr] at h; cases h

theorem inOrder_of {t : Tool} {ws : List Text} {i : Invocation} (h : commandLine t ws = .ok (some i)) : ∃ us, ByManual t ws us := by
  unfold commandLine at h
  cases hp : parse t.app ws with
  | error e => rw [hp] at h; cases h
  | ok m =>
    obtain ⟨us, h1, h2, _⟩ := (C116_exact t ws m).1 hp
    exact ⟨us, (byManual_iff _ _ _).2 ⟨h1, h2⟩⟩

/-- `gc-random -v 2 -e 1` with random numbers that are always 5 meets the hypotheses of `C119_ends_random`, and ends. -/
example : ∃ us, ByManual .random [['-', 'v'], ['2'], ['-', 'e'], ['1']] us ∧
    Sizes (oneOr us "vertex-count" ['1', '0', '0']) (oneOf us "edge-count") 2 1 ∧ Random.Gives (fun _ => 5) 2 1 := by
  have hc : commandLine .random [['-', 'v'], ['2'], ['-', 'e'], ['1']] = .ok (some (.random ['.'] false false none ['2'] (some ['1']))) := rfl
  obtain ⟨us, hm⟩ := inOrder_of hc
  have hin := (byManual_iff _ _ _).1 hm
  rw [C116_asks .random (by decide) _ us hin.1 hin.2] at hc
  simp only [asks, Except.ok.injEq, Option.some.injEq, Invocation.random.injEq] at hc
  obtain ⟨_, _, _, _, h1, h2⟩ := hc
  refine ⟨us, hm, ?_, [⟨1, 5⟩], by simp, rfl, ?_⟩
  · rw [h1, h2]
    exact sizes_iff.1 rfl
  · intro e he
    rw [List.mem_singleton] at he
    subst he
    exact ⟨0, by unfold Random.Drawn; decide⟩

/-- `gc-csp -s 1 -e 2` on the graph with the edge 1→2 meets the hypotheses of `C119_ends_csp`. -/
example : ∃ us start end_ a, ByManual .csp [['-', 's'], ['1'], ['-', 'e'], ['2']] us ∧ asks .csp us = .query ['.'] (.csp start end_ a) ∧
    ArgId start 1 ∧ ArgId end_ 2 ∧ CspSelects (GraphCommand.applyCommands [.AddEdge 1 2] .new) 1 2 a [1, 2] := by
  have hc : commandLine .csp [['-', 's'], ['1'], ['-', 'e'], ['2']] = .ok (some (.query ['.'] (.csp ['1'] ['2'] {}))) := rfl
  obtain ⟨us, hm⟩ := inOrder_of hc
  have hin := (byManual_iff _ _ _).1 hm
  rw [C116_asks .csp (by decide) _ us hin.1 hin.2] at hc
  simp only [Except.ok.injEq, Option.some.injEq] at hc
  refine ⟨us, ['1'], ['2'], {}, hm, hc, parseVertexId_iff.1 (by decide), parseVertexId_iff.1 (by decide), ⟨?_, rfl, rfl⟩, by simp,
    (satisfies_options {} _).1 (by simp [cspConstraints, optionOf])⟩
  simp only [List.isChain_cons_cons, List.isChain_singleton, Adj]
  decide

/-- `gc-csp -s 1 -e 3` on the graph with the edges 1→2→1 and the vertex 3 meets the hypotheses of `C119_ends_csp_nothing`; it does not end. -/
example : ∃ us start end_ a, ByManual .csp [['-', 's'], ['1'], ['-', 'e'], ['3']] us ∧ asks .csp us = .query ['.'] (.csp start end_ a) ∧
    ArgId start 1 ∧ ArgId end_ 3 ∧ ∃ g, g = GraphCommand.applyCommands [.AddEdge 1 2, .AddEdge 2 1, .AddVertex 3] .new ∧
      g.vertexCount * ((a.ordered.getD []).length + 1) < 2 ^ 63 - 1 ∧ (∀ w, WalkFromTo g 1 3 w → ¬ CspAccepts a ⟨⟨w⟩, (w.length : Int) - 1⟩) ∧
      ¬ BoundedOptions a ∧ RoundTwice g 1 a := by
  have hc : commandLine .csp [['-', 's'], ['1'], ['-', 'e'], ['3']] = .ok (some (.query ['.'] (.csp ['1'] ['3'] {}))) := rfl
  obtain ⟨us, hm⟩ := inOrder_of hc
  have hin := (byManual_iff _ _ _).1 hm
  rw [C116_asks .csp (by decide) _ us hin.1 hin.2] at hc
  simp only [Except.ok.injEq, Option.some.injEq] at hc
  obtain ⟨_, h2, _⟩ := C37_counterexample
  refine ⟨us, ['1'], ['3'], {}, hm, hc, parseVertexId_iff.1 (by decide), parseVertexId_iff.1 (by decide), _, rfl, by decide,
    fun w hw => absurd hw (h2 ⟨w⟩), ?_, [], [1, 2], by simp, ⟨?_, rfl⟩, ?_, ?_⟩
  · rintro (h | ⟨t, n, h | h, _⟩ | ⟨t, i, h, _⟩) <;> cases h
  · simp only [List.nil_append, List.cons_append, List.isChain_cons_cons, List.isChain_singleton, Adj]
    decide
  · intro t vs h
    cases h
  · intro t vs h
    cases h

end Terminal
end GC
