/-
Properties C75-C77: sessions of commands; additions to C65 and C68.
-/
import Verif.Proofs.History
namespace GC
open Text Store

/-! ### C75 -/

/-- C75: for every session of gc-init, gc-add, gc-delete, gc-build, gc-clean and gc-random commands in a directory holding a graph or none,
the exit codes and the graph stored in the end are those of the set-theoretic history, and nothing outside `.graph` is touched (missing
directories up to `root` may be created, a file called `lock` may go). The state reached is one from which every further session behaves
in the same way. -/
theorem C75_session (nd : Char → Bool) (root : FPath) (cmds : List Cmd) (hp : ∀ cmd ∈ cmds, cmd.Proper) (fs : FS) (S : Option SetGraph)
    (h : Holds nd root fs S) :
    ∃ S', History cmds S S' (session nd root cmds fs).2 ∧ Stored nd root (session nd root cmds fs).1 S' ∧
      Holds nd root (session nd root cmds fs).1 S' ∧ Untouched root fs (session nd root cmds fs).1 := by
  obtain ⟨S', h1, h2, h3⟩ := session_history cmds hp h
  exact ⟨S', h1, holds_stored h2, h2, h3⟩

/-- C75: in particular from a directory without graph. -/
theorem C75_session_from_fresh (nd : Char → Bool) (root : FPath) (cmds : List Cmd) (hp : ∀ cmd ∈ cmds, cmd.Proper) (fs : FS)
    (h : Fresh root fs) :
    ∃ S', History cmds none S' (session nd root cmds fs).2 ∧ Stored nd root (session nd root cmds fs).1 S' ∧
      Untouched root fs (session nd root cmds fs).1 := by
  obtain ⟨S', h1, h2, _, h3⟩ := C75_session nd root cmds hp fs none h
  exact ⟨S', h1, h2, h3⟩

/-- C75: the history determines the stored graph and the exit codes. -/
theorem C75_history_unique (cmds : List Cmd) (S S1 S2 : Option SetGraph) (e1 e2 : List Exit) (h1 : History cmds S S1 e1)
    (h2 : History cmds S S2 e2) : S1 = S2 ∧ e1 = e2 := history_unique h1 h2

/-- C75: what is stored is determined by the files. -/
theorem C75_stored_unique (nd : Char → Bool) (root : FPath) (fs : FS) (S T : Option SetGraph) (h : Stored nd root fs S)
    (h' : Stored nd root fs T) : S = T := stored_unique h h'

/-- An empty disk with the directory `d`. -/
def emptyFS : FS := fun q => if q = [] ∨ q = [['d']] then some .dir else none

theorem emptyFS_fresh : Fresh [['d']] emptyFS := by
  refine ⟨?_, ?_, by decide⟩
  · rintro q _ ⟨c, hc⟩
    unfold emptyFS at hc
    split at hc <;> cases hc
  · intro q hq
    have := hq.length_le
    unfold emptyFS
    rw [if_neg]
    rintro (rfl | rfl) <;> simp [rootPath] at this

theorem sample_holds (nd : Char → Bool) (cs : List GraphCommand) :
    Holds nd [['d']] (sampleFS (Format.Gcmd.commandsText cs)) (some (GraphCommand.applyCommands cs .new).toSet) := by
  refine ⟨sampleFS_ready _, _, _, rfl, ?_, ?_, rfl⟩
  · have := (C14_append_extends nd [] [] cs (.inl rfl) rfl).2
    simpa [Format.Gcmd.addCommands] using this
  · exact (loadGraph_content (sampleFS_content _)).1 (load_sample nd cs)

/-- `C75_session` from a stored graph, and `C75_history_unique` for its outcome. -/
example (nd : Char → Bool) :
    ∃ S', History [.delete (some [['1']]) none, .build id] (some (GraphCommand.applyCommands [.AddEdge 1 2] .new).toSet) S'
        (session nd [['d']] [.delete (some [['1']]) none, .build id] (sampleFS (Format.Gcmd.commandsText [.AddEdge 1 2]))).2 ∧
      Stored nd [['d']] (session nd [['d']] [.delete (some [['1']]) none, .build id] (sampleFS (Format.Gcmd.commandsText [.AddEdge 1 2]))).1 S' ∧
      ∀ S1 e1, History [.delete (some [['1']]) none, .build id] (some (GraphCommand.applyCommands [.AddEdge 1 2] .new).toSet) S1 e1 → S1 = S' := by
  obtain ⟨S', h1, h2, _⟩ := C75_session nd [['d']] [.delete (some [['1']]) none, .build id]
    (by simp only [List.forall_mem_cons, Cmd.Proper]; exact ⟨trivial, fun _ => .refl _, by simp⟩) _ _ (sample_holds nd [.AddEdge 1 2])
  exact ⟨S', h1, h2, fun S1 e1 h => (C75_history_unique _ _ _ _ _ _ h h1).1⟩

/-- A session with failing and succeeding commands. -/
def sampleSession : List Cmd :=
  [.add { vertex := some [['9']] }, .init, .add { vertex := some [['7']], chain := some [['1'], ['2'], ['3']], clique := some [['x']] },
    .delete (some [['7']]) (some [['1'], ['2']]), .build id]

example : (session (fun _ => false) [['d']] sampleSession emptyFS).2 = [.success, .success, .panic, .success, .success] ∧
    (match loadGraph (fun _ => false) [['d']] (session (fun _ => false) [['d']] sampleSession emptyFS).1 with
      | .done (.ok g) => (g.edges, [1, 2, 3, 7, 9].map g.containsVertex)
      | _ => ([], [])) = ([⟨2, 3⟩], [true, true, true, false, false]) := by decide +kernel

example : ∀ cmd ∈ sampleSession, cmd.Proper := by
  intro cmd hc
  simp only [sampleSession, List.mem_cons, List.not_mem_nil, or_false] at hc
  rcases hc with rfl | rfl | rfl | rfl | rfl <;> first | trivial | exact fun g => List.Perm.refl _

/-! ### C76 -/

theorem session_append (nd : Char → Bool) (root : FPath) (xs ys : List Cmd) (fs : FS) :
    (session nd root (xs ++ ys) fs).1 = (session nd root ys (session nd root xs fs).1).1 := by
  induction xs generalizing fs with
  | nil => rfl
  | cons x xs ih => exact ih _

/-- C76: a gc-build or gc-init anywhere in a session, where there is a graph, changes neither the graph stored in the end nor the exit codes
of the commands after it. -/
theorem C76_neutral (nd : Char → Bool) (root : FPath) (xs ys : List Cmd) (cmd : Cmd) (hc : cmd = .init ∨ ∃ order, cmd = .build order ∧ IsOrder order)
    (hx : ∀ c ∈ xs, c.Proper) (hy : ∀ c ∈ ys, c.Proper) (fs : FS) (S : Option SetGraph) (h : Holds nd root fs S) (G : SetGraph)
    (hG : Stored nd root (session nd root xs fs).1 (some G)) :
    ∃ S', Stored nd root (session nd root (xs ++ cmd :: ys) fs).1 S' ∧ Stored nd root (session nd root (xs ++ ys) fs).1 S' ∧
      (session nd root (cmd :: ys) (session nd root xs fs).1).2 = .success :: (session nd root ys (session nd root xs fs).1).2 := by
  obtain ⟨S1, _, h1, _⟩ := session_history xs hx h
  have e1 := stored_unique (holds_stored h1) hG
  subst e1
  have hcp : cmd.Proper := by
    rcases hc with rfl | ⟨order, rfl, ho⟩
    · trivial
    · exact ho
  obtain ⟨S2, e2, h2, _⟩ := exec_effect cmd hcp h1
  have hS2 : S2 = some G ∧ (exec nd root cmd (session nd root xs fs).1).2 = .success := by
    generalize (exec nd root cmd (session nd root xs fs).1).2 = ex at e2
    rcases hc with rfl | ⟨order, rfl, ho⟩
    · cases e2; exact ⟨rfl, rfl⟩
    · cases e2; exact ⟨rfl, rfl⟩
  obtain ⟨rfl, hex⟩ := hS2
  obtain ⟨S3, e3, h3, _⟩ := session_history ys hy h1
  obtain ⟨S4, e4, h4, _⟩ := session_history ys hy h2
  obtain ⟨rfl, ee⟩ := history_unique e3 e4
  refine ⟨S3, ?_, ?_, ?_⟩
  · rw [session_append]; exact holds_stored h4
  · rw [session_append]; exact holds_stored h3
  · show (exec nd root cmd _).2 :: (session nd root ys (exec nd root cmd _).1).2 = _
    rw [hex, ← ee]

/-- A session that leaves a graph. -/
example (nd : Char → Bool) : ∃ G, Stored nd [['d']] (session nd [['d']] [.init] emptyFS).1 (some G) :=
  ⟨_, .new, rfl, rfl⟩

/-! ### C77 -/

/-- C77: two valid gc-add commands may be run in either order: the stored graph is the same. -/
theorem C77_adds_commute (nd : Char → Bool) (root : FPath) (a b : AddArgs) (ha : ValidAdd a) (hb : ValidAdd b) (fs : FS)
    (S : Option SetGraph) (h : Holds nd root fs S) :
    ∃ S', Stored nd root (session nd root [.add a, .add b] fs).1 S' ∧ Stored nd root (session nd root [.add b, .add a] fs).1 S' ∧
      (session nd root [.add a, .add b] fs).2 = [.success, .success] := by
  have hp : ∀ x y : AddArgs, ∀ c ∈ [Cmd.add x, .add y], c.Proper := by
    intro x y c hc
    simp only [List.mem_cons, List.not_mem_nil, or_false] at hc
    rcases hc with rfl | rfl <;> trivial
  have hist : ∀ x y : AddArgs, ValidAdd x → ValidAdd y →
      History [.add x, .add y] S (S.map fun G => (G.added x).added y) [.success, .success] := by
    intro x y hx hy
    have cx : x.CarriedOut 6 := ⟨by rwa [first_six], .inl rfl⟩
    have cy : y.CarriedOut 6 := ⟨by rwa [first_six], .inl rfl⟩
    cases S with
    | none => exact .cons (.add_lost hx) (.cons (.add_lost hy) .nil)
    | some G => exact .cons (.add cx rfl) (.cons (.add cy rfl) .nil)
  obtain ⟨S1, e1, h1, _⟩ := C75_session nd root _ (hp a b) fs S h
  obtain ⟨S2, e2, h2, _⟩ := C75_session nd root _ (hp b a) fs S h
  obtain ⟨rfl, ee⟩ := history_unique e1 (hist a b ha hb)
  obtain ⟨rfl, _⟩ := history_unique e2 (hist b a hb ha)
  refine ⟨_, h1, ?_, ee⟩
  have : (fun G : SetGraph => (G.added a).added b) = fun G => (G.added b).added a := by
    funext G
    apply SetGraph.ext'
    · intro v
      simp only [SetGraph.added]
      generalize (∃ w, RequestsEdge a v w ∨ RequestsEdge a w v) = p
      generalize (∃ w, RequestsEdge b v w ∨ RequestsEdge b w v) = q
      generalize (∃ vs, Given a.vertex vs ∧ v ∈ vs) = r
      generalize (∃ vs, Given b.vertex vs ∧ v ∈ vs) = s
      tauto
    · intro e; simp only [SetGraph.added]; tauto
  rw [this]
  exact h2

/-- C77: running the same valid gc-add again changes nothing. -/
theorem C77_add_idempotent (nd : Char → Bool) (root : FPath) (a : AddArgs) (ha : ValidAdd a) (fs : FS)
    (S : Option SetGraph) (h : Holds nd root fs S) :
    ∃ S', Stored nd root (session nd root [.add a] fs).1 S' ∧ Stored nd root (session nd root [.add a, .add a] fs).1 S' := by
  have ca : a.CarriedOut 6 := ⟨by rwa [first_six], .inl rfl⟩
  have hist : History [.add a, .add a] S (S.map fun G => G.added a) [.success, .success] ∧
      History [.add a] S (S.map fun G => G.added a) [.success] := by
    cases S with
    | none => exact ⟨.cons (.add_lost ha) (.cons (.add_lost ha) .nil), .cons (.add_lost ha) .nil⟩
    | some G =>
      have hi : (G.added a).added a = G.added a := by
        apply SetGraph.ext'
        · intro v
          simp only [SetGraph.added]
          generalize (∃ w, RequestsEdge a v w ∨ RequestsEdge a w v) = p
          generalize (∃ vs, Given a.vertex vs ∧ v ∈ vs) = r
          tauto
        · intro e; simp only [SetGraph.added]; tauto
      have h2 : Effect (.add a) (some (G.added a)) (some (G.added a)) .success := by
        have := Effect.add (G := G.added a) ca rfl
        rwa [hi] at this
      exact ⟨.cons (.add ca rfl) (.cons h2 .nil), .cons (.add ca rfl) .nil⟩
  obtain ⟨S1, e1, h1, _⟩ := C75_session nd root [.add a] (by simp [Cmd.Proper]) fs S h
  obtain ⟨S2, e2, h2, _⟩ := C75_session nd root [.add a, .add a] (by simp [Cmd.Proper]) fs S h
  obtain ⟨rfl, _⟩ := history_unique e1 hist.2
  obtain ⟨rfl, _⟩ := history_unique e2 hist.1
  exact ⟨_, h1, h2⟩

/-- C77: gc-delete of edges that were not there undoes the gc-add of these edges, up to vertices: the edges are those of before. -/
theorem C77_delete_undoes_edges (nd : Char → Bool) (root : FPath) (l : List Text) (vs : List VertexId) (hl : ArgIds l vs)
    (hev : vs.length % 2 = 0) (fs : FS) (G : SetGraph) (h : Holds nd root fs (some G))
    (hnew : ∀ e, G.E e → ∀ k, ¬ (vs[2 * k]? = some e.src ∧ vs[2 * k + 1]? = some e.dst)) :
    ∃ G', Stored nd root (session nd root [.add { edge := some l }, .delete none (some l)] fs).1 (some G') ∧
      (session nd root [.add { edge := some l }, .delete none (some l)] fs).2 = [.success, .success] ∧
      (∀ e, G'.E e ↔ G.E e) ∧ ∀ v, G'.V v ↔ G.V v ∨ v ∈ vs := by
  have hv : ValidAdd { edge := some l } := by
    refine ⟨?_, ?_, ?_, ?_, ?_, ?_⟩ <;> intro x hx
    · cases hx
    · cases hx; exact ⟨vs, hl, hev⟩
    all_goals cases hx
  have ca : AddArgs.CarriedOut { edge := some l } 6 := ⟨by rwa [first_six], .inl rfl⟩
  have hreq : ∀ x y, RequestsEdge { edge := some l } x y ↔ ∃ k, vs[2 * k]? = some x ∧ vs[2 * k + 1]? = some y := by
    intro x y
    constructor
    · rintro (⟨_, hs⟩ | ⟨hr, _⟩ | ⟨ws, ⟨l', hl', _⟩, _⟩)
      · cases hs with
        | edge hg h1 h2 =>
          have := hg.unique ⟨l, rfl, hl⟩
          subst this
          exact ⟨_, h1, h2⟩
        | chain hg => obtain ⟨l', hl', _⟩ := hg; cases hl'
        | cycle hg => obtain ⟨l', hl', _⟩ := hg; cases hl'
        | star hg => obtain ⟨l', hl', _⟩ := hg; cases hl'
      · cases hr
      · cases hl'
    · rintro ⟨k, h1, h2⟩
      exact .inl ⟨rfl, .edge ⟨l, rfl, hl⟩ h1 h2⟩
  have hist : History [.add { edge := some l }, .delete none (some l)] (some G)
      (some (((G.added { edge := some l }).withoutVertices []).withoutPairs vs)) [.success, .success] :=
    .cons (.add ca rfl) (.cons (.delete (.inl ⟨rfl, rfl⟩) (.inr ⟨l, rfl, hl⟩) hev) .nil)
  obtain ⟨S1, e1, h1, _⟩ := C75_session nd root [.add { edge := some l }, .delete none (some l)] (by simp [Cmd.Proper]) fs _ h
  obtain ⟨rfl, ee⟩ := history_unique e1 hist
  refine ⟨_, h1, ee, ?_, ?_⟩
  · intro e
    simp only [SetGraph.withoutPairs, SetGraph.withoutVertices, SetGraph.added, hreq, List.not_mem_nil, not_false_eq_true, and_true]
    constructor
    · rintro ⟨h | ⟨k, hk⟩, hn⟩
      · exact h
      · exact absurd hk (hn k)
    · intro he
      exact ⟨.inl he, hnew e he⟩
  · intro v
    simp only [SetGraph.withoutPairs, SetGraph.withoutVertices, SetGraph.added, hreq, List.not_mem_nil, not_false_eq_true, and_true]
    constructor
    · rintro (h | ⟨ws, ⟨l', hl', _⟩, _⟩ | ⟨w, ⟨k, h1, h2⟩ | ⟨k, h1, h2⟩⟩)
      · exact .inl h
      · cases hl'
      · exact .inr (List.mem_of_getElem? h1)
      · exact .inr (List.mem_of_getElem? h2)
    · rintro (h | h)
      · exact .inl h
      · obtain ⟨i, hi⟩ := List.mem_iff_getElem?.1 h
        have hlt : i < vs.length := (List.getElem?_eq_some_iff.1 hi).1
        rcases Nat.mod_two_eq_zero_or_one i with h2 | h2
        · have hi2 : i = 2 * (i / 2) := by omega
          have hlt' : 2 * (i / 2) + 1 < vs.length := by omega
          refine .inr (.inr ⟨vs[2 * (i / 2) + 1], .inl ⟨i / 2, by rw [← hi2]; exact hi, List.getElem?_eq_getElem hlt'⟩⟩)
        · have hi2 : i = 2 * (i / 2) + 1 := by omega
          have hlt' : 2 * (i / 2) < vs.length := by omega
          refine .inr (.inr ⟨vs[2 * (i / 2)], .inr ⟨i / 2, List.getElem?_eq_getElem hlt', by rw [← hi2]; exact hi⟩⟩)

example : ArgIds [['1'], ['2']] [1, 2] :=
  parseVertexIdList_iff.1 (by decide)

/-! ### C65, C68 -/

/-- C65: gc-delete ends normally exactly when its arguments are valid, whatever the state of the file system. -/
theorem C65_delete_exit_code (root : FPath) (vertex edge : Option (List Text)) (fs : FS) :
    (gcDelete root vertex edge fs).2 = .success ↔
      (∀ l, vertex = some l → ∃ vs, ArgIds l vs) ∧ ∀ l, edge = some l → ∃ vs, ArgIds l vs ∧ vs.length % 2 = 0 :=
  delete_success

/-- C68 (partial): a failing gc-add leaves exactly the state that gc-add with only the options before the first invalid one leaves (in the
order vertex, edge, chain, cycle, star, clique); each option is carried out completely or not at all. Missing: the whole command is not
atomic, see `C68_counterexample`. -/
theorem C68_failed_add_partial (root : FPath) (a : AddArgs) (fs : FS) :
    ∃ n, ValidAdd (a.first n) ∧ (n = 6 ∨ n < 6 ∧ ¬ ValidAdd (a.first (n + 1))) ∧
      (gcAdd root a fs).1 = (gcAdd root (a.first n) fs).1 ∧ (gcAdd root (a.first n) fs).2 = .success ∧
      ((gcAdd root a fs).2 = .success ↔ n = 6) := by
  obtain ⟨n, h1, h2, h3⟩ := gcAdd_first root a fs
  exact ⟨n, h1.1, h1.2, h2, (C65_add_exit_code root _ fs).2 h1.1, h3⟩

/-- C68 (partial): a gc-delete that fails changed nothing, or removed exactly the given vertices. -/
theorem C68_failed_delete_partial (nd : Char → Bool) (root : FPath) (vertex edge : Option (List Text)) (fs : FS) (G : SetGraph)
    (h : Holds nd root fs (some G)) (hf : (gcDelete root vertex edge fs).2 = .panic) :
    Stored nd root (gcDelete root vertex edge fs).1 (some G) ∨
    ∃ vs, Given vertex vs ∧ Stored nd root (gcDelete root vertex edge fs).1 (some (G.withoutVertices vs)) := by
  obtain ⟨S', h1, h2, _⟩ := delete_effect vertex edge h
  have h2 := holds_stored h2
  rw [hf] at h1
  cases h1 with
  | delete_fails => exact .inl h2
  | delete_fails_edges hg =>
    rcases hg with ⟨_, rfl⟩ | hg
    · left
      have : G.withoutVertices [] = G := by
        apply SetGraph.ext'
        · intro v; simp [SetGraph.withoutVertices]
        · intro v; simp [SetGraph.withoutVertices]
      rwa [this] at h2
    · exact .inr ⟨_, hg, h2⟩

/-- `C76_neutral`, `C77_adds_commute`, `C77_add_idempotent` and `C77_delete_undoes_edges` from a graph with the edge 1 → 2. -/
example (nd : Char → Bool) :
    (∃ S', Stored nd [['d']] (session nd [['d']] ([] ++ .init :: [.delete (some [['1']]) none, .build id]) (sampleFS (Format.Gcmd.commandsText [.AddEdge 1 2]))).1 S' ∧
      Stored nd [['d']] (session nd [['d']] ([] ++ [.delete (some [['1']]) none, .build id]) (sampleFS (Format.Gcmd.commandsText [.AddEdge 1 2]))).1 S') ∧
    (∃ S', Stored nd [['d']] (session nd [['d']] [.add { vertex := some [['7']] }, .add { edge := some [['3'], ['4']] }]
        (sampleFS (Format.Gcmd.commandsText [.AddEdge 1 2]))).1 S' ∧
      Stored nd [['d']] (session nd [['d']] [.add { edge := some [['3'], ['4']] }, .add { vertex := some [['7']] }]
        (sampleFS (Format.Gcmd.commandsText [.AddEdge 1 2]))).1 S') ∧
    (∃ S', Stored nd [['d']] (session nd [['d']] [.add { edge := some [['3'], ['4']] }] (sampleFS (Format.Gcmd.commandsText [.AddEdge 1 2]))).1 S' ∧
      Stored nd [['d']] (session nd [['d']] [.add { edge := some [['3'], ['4']] }, .add { edge := some [['3'], ['4']] }]
        (sampleFS (Format.Gcmd.commandsText [.AddEdge 1 2]))).1 S') ∧
    ∃ G' : SetGraph, Stored nd [['d']] (session nd [['d']] [.add { edge := some [['3'], ['4']] }, .delete none (some [['3'], ['4']])]
        (sampleFS (Format.Gcmd.commandsText [.AddEdge 1 2]))).1 (some G') ∧
      ∀ e, G'.E e ↔ (GraphCommand.applyCommands [.AddEdge 1 2] .new).toSet.E e := by
  have hl : ArgIds [['3'], ['4']] [3, 4] := parseVertexIdList_iff.1 (by decide)
  have hv : ArgIds [['7']] [7] := parseVertexIdList_iff.1 (by decide)
  have va : ValidAdd { vertex := some [['7']] } := by simp [ValidAdd]; exact ⟨_, hv⟩
  have ve : ValidAdd { edge := some [['3'], ['4']] } := by simp [ValidAdd]; exact ⟨_, hl, rfl⟩
  refine ⟨?_, ?_, ?_, ?_⟩
  · obtain ⟨S', h1, h2, _⟩ := C76_neutral nd [['d']] [] [.delete (some [['1']]) none, .build id] .init (.inl rfl) (by simp)
      (by simp only [List.forall_mem_cons, Cmd.Proper]; exact ⟨trivial, fun _ => .refl _, by simp⟩) _ _ (sample_holds nd [.AddEdge 1 2]) _
      (holds_stored (sample_holds nd [.AddEdge 1 2]))
    exact ⟨S', h1, h2⟩
  · obtain ⟨S', h1, h2, _⟩ := C77_adds_commute nd [['d']] _ _ va ve _ _ (sample_holds nd [.AddEdge 1 2])
    exact ⟨S', h1, h2⟩
  · exact C77_add_idempotent nd [['d']] _ ve _ _ (sample_holds nd [.AddEdge 1 2])
  · obtain ⟨G', h1, _, h2, _⟩ := C77_delete_undoes_edges nd [['d']] _ _ hl rfl _ _ (sample_holds nd [.AddEdge 1 2]) (by
      rintro ⟨a, b⟩ he (_ | k) ⟨h1, h2⟩
      · cases h1; cases h2; cases he
      · simp [show 2 * (k + 1) = 2 * k + 2 by omega] at h1)
    exact ⟨G', h1, h2⟩

/-- `C68_failed_delete_partial`: `gc-delete --vertex 1 --edge x y` fails. -/
example (nd : Char → Bool) : ∃ G, Stored nd [['d']] (gcDelete [['d']] (some [['1']]) (some [['x'], ['y']])
    (sampleFS (Format.Gcmd.commandsText [.AddEdge 1 2]))).1 (some G) :=
  (C68_failed_delete_partial nd [['d']] _ _ _ _ (sample_holds nd [.AddEdge 1 2]) (by decide)).elim (fun h => ⟨_, h⟩) fun ⟨_, _, h⟩ => ⟨_, h⟩

example : (gcAdd [['d']] { vertex := some [['7']], edge := some [['1']] } (sampleFS [])).2 = .panic := by rfl

end GC
